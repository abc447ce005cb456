import Verif.Model.Split
import Verif.Spec.OpShapes
import Verif.Props.OpRules

/-!
# Split covers the axis exactly
-/

namespace OnnxIR

open Infer

theorem chunks_length (c n r : Nat) : (Infer.chunks c n r).length = n := by
  induction n generalizing r with
  | zero => rfl
  | succ n ih => simp [Infer.chunks, ih]

theorem chunks_sum (c n r : Nat) : (Infer.chunks c n r).sum = min (n * c) r := by
  induction n generalizing r with
  | zero => simp [Infer.chunks]
  | succ n ih =>
    simp only [Infer.chunks, List.sum_cons, ih, Nat.succ_mul]
    generalize n * c = x
    omega

theorem le_mul_divCeil {d n : Nat} (hn : 0 < n) : d ≤ n * Infer.divCeil d n := by
  unfold Infer.divCeil
  have := Nat.div_add_mod (d + n - 1) n
  have := Nat.mod_lt (d + n - 1) hn
  omega

/-- The chunk is the smallest size with which `n` chunks cover the dimension. -/
theorem divCeil_least {d n c : Nat} (hn : 0 < n) (h : d ≤ n * c) : Infer.divCeil d n ≤ c := by
  unfold Infer.divCeil
  have : (d + n - 1) / n < c + 1 := by
    rw [Nat.div_lt_iff_lt_mul hn]
    rw [Nat.add_mul, Nat.mul_comm c n]
    omega
  omega

theorem chunks_eq (c n r : Nat) :
    Infer.chunks c n r = (List.range n).map fun i => min c (r - i * c) := by
  induction n generalizing r with
  | zero => rfl
  | succ n ih =>
    rw [List.range_succ_eq_map]
    simp only [Infer.chunks, List.map_cons, List.map_map]
    rw [ih]
    congr 1
    · simp
    · apply List.map_congr_left
      intro i _
      simp only [Function.comp]
      rw [Nat.succ_mul, Nat.sub_sub, Nat.add_comm]

/-- The sizes computed at import and those computed by the generated code are the same. -/
theorem C19_static_eq_runtime (dim n : Nat) :
    Infer.chunkSizes dim n = Infer.runtimeChunkSizes dim n := chunks_eq _ _ _

/-- An even split into `n` outputs gives exactly `n` chunks that cover the dimension; each but the
trailing ones has the smallest size that can do so, and a shorter chunk is followed by empty ones
only. -/
theorem C19_even_split {dim n : Nat} (hn : 0 < n) :
    (Infer.chunkSizes dim n).length = n ∧ (Infer.chunkSizes dim n).sum = dim ∧
    ∃ c, (∀ c', dim ≤ n * c' → c ≤ c') ∧ ∀ (i s : Nat), (Infer.chunkSizes dim n)[i]? = some s →
      s = if (i + 1) * c ≤ dim then c else dim - i * c := by
  refine ⟨chunks_length _ _ _, ?_, Infer.divCeil dim n, fun c' => divCeil_least hn, ?_⟩
  · rw [Infer.chunkSizes, chunks_sum]
    have := le_mul_divCeil (d := dim) hn
    omega
  · intro i s hs
    rw [Infer.chunkSizes, chunks_eq, List.getElem?_map] at hs
    obtain ⟨j, hj, rfl⟩ := Option.map_eq_some_iff.1 hs
    rw [List.getElem?_eq_some_iff] at hj
    obtain ⟨hj, rfl⟩ := hj
    rw [List.getElem_range, Nat.succ_mul]
    generalize i * Infer.divCeil dim n = x
    split <;> omega

example : Infer.chunkSizes 10 4 = [3, 3, 3, 1] ∧ Infer.chunkSizes 3 5 = [1, 1, 1, 0, 0] ∧
    Infer.chunkSizes 8 2 = [4, 4] := by decide +kernel

/-- Explicit sizes are accepted only if there is one per output, none is negative, and they add up to
the dimension when it is known. -/
theorem C19_explicit_sizes {dim : Option Nat} {outputs : Nat} {sizes : List Int} {u : List Nat} :
    Infer.explicitSizes dim outputs sizes = some u ↔
      sizes = u.map Int.ofNat ∧ u.length = outputs ∧ ∀ d, dim = some d → u.sum = d := by
  unfold Infer.explicitSizes
  constructor
  · intro h
    split at h
    · cases h
    · rename_i hneg
      have hs : ∀ u, sizes.map Int.toNat = u → sizes = u.map Int.ofNat := by
        rintro u rfl
        rw [List.map_map]
        rw [List.map_congr_left (g := id), List.map_id]
        intro a ha
        have : ¬ a < 0 := by
          intro hlt
          exact hneg (List.any_eq_true.2 ⟨a, ha, by simpa using hlt⟩)
        simp only [Function.comp, id, Int.ofNat_eq_natCast]
        omega
      dsimp only at h
      split at h
      · cases h
      · rename_i hlen
        split at h
        · rename_i d
          split at h
          · cases h
          · rename_i hsum
            simp only [Option.some.injEq] at h
            have hlen : u.length = outputs := by rw [← h]; exact Decidable.not_not.1 hlen
            refine ⟨hs u h, hlen, ?_⟩
            intro d' hd'
            cases hd'
            rw [← h]
            exact Decidable.not_not.1 hsum
        · simp only [Option.some.injEq] at h
          have hlen : u.length = outputs := by rw [← h]; exact Decidable.not_not.1 hlen
          exact ⟨hs u h, hlen, by simp⟩
  · rintro ⟨rfl, rfl, hsum⟩
    have h1 : (u.map Int.ofNat).any (· < 0) = false := by
      rw [List.any_eq_false]
      intro a ha
      obtain ⟨n, -, rfl⟩ := List.mem_map.1 ha
      simp
    have h2 : (u.map Int.ofNat).map Int.toNat = u := by
      rw [List.map_map, List.map_congr_left (g := id), List.map_id]
      intro a _; rfl
    rw [h1]
    simp only [Bool.false_eq_true, if_false, h2, ne_eq, not_true_eq_false]
    cases dim with
    | none => rfl
    | some d => simp [hsum d rfl]

/-- Whatever configuration is produced, the generated code splits a dimension that agrees with the
static shape into sizes that cover it exactly, one per output, if `num_outputs` (when present) is the
number of outputs; explicit sizes are assumed to cover a dimension unknown at import. -/
theorem C19_generated_split {rank : Nat} {sh : Option PShape} {axis : Int} {num : Option Nat}
    {arg : Infer.SplitArg} {outputs dim : Nat} {c : Infer.SplitConfig} {sizes : List Nat}
    (hc : Infer.splitConfig rank sh axis num arg outputs = some c)
    (hg : Infer.generatedSizes c dim = some sizes)
    (hnum : ∀ n, num = some n → n = outputs) (hout : 0 < outputs)
    (hdim : ∀ d, (sh.bind (·[c.axis]?)).join = some d → d = dim)
    (hexp : ∀ l, (arg = .constInput l ∨ arg = .attr l) → l ≠ [] → l.sum = (dim : Int)) :
    sizes.length = outputs ∧ sizes.sum = dim ∧ c.axis < rank := by
  have hsumcast : ∀ u : List Nat, (u.map Int.ofNat).sum = (u.sum : Int) := by
    intro u
    induction u with
    | nil => rfl
    | cons a as ih => simp only [List.map_cons, List.sum_cons, ih]; simp
  unfold Infer.splitConfig at hc
  split at hc
  · cases hc
  · rename_i hax
    have hrank : (Infer.normAxis rank axis).toNat < rank := by
      unfold Infer.normAxis
      split <;> omega
    simp only at hc
    split at hc
    · cases hc
    · rename_i hn0
      split at hc
      · cases hc
      · rename_i first hfirst
        split at hc
        · cases hc
        · rename_i second hsecond
          simp only [Option.some.injEq] at hc
          have hcax : c.axis = (Infer.normAxis rank axis).toNat := by rw [← hc]
          rw [hcax] at hdim
          generalize hdd : (sh.bind (·[(Infer.normAxis rank axis).toNat]?)).join = dd at *
          have hgood : ∀ u, u = Infer.chunkSizes dim outputs ∨ u = Infer.runtimeChunkSizes dim outputs →
              u.length = outputs ∧ u.sum = dim := by
            rintro u (rfl | rfl)
            · exact ⟨(C19_even_split hout).1, (C19_even_split hout).2.1⟩
            · rw [← C19_static_eq_runtime]
              exact ⟨(C19_even_split hout).1, (C19_even_split hout).2.1⟩
          have hfirst' : ∀ u, first = some (.static u) → u = Infer.chunkSizes dim outputs := by
            intro u hu
            subst hu
            split at hfirst
            · rename_i n d
              split at hfirst
              · cases hfirst
              · simp only [Option.some.injEq, Infer.SplitSizes.static.injEq] at hfirst
                rw [← hfirst, hnum n rfl, hdim d rfl]
            · cases hfirst
          have hfirst'' : first ≠ some .runtime := by
            intro hu
            subst hu
            split at hfirst
            · split at hfirst <;> simp at hfirst
            · cases hfirst
          have hexpl : ∀ l u, (arg = .constInput l ∨ arg = .attr l) → u ≠ [] →
              Infer.explicitSizes dd outputs l = some u → u.length = outputs ∧ u.sum = dim := by
            intro l u hl hu he
            obtain ⟨h1, h2, h3⟩ := C19_explicit_sizes.1 he
            refine ⟨h2, ?_⟩
            have := hexp l hl (by rw [h1]; simpa using hu)
            rw [h1, hsumcast] at this
            exact Int.ofNat.inj this
          have hsec : ∀ u, second = some (.static u) → u.length = outputs ∧ u.sum = dim := by
            intro u hu
            subst hu
            split at hsecond
            · simp at hsecond
            · obtain ⟨w, hw, hw2⟩ := Option.map_eq_some_iff.1 hsecond
              split at hw2
              · cases hw2
              · rename_i hwne
                simp at hw2
                subst hw2
                exact hexpl _ w (Or.inl rfl) hwne hw
            · split at hsecond
              · simp only [Option.some.injEq] at hsecond
                exact hgood u (Or.inl (hfirst' u hsecond))
              · rename_i hlne
                obtain ⟨w, hw, hw2⟩ := Option.map_eq_some_iff.1 hsecond
                simp at hw2
                subst hw2
                refine hexpl _ w (Or.inr rfl) ?_ hw
                intro hwn
                have := (C19_explicit_sizes.1 hw).1
                rw [hwn] at this
                exact hlne (by simpa using this)
            · simp only [Option.some.injEq] at hsecond
              exact hgood u (Or.inl (hfirst' u hsecond))
          refine ⟨?_, ?_, by omega⟩ <;>
          · rw [← hc] at hg
            cases second with
            | none =>
              cases dd with
              | none =>
                simp [Infer.generatedSizes] at hg
                have : num.getD outputs = outputs := by
                  cases num with
                  | none => rfl
                  | some n => exact hnum n rfl
                rw [this] at hg
                have := hgood sizes (Or.inr hg.symm)
                simp [this]
              | some d =>
                simp [Infer.generatedSizes] at hg
                rw [hdim d rfl] at hg
                have := hgood sizes (Or.inl hg.symm)
                simp [this]
            | some sz =>
              cases sz with
              | static u =>
                simp [Infer.generatedSizes] at hg
                subst hg
                have := hsec u rfl
                simp [this]
              | runtime => simp [Infer.generatedSizes] at hg

/-- The hypotheses hold for a plain split of an unknown dimension and for explicit sizes. -/
example : (∃ c, Infer.splitConfig 2 (some [none, some 4]) (-2) (some 3) .absent 3 = some c ∧
      Infer.generatedSizes c 7 = some [3, 3, 1]) ∧
    (∃ c, Infer.splitConfig 2 (some [none, some 7]) 1 none (.constInput [2, 5]) 2 = some c ∧
      Infer.generatedSizes c 7 = some [2, 5]) := by
  refine ⟨⟨⟨0, none, some 3⟩, by decide +kernel, by decide +kernel⟩,
    ⟨⟨1, some (.static [2, 5]), none⟩, by decide +kernel, by decide +kernel⟩⟩

/-- `num_outputs` that is not the number of outputs is not rejected: the generated code then has 3
chunks for 2 outputs (and panics when unpacking them). -/
theorem C19_num_outputs_unchecked :
    ∃ c, Infer.splitConfig 1 (some [some 6]) 0 (some 3) .absent 2 = some c ∧
      Infer.generatedSizes c 6 = some [2, 2, 2] :=
  ⟨⟨0, some (.static [2, 2, 2]), none⟩, by decide +kernel, by decide +kernel⟩

/-- The type of output `i` describes it: the input's shape with the `i`-th size on the axis. -/
theorem C19_split_type {x t : ArgType} {axis : Int} {k : Nat} {sizes : Option (List Int)} {i d : Nat}
    {s : List Nat} (hx : x.Admits s) (hk : Onnx.axis s.length axis = some k)
    (hsz : ∀ l v, sizes = some l → l[i]? = some v → v = (d : Int))
    (ht : Infer.splitOutput x axis sizes i = some t) : t.Admits (s.set k d) := by
  have hnorm : Infer.normAxis s.length axis = (k : Int) ∧ k < s.length := by
    unfold Onnx.axis at hk
    unfold Infer.normAxis
    split at hk
    · simp only [Option.some.injEq] at hk
      split at hk <;> split <;> omega
    · cases hk
  -- the part common to tensors and `Shape` values
  have main : ∀ (dt : DType) (sh : Option PShape) (t : ArgType), (∀ p, sh = some p → p.Describes s) →
      Infer.splitTensor dt s.length sh axis sizes i = some t → t.Admits (s.set k d) := by
    intro dt sh t hsh h
    unfold Infer.splitTensor at h
    split at h
    · rename_i sz p
      split at h
      · rename_i v hv
        have hvd := hsz sz v rfl hv
        simp only [hnorm.1] at h
        split at h
        · simp only [Option.some.injEq] at h
          subst h
          refine ⟨by simp, ?_⟩
          intro q hq
          simp only [Option.some.injEq] at hq
          subst hq
          have hdesc := hsh p rfl
          rw [PShape.describes_iff] at hdesc ⊢
          refine ⟨by simpa using hdesc.1, ?_⟩
          intro j e he
          simp only [Int.toNat_natCast] at he
          rw [List.getElem?_set] at he ⊢
          split at he
          · rename_i hkj
            subst hkj
            rw [if_pos rfl, if_pos hnorm.2]
            split at he
            · simp only [Option.some.injEq] at he
              rw [← he, hvd]
              simp [Infer.asUsize]
              omega
            · cases he
          · rename_i hkj
            rw [if_neg hkj]
            exact hdesc.2 j e he
        · cases h
      · simp only [Option.some.injEq] at h
        subst h
        exact ⟨by simp, by simp⟩
    · simp only [Option.some.injEq] at h
      subst h
      exact ⟨by simp, by simp⟩
  unfold Infer.splitOutput at ht
  cases x with
  | tensor tt =>
    simp only [ArgType.Admits] at hx
    simp only [← hx.1] at ht
    exact main tt.dtype tt.staticShape t hx.2 ht
  | shape n =>
    have hs : s = [n] := hx
    subst hs
    exact main .i64 (some [some n]) t (by intro p hp; cases hp; simp [PShape.Describes]) ht
  | scalarTensor _ => simp at ht
  | scalarNative _ => simp at ht

end OnnxIR
