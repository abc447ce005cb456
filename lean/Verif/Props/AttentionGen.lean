import Verif.Model.AttentionGen
import Verif.Props.MatMul
import Verif.Props.Concat
import Verif.Lemmas.Box
import Verif.Lemmas.Shapes

/-!
# Attention: values of the generated code
-/

namespace OnnxIR

open Onnx Gen

/-! ### Heads -/

section
variable {α : Type} [Inhabited α]

theorem permute_0213 {a b c d : Nat} {u : Tensor α} (hu : u.shape = [a, b, c, d]) :
    Burn.permute u [0, 2, 1, 3] = Tensor.ofFn [a, c, b, d] fun i => u.get [i.getD 0 0, i.getD 2 0, i.getD 1 0, i.getD 3 0] := by
  unfold Burn.permute Tensor.transpose
  rw [hu]
  rfl

theorem permute_0132 {a b c d : Nat} {u : Tensor α} (hu : u.shape = [a, b, c, d]) :
    Burn.permute u [0, 1, 3, 2] = Tensor.ofFn [a, b, d, c] fun i => u.get [i.getD 0 0, i.getD 1 0, i.getD 3 0, i.getD 2 0] := by
  unfold Burn.permute Tensor.transpose
  rw [hu]
  rfl

theorem toHeads_eq {b s H d : Nat} {x : Tensor α} (hx : x.shape = [b, s, H * d]) : toHeads x [b, s, H, d] = some (splitHeads H d x) := by
  unfold toHeads
  have hp : prodShape [b, s, H, d] = prodShape x.shape := by rw [hx]; simp [prodShape]
  obtain ⟨u, hu⟩ := Option.isSome_iff_exists.1 (Burn.reshape_isSome.2 hp)
  rw [hu, Option.map_some, permute_0213 (Burn.reshape_get (i := []) hu).1]
  unfold splitHeads
  rw [hx]
  refine congrArg some (Tensor.ofFn_congr fun i hi => ?_)
  obtain ⟨n, h, t, e, rfl, -, -, -, -⟩ := inRange4 hi
  refine Burn.reshape_get_eq hu ?_
  rw [hx]
  simp [flatIdx, prodShape]

theorem attnJoin_eq {b h s d m : Nat} {x : AttnArgs} {y : Tensor ℝ} (hq : x.q.shape = [b, s, m]) (hy : y.shape = [b, h, s, d]) (hb : 0 < b) (hs : 0 < s) :
    attnJoin x y = some (joinHeads y) := by
  unfold attnJoin
  rw [hq]
  dsimp only
  unfold Burn.reshapeRest
  have hbs : 0 < b * s := Nat.mul_pos hb hs
  have hsh : (Burn.permute y [0, 2, 1, 3]).shape = [b, s, h, d] := by rw [permute_0213 hy]; rfl
  have hd : prodShape [b, s, h, d] / (b * s) = h * d := by
    have : prodShape [b, s, h, d] = b * s * (h * d) := by simp [prodShape]; ring
    rw [this, Nat.mul_div_cancel_left _ hbs]
  rw [if_neg (by omega), hsh, hd]
  have hp : prodShape [b, s, h * d] = prodShape (Burn.permute y [0, 2, 1, 3]).shape := by rw [hsh]; simp [prodShape]
  obtain ⟨u, hu⟩ := Option.isSome_iff_exists.1 (Burn.reshape_isSome.2 hp)
  rw [hu]
  congr 1
  have hus := (Burn.reshape_get (i := []) hu).1
  refine Tensor.eq_of_get (by rw [hus]; simp [joinHeads, hy, Tensor.ofFn]) fun i hi => ?_
  rw [hus] at hi
  match i, hi with
  | [n, t, c], hi =>
    have h1 : n < b := hi.1
    have h2 : t < s := hi.2.1
    have h3 : c < h * d := hi.2.2.1
    have hd0 : 0 < d := by rcases Nat.eq_zero_or_pos d with h0 | h0; · simp [h0] at h3
                           · exact h0
    have hc : c / d < h := by rw [Nat.div_lt_iff_lt_mul hd0]; exact h3
    have hm : c % d < d := Nat.mod_lt _ hd0
    have hr : InRange [b, s, h, d] [n, t, c / d, c % d] := ⟨h1, h2, hc, hm, trivial⟩
    rw [Burn.reshape_get_eq (j := [n, t, c / d, c % d]) hu (by
      rw [hsh]
      have := Nat.div_add_mod c d
      simp [flatIdx, prodShape]
      have e : c / d * d = d * (c / d) := Nat.mul_comm _ _
      omega)]
    rw [permute_0213 hy, Tensor.get_ofFn hr]
    unfold joinHeads
    rw [hy]
    refine Eq.symm ?_
    exact Tensor.get_ofFn (show InRange [b, s, h * d] [n, t, c] from hi)

end

/-! ### Products -/

theorem dotR_row (k : Nat) (f g : Nat → ℝ) : dotR (Burn.row k f) (Burn.row k g) = ∑ l ∈ Finset.range k, f l * g l := by
  unfold dotR Burn.row
  induction k with
  | zero => simp
  | succ k ih =>
    rw [Finset.sum_range_succ, ← ih, List.range_succ, List.map_append, List.map_append, List.zipWith_append (by simp)]
    simp

theorem matmul4 {b h m k n : Nat} {x y : Tensor ℝ} (hx : x.shape = [b, h, m, k]) (hy : y.shape = [b, h, k, n]) :
    Burn.matmul dotR x y = some (Tensor.ofFn [b, h, m, n] fun i =>
      ∑ l ∈ Finset.range k, x.get [i.getD 0 0, i.getD 1 0, i.getD 2 0, l] * y.get [i.getD 0 0, i.getD 1 0, l, i.getD 3 0]) := by
  unfold Burn.matmul
  rw [hx, hy]
  simp only [List.reverse_cons, List.reverse_nil, List.nil_append, List.cons_append, List.length_cons, List.length_nil, and_self, if_true]
  have : bcast [b, h] [b, h] = some [b, h] := by simp [bcast, bcastRev]
  rw [this, Option.map_some]
  refine congrArg some (Tensor.ofFn_congr fun i hi => ?_)
  obtain ⟨i0, i1, i2, i3, rfl, h0, h1, h2, h3⟩ := inRange4 hi
  rw [show List.take [b, h].length [i0, i1, i2, i3] = [i0, i1] from rfl, proj_self (show InRange [b, h] [i0, i1] from ⟨h0, h1, trivial⟩), dotR_row]
  rfl

/-! ### ONNX's result at an index -/

theorem attention_get {scale : Option ℝ} {mask : Option AttnMask} {causal : Bool} {cap : ℝ} {q k v : Tensor ℝ} {b h sq sk d dv : Nat}
    (hq : q.shape = [b, h, sq, d]) (hk : k.shape = [b, h, sk, d]) (hv : v.shape = [b, h, sk, dv]) {n hh i e : Nat}
    (hr : InRange [b, h, sq, dv] [n, hh, i, e]) :
    let score (j : Nat) : Score := (if cap = 0 then id else Score.cap cap)
      (((attnScale scale d * ∑ e ∈ Finset.range d, q.get [n, hh, i, e] * k.get [n, hh, j, e] : ℝ) : Score) + attnBias mask causal [n, hh, i, j])
    (attention scale mask causal cap q k v).get [n, hh, i, e] =
      ∑ j ∈ Finset.range sk, (score j).exp / (∑ l ∈ Finset.range sk, (score l).exp) * v.get [n, hh, j, e] := by
  intro score
  obtain ⟨r0, r1, r2, r3, -⟩ := hr
  have hh1 : hh / (h / h) = hh := by rw [Nat.div_self (by omega), Nat.div_one]
  have hcap : ∀ j < sk, (attnCapped cap (attnMasked mask causal (attnQk (attnScale scale d) q k))).get [n, hh, i, j] = score j := by
    intro j hj
    have hi : InRange [b, h, sq, sk] [n, hh, i, j] := ⟨r0, r1, r2, hj, trivial⟩
    have e1 : (attnQk (attnScale scale d) q k).get [n, hh, i, j] =
        attnScale scale d * ∑ e ∈ Finset.range d, q.get [n, hh, i, e] * k.get [n, hh, j, e] := by
      unfold attnQk
      rw [hq, hk]
      refine (Tensor.get_ofFn hi).trans ?_
      show attnScale scale d * ∑ e ∈ Finset.range d, q.get [n, hh, i, e] * k.get [n, hh / (h / h), j, e] = _
      rw [hh1]
    have s1 : (attnQk (attnScale scale d) q k).shape = [b, h, sq, sk] := by unfold attnQk; rw [hq, hk]; rfl
    have e2 : (attnMasked mask causal (attnQk (attnScale scale d) q k)).get [n, hh, i, j] =
        ((attnScale scale d * ∑ e ∈ Finset.range d, q.get [n, hh, i, e] * k.get [n, hh, j, e] : ℝ) : Score) + attnBias mask causal [n, hh, i, j] := by
      unfold attnMasked
      rw [s1, Tensor.get_ofFn hi, e1]
    unfold attnCapped
    rw [show (attnMasked mask causal (attnQk (attnScale scale d) q k)).shape = [b, h, sq, sk] from s1, Tensor.get_ofFn hi, e2]
    simp only [score]
    split <;> rfl
  have hs : (attnCapped cap (attnMasked mask causal (attnQk (attnScale scale d) q k))).shape = [b, h, sq, sk] := by
    show (attnQk (attnScale scale d) q k).shape = _
    unfold attnQk; rw [hq, hk]; rfl
  unfold attention
  rw [hq, show ([b, h, sq, d] : List Nat).getD 3 0 = d from rfl]
  unfold attnApply
  have hw : (attnWeights (attnCapped cap (attnMasked mask causal (attnQk (attnScale scale d) q k)))).shape = [b, h, sq, sk] := hs
  rw [hw, hv]
  refine (Tensor.get_ofFn (show InRange [b, h, sq, dv] [n, hh, i, e] from ⟨r0, r1, r2, r3, trivial⟩)).trans ?_
  refine Finset.sum_congr rfl fun j hj => ?_
  have hj := Finset.mem_range.1 hj
  show (attnWeights _).get [n, hh, i, j] * v.get [n, hh / (h / h), j, e] = _
  rw [hh1]
  congr 1
  unfold attnWeights
  rw [hs, Tensor.get_ofFn (show InRange [b, h, sq, sk] [n, hh, i, j] from ⟨r0, r1, r2, hj, trivial⟩), hcap j hj]
  congr 1
  exact Finset.sum_congr rfl fun l hl => congrArg Score.exp (hcap l (Finset.mem_range.1 hl))

/-! ### Masks -/

section
variable {α : Type} [Inhabited α]

/-- A mask with as many dimensions of size one in front as are missing from four. -/
theorem rank4_eq {t : Tensor α} {s : List Nat} (hs : s.length = 4) (hb : bcast t.shape s = some s)
    (hr : t.shape.length = 2 ∨ t.shape.length = 4 ∨ t.shape.length = 3 ∧ t.shape.head? = some 1) :
    ∃ u, attnRank4 t = some u ∧ u.shape.length = 4 ∧ bcast u.shape s = some s ∧ ∀ i, i.length = 4 → u.get (proj u.shape i) = t.get (proj t.shape i) := by
  have pad : ∀ m, t.shape.length + m = 4 → ∃ u, Burn.reshape t (List.replicate m 1 ++ t.shape) = some u ∧ u.shape.length = 4 ∧
      bcast u.shape s = some s ∧ ∀ i, i.length = 4 → u.get (proj u.shape i) = t.get (proj t.shape i) := by
    intro m hm
    obtain ⟨u, hu⟩ := Option.isSome_iff_exists.1 (Burn.reshape_isSome.2
      (show prodShape (List.replicate m 1 ++ t.shape) = prodShape t.shape by rw [prodShape_append, prodShape_replicate_one, Nat.one_mul]))
    have hus := (Burn.reshape_get (i := []) hu).1
    refine ⟨u, hu, by rw [hus]; simp; omega, ?_, ?_⟩
    · rw [hus]
      have := bcast_pad hb m (by omega)
      rw [this, show t.shape.length + m - s.length = 0 by omega]
      rfl
    · intro i hi
      rw [hus, proj_ones (by omega)]
      exact Burn.reshape_get_eq hu (flatIdx_pad _ _ _)
  unfold attnRank4
  rcases hr with h | h | ⟨h, h1⟩
  · match hsh : t.shape, h with
    | [a, b], _ =>
      obtain ⟨u, hu, h2⟩ := pad 2 (by rw [hsh]; rfl)
      rw [hsh] at h2
      refine ⟨u, ?_, h2⟩
      dsimp only
      unfold Burn.unsqueeze
      rw [if_pos (by rw [hsh]; simp), ← hu, hsh]
      rfl
  · match hsh : t.shape, h with
    | [a, b, c, d], _ => exact ⟨t, rfl, by rw [hsh]; rfl, by rw [hsh] at hb ⊢; exact hb, fun i _ => by rw [hsh]⟩
  · match hsh : t.shape, h, h1 with
    | [a, b, c], _, h1 =>
      simp only [List.head?_cons, Option.some.injEq] at h1
      subst h1
      obtain ⟨u, hu, h2⟩ := pad 1 (by rw [hsh]; rfl)
      rw [hsh] at h2 hu
      exact ⟨u, hu, h2⟩

end

/-- The mask as Burn sees it. -/
theorem maskBias_eq {a : AttnAttrs} {x : AttnArgs} {s : List Nat} (hs : s.length = 4) (hfits : MaskFits x.mask s)
    (hr : ∀ m, x.mask = some m → m.shape.length = 2 ∨ m.shape.length = 4 ∨ m.shape.length = 3 ∧ m.shape.head? = some 1)
    (hc : a.causal = true → x.mask = none) :
    ∃ m b, attnMaskBias a x = some (m, b) ∧ (x.mask = none → m = none ∧ b = none) ∧
      (∀ u, m = some u → u.shape.length = 4 ∧ bcast u.shape s = some s) ∧ (∀ u, b = some u → u.shape.length = 4 ∧ bcast u.shape s = some s) ∧
      ∀ i, InRange s i → (m.elim 0 fun m => if m.get (proj m.shape i) then ⊥ else 0) + (b.elim 0 fun m => m.get (proj m.shape i)) +
        (if a.causal ∧ i.getD 2 0 < i.getD 3 0 then ⊥ else (0 : Score)) = attnBias x.mask a.causal i := by
  unfold attnMaskBias
  cases hm : x.mask with
  | none =>
    refine ⟨none, none, by split <;> rfl, fun _ => ⟨rfl, rfl⟩, by simp, by simp, fun i _ => ?_⟩
    simp [attnBias]
  | some m =>
    have hca : a.causal = false := by
      cases h : a.causal with
      | false => rfl
      | true => have := hc h; rw [hm] at this; cases this
    rw [hca]
    have hf := hfits m hm
    have hr := hr m hm
    cases m with
    | bool t =>
      obtain ⟨u, hu, h1, h2, h3⟩ := rank4_eq (t := t.map (!·)) hs hf hr
      refine ⟨some u, none, by simp [hu], by simp, ?_, by simp, fun i hi => ?_⟩
      · intro w hw
        cases hw
        exact ⟨h1, h2⟩
      · simp only [Option.elim_some, Option.elim_none, attnBias, h3 i (hi.length.trans hs)]
        rw [show (t.map (!·)).get (proj (t.map (!·)).shape i) = !(t.get (proj t.shape i)) from Tensor.get_map (proj_inRange hf hi).1]
        cases t.get (proj t.shape i) <;> simp
    | float t =>
      obtain ⟨u, hu, h1, h2, h3⟩ := rank4_eq hs hf hr
      refine ⟨none, some u, by simp [hu], by simp, by simp, ?_, fun i hi => ?_⟩
      · intro w hw
        cases hw
        exact ⟨h1, h2⟩
      · simp only [Option.elim_some, Option.elim_none, attnBias, h3 i (hi.length.trans hs), zero_add]
    | int t =>
      obtain ⟨u, hu, h1, h2, h3⟩ := rank4_eq (t := t.map fun n : Int => (((n : ℤ) : ℝ) : Score)) hs hf hr
      refine ⟨none, some u, by simp [hu], by simp, by simp, ?_, fun i hi => ?_⟩
      · intro w hw
        cases hw
        exact ⟨h1, h2⟩
      · simp only [Option.elim_some, Option.elim_none, attnBias, h3 i (hi.length.trans hs), zero_add]
        rw [show (t.map fun n : Int => (((n : ℤ) : ℝ) : Score)).get (proj (t.map fun n : Int => (((n : ℤ) : ℝ) : Score)).shape i) =
          (((t.get (proj t.shape i) : ℤ) : ℝ) : Score) from Tensor.get_map (proj_inRange hf hi).1]

/-! ### Theorem for Burn's function -/

/-- How the inputs of a node are read as tensors `[batch, heads, length, size]`. -/
inductive AttnInputs (a : AttnAttrs) (x : AttnArgs) : Tensor ℝ → Tensor ℝ → Tensor ℝ → Prop
  | four : x.q.shape.length = 4 → x.k.shape.length = 4 → x.v.shape.length = 4 → AttnInputs a x x.q x.k x.v
  | three {b sq sk H Hk d dv : Nat} : a.qHeads = some H → a.kvHeads = some Hk → 0 < H → 0 < Hk → 0 < b → 0 < sq →
      x.q.shape = [b, sq, H * d] → x.k.shape = [b, sk, Hk * d] → x.v.shape = [b, sk, Hk * dv] →
      AttnInputs a x (splitHeads H d x.q) (splitHeads Hk d x.k) (splitHeads Hk dv x.v)

/-- The output has the rank of the inputs. -/
def attnY (x : AttnArgs) (y : Tensor ℝ) : Tensor ℝ := if x.q.shape.length = 3 then joinHeads y else y

/-- Keys and values with the cache in front. -/
def Cached : Option (Tensor ℝ × Tensor ℝ) → Tensor ℝ → Tensor ℝ → Tensor ℝ → Tensor ℝ → Prop
  | none, k, v, k', v' => k' = k ∧ v' = v
  | some (pk, pv), k, v, k', v' => ConcatT 2 [pk, k] k' ∧ ConcatT 2 [pv, v] v'

theorem attnHeads_eq {a : AttnAttrs} {x : AttnArgs} {q k v : Tensor ℝ} (h : AttnInputs a x q k v) : attnHeads a x = some (q, k, v) := by
  unfold attnHeads
  cases h with
  | four hq _ _ =>
    match hs : x.q.shape, hq with
    | [_, _, _, _], _ => rfl
  | @three b sq sk H Hk d dv hH hHk h1 h2 _ _ hq hk hv =>
    rw [hq, hH, hHk]
    dsimp only
    rw [if_neg (by omega), hk, hv]
    have e1 : H * d / H = d := Nat.mul_div_cancel_left _ h1
    have e2 : ([b, sk, Hk * dv] : List Nat).getD 2 0 / Hk = dv := Nat.mul_div_cancel_left _ h2
    rw [e1, e2, show ([b, sk, Hk * d] : List Nat).getD 1 0 = sk from rfl, toHeads_eq hq, toHeads_eq hk, toHeads_eq hv]
    rfl

theorem attnCache_eq {past : Option (Tensor ℝ × Tensor ℝ)} {k v k' v' : Tensor ℝ} (h : Cached past k v k' v') : attnCache past k v = some (k', v') := by
  cases past with
  | none => obtain ⟨rfl, rfl⟩ := h; rfl
  | some p =>
    obtain ⟨h1, h2⟩ := h
    simp only [attnCache, cat_eq h1 (by simp), cat_eq h2 (by simp)]
    rfl

theorem attnJoin_of {a : AttnAttrs} {x : AttnArgs} {q k v y : Tensor ℝ} (h : AttnInputs a x q k v) {b hh sq d dv : Nat} (hq : q.shape = [b, hh, sq, d])
    (hy : y.shape = [b, hh, sq, dv]) : attnJoin x y = some (attnY x y) := by
  cases h with
  | four hl _ _ =>
    unfold attnJoin attnY
    match hs : x.q.shape, hl with
    | [_, _, _, _], _ => rfl
  | three hH hHk h1 h2 hb hsq hq' hk hv =>
    simp only [splitHeads, hq', Tensor.ofFn, List.cons.injEq] at hq
    obtain ⟨rfl, rfl, rfl, -⟩ := hq
    unfold attnY
    rw [if_pos (by rw [hq']; rfl)]
    exact attnJoin_eq hq' hy hb hsq

theorem attnAccepts_of {a : AttnAttrs} {x : AttnArgs} {q k v : Tensor ℝ} (h : AttnInputs a x q k v) (hm : a.mode ≤ 3)
    (ho : x.outs = 1 ∧ x.past = none ∨ (x.outs = 3 ∨ x.outs = 4) ∧ x.past.isSome) : attnAccepts a x = true := by
  unfold attnAccepts
  have hr : x.k.shape.length = x.q.shape.length ∧ x.v.shape.length = x.q.shape.length ∧
      (x.q.shape.length = 4 ∨ x.q.shape.length = 3 ∧ a.kvHeads.isSome ∧ a.qHeads.isSome) := by
    cases h with
    | four h1 h2 h3 => exact ⟨h2.trans h1.symm, h3.trans h1.symm, Or.inl h1⟩
    | three hH hHk _ _ _ _ hq hk hv => simp [hq, hk, hv, hH, hHk]
  obtain ⟨h1, h2, h3⟩ := hr
  rcases ho with ⟨ho, hp⟩ | ⟨ho | ho, hp⟩ <;> rcases h3 with h3 | ⟨h3, h4, h5⟩ <;> simp_all

/-- C72: with Burn's function behaving as assumed, the generated code of an Attention node computes ONNX's attention in every row that keeps a
key, and the new cache. Missing: several query heads for a key head, a mask together with `is_causal`, masks of rank 3 with several heads, a cap
together with a mask, causal attention with other numbers of keys than queries. -/
theorem C72_attention_partial (f : Burn.Attn) (hf : Burn.Attends f) (a : AttnAttrs) (x : AttnArgs) {q k v k' v' : Tensor ℝ} {b h sq sk d dv : Nat}
    (hin : AttnInputs a x q k v) (hc : Cached x.past k v k' v') (hq : q.shape = [b, h, sq, d]) (hk : k'.shape = [b, h, sk, d])
    (hv : v'.shape = [b, h, sk, dv]) (hprec : a.precision = none) (hmode : a.mode ≤ 3) (hout : x.outs = if x.past.isSome then 3 else 1)
    (hfits : MaskFits x.mask [b, h, sq, sk])
    (hrank : ∀ m, x.mask = some m → m.shape.length = 2 ∨ m.shape.length = 4 ∨ m.shape.length = 3 ∧ m.shape.head? = some 1)
    (hcausal : a.causal = true → x.mask = none ∧ sq = sk) (hcap : a.softcap ≠ 0 → x.mask = none ∧ a.causal = false) :
    ∃ y, IsAttended a.scale x.mask a.causal a.softcap q k' v' y ∧
      genAttention f a x = some { y := attnY x y, present := x.past.map fun _ => (k', v') } := by
  obtain ⟨m, bs, hmb, hnone, hm4, hb4, hbias⟩ := maskBias_eq (a := a) (x := x) (s := [b, h, sq, sk]) rfl hfits hrank fun h => (hcausal h).1
  obtain ⟨y, hy, hys, hyv⟩ := hf q k' v' m bs a.scale (if a.softcap ≠ 0 then some a.softcap else none) a.causal b h sq sk d dv hq hk hv hm4 hb4
    (by
      by_cases h0 : a.softcap = 0
      · left; simp [h0]
      · right
        have := hcap h0
        exact ⟨(hnone this.1).1, (hnone this.1).2, this.2⟩)
    (fun h => (hcausal h).2)
  refine ⟨y, ⟨?_, ?_⟩, ?_⟩
  · rw [hys, hq, hv]; rfl
  · intro n hh i e hr ⟨j, hj, hne⟩
    rw [hys] at hr
    rw [hk] at hj
    obtain ⟨r0, r1, r2, r3, -⟩ := hr
    have hir : ∀ j < sk, InRange [b, h, sq, sk] [n, hh, i, j] := fun j hj => ⟨r0, r1, r2, hj, trivial⟩
    have hrr : InRange [b, h, sq, dv] [n, hh, i, e] := ⟨r0, r1, r2, r3, trivial⟩
    rw [attention_get hq hk hv hrr, hyv n hh i e hrr ⟨j, hj, fun hbot => hne ((hbias _ (hir j hj)).symm.trans hbot)⟩]
    have key : ∀ j < sk, (Option.elim (if a.softcap ≠ 0 then some a.softcap else none) id Score.cap)
        (((a.scale.getD (1 / √d) * ∑ e ∈ Finset.range d, q.get [n, hh, i, e] * k'.get [n, hh, j, e] : ℝ) : Score) +
          ((m.elim 0 fun m => if m.get (proj m.shape [n, hh, i, j]) then ⊥ else 0) + (bs.elim 0 fun m => m.get (proj m.shape [n, hh, i, j])) +
            (if a.causal ∧ i < j then ⊥ else (0 : Score)))) =
        (if a.softcap = 0 then id else Score.cap a.softcap)
          (((attnScale a.scale d * ∑ e ∈ Finset.range d, q.get [n, hh, i, e] * k'.get [n, hh, j, e] : ℝ) : Score) + attnBias x.mask a.causal [n, hh, i, j]) := by
      intro j hj
      have h1 := hbias _ (hir j hj)
      have h2 : (m.elim 0 fun m => if m.get (proj m.shape [n, hh, i, j]) then ⊥ else 0) + (bs.elim 0 fun m => m.get (proj m.shape [n, hh, i, j])) +
            (if a.causal ∧ i < j then ⊥ else (0 : Score)) = attnBias x.mask a.causal [n, hh, i, j] := h1
      rw [h2]
      by_cases h0 : a.softcap = 0 <;> simp [h0, attnScale]
    refine Finset.sum_congr rfl fun j hj => ?_
    have hj := Finset.mem_range.1 hj
    congr 1
    refine congrArg₂ (· / ·) (congrArg Score.exp (key j hj)) (Finset.sum_congr rfl fun l hl => congrArg Score.exp (key l (Finset.mem_range.1 hl)))
  · have hacc : attnAccepts a x = true := attnAccepts_of hin hmode (by
      cases hp : x.past with
      | none => left; simp [hout, hp]
      | some p => right; simp [hout, hp])
    have ho : x.outs ≤ 3 := by rw [hout]; split <;> omega
    unfold genAttention
    rw [hacc, hprec]
    simp only [Bool.true_eq_false, Bool.false_eq_true, if_false, Option.isSome_none, ho, if_true]
    unfold attnBurn
    simp only [attnHeads_eq hin, attnCache_eq hc, hmb, Option.bind_some, hy, attnJoin_of hin hq hys, Option.map_some]

/-! ### Scores as an output -/

theorem expand_zip {s : Tensor Score} {m : Tensor Score} (hf : bcast m.shape s.shape = some s.shape) :
    ((Burn.expand m s.shape).bind fun m => Burn.zip (· + ·) s m) = some (Tensor.ofFn s.shape fun i => s.get i + m.get (proj m.shape i)) := by
  unfold Burn.expand
  rw [if_pos hf, Option.bind_some]
  unfold Burn.zip Tensor.zipBcast
  have hs : (Tensor.ofFn s.shape fun i => m.get (proj m.shape i)).shape = s.shape := rfl
  rw [if_pos (by rw [hs]), hs, show bcast s.shape s.shape = some s.shape by simp [bcast, bcastRev_self]]
  refine congrArg some (Tensor.ofFn_congr fun i hi => ?_)
  rw [proj_self hi, Tensor.get_ofFn hi]

/-- The mask as the custom code adds it. -/
theorem attnAddMask_eq {a : AttnAttrs} {mask : Option AttnMask} {qk : Tensor ℝ} {b h sq sk : Nat} (hs : qk.shape = [b, h, sq, sk])
    (hfits : MaskFits mask [b, h, sq, sk]) (hbool : ∀ t, mask = some (.bool t) → t.shape = [sq, sk]) (hc : a.causal = true → mask = none) :
    attnAddMask a mask qk = some (attnMasked mask a.causal qk) := by
  have hss : (qk.map fun x : ℝ => (x : Score)).shape = qk.shape := rfl
  have hmap : ∀ i, InRange qk.shape i → (qk.map fun x : ℝ => (x : Score)).get i = ((qk.get i : ℝ) : Score) := fun i hi => Tensor.get_map hi
  have hr : qk.shape.getD 2 0 = sq ∧ qk.shape.getD 3 0 = sk := by rw [hs]; exact ⟨rfl, rfl⟩
  have key : ∀ m : Tensor Score, bcast m.shape qk.shape = some qk.shape →
      (∀ i, InRange qk.shape i → m.get (proj m.shape i) = attnBias mask a.causal i) →
      ((Burn.expand m qk.shape).bind fun m => Burn.zip (· + ·) (qk.map fun x : ℝ => (x : Score)) m) = some (attnMasked mask a.causal qk) := by
    intro m hm hv
    rw [← hss, expand_zip (by rw [hss]; exact hm), hss]
    exact congrArg some (Tensor.ofFn_congr fun i hi => by rw [hmap i hi, hv i hi])
  unfold attnAddMask
  simp only [hr.1, hr.2]
  by_cases hca : a.causal = true
  · have hn := hc hca
    rw [if_pos hca]
    refine key _ ?_ fun i hi => ?_
    · rw [hs]; simp [Tensor.ofFn, bcast, bcastRev]
    · rw [hs] at hi
      obtain ⟨i0, i1, i2, i3, rfl, h0, h1, h2, h3⟩ := inRange4 hi
      have hp : proj [sq, sk] [i0, i1, i2, i3] = [i2, i3] := by
        have := proj_self (show InRange [sq, sk] [i2, i3] from ⟨h2, h3, trivial⟩)
        unfold proj at this ⊢
        simpa [projRev] using this
      rw [show (Tensor.ofFn [sq, sk] fun i => if i.getD 1 0 ≤ i.getD 0 0 then (0 : Score) else ⊥).shape = [sq, sk] from rfl, hp,
        Tensor.get_ofFn (show InRange [sq, sk] [i2, i3] from ⟨h2, h3, trivial⟩), hn, hca]
      simp only [attnBias, List.getD_cons_zero, List.getD_cons_succ, zero_add, true_and]
      by_cases hle : i3 ≤ i2
      · rw [if_pos hle, if_neg (by omega)]
      · rw [if_neg hle, if_pos (by omega)]
  · have hcf : a.causal = false := by simpa using hca
    rw [if_neg hca]
    cases hm : mask with
    | none =>
      refine congrArg some (Tensor.eq_of_get rfl fun i hi => ?_)
      rw [hmap i hi]
      unfold attnMasked
      rw [Tensor.get_ofFn (show InRange qk.shape i from hi)]
      simp [attnBias, hcf]
    | some m =>
      rw [hm] at key
      have hf := hfits m hm
      rw [← hs] at hf
      cases m with
      | int t =>
        refine key _ hf fun i hi => ?_
        rw [show (t.map fun n : Int => (((n : ℤ) : ℝ) : Score)).get (proj (t.map fun n : Int => (((n : ℤ) : ℝ) : Score)).shape i) =
          (((t.get (proj t.shape i) : ℤ) : ℝ) : Score) from Tensor.get_map (proj_inRange hf hi).1]
        simp [attnBias, hcf]
      | float t =>
        refine key _ hf fun i hi => ?_
        simp [attnBias, hcf]
      | bool t =>
        dsimp only
        rw [if_pos (hbool t hm)]
        refine key _ hf fun i hi => ?_
        rw [show (t.map fun c => if c then (0 : Score) else ⊥).get (proj (t.map fun c => if c then (0 : Score) else ⊥).shape i) =
          if t.get (proj t.shape i) then 0 else ⊥ from Tensor.get_map (proj_inRange hf hi).1]
        simp [attnBias, hcf]

/-- C72: with the scores as an output, for any Burn function: Y, the cache and the scores are ONNX's. Missing: several query heads for a key
head, a mask together with `is_causal`, Boolean masks that are not matrices of all queries and keys, the scores after capping without a cap,
models without a cache. -/
theorem C72_scores_partial (f : Burn.Attn) (a : AttnAttrs) (x : AttnArgs) {q k v k' v' : Tensor ℝ} {b h sq sk d dv : Nat}
    (hin : AttnInputs a x q k v) (hc : Cached x.past k v k' v') (hq : q.shape = [b, h, sq, d]) (hk : k'.shape = [b, h, sk, d])
    (hv : v'.shape = [b, h, sk, dv]) (hprec : a.precision = none) (hmode : a.mode ≤ 3) (hpast : x.past.isSome) (hout : x.outs = 4)
    (hscale : ∀ s, a.scale = some s → 0 ≤ s) (hfits : MaskFits x.mask [b, h, sq, sk]) (hbool : ∀ t, x.mask = some (.bool t) → t.shape = [sq, sk])
    (hcausal : a.causal = true → x.mask = none) (hcap : a.mode = 2 → a.softcap ≠ 0) :
    genAttention f a x = some ⟨attnY x (attention a.scale x.mask a.causal a.softcap q k' v'), x.past.map fun _ => (k', v'),
      some (attnQkOutput a.mode a.scale x.mask a.causal a.softcap q k')⟩ := by
  have hacc : attnAccepts a x = true := attnAccepts_of hin hmode (Or.inr ⟨Or.inr hout, hpast⟩)
  have hroot : attnRootScale a d * attnRootScale a d = attnScale a.scale d := by
    unfold attnRootScale attnScale
    cases hsc : a.scale with
    | none => exact Real.mul_self_sqrt (by positivity)
    | some s => exact Real.mul_self_sqrt (hscale s hsc)
  have hqk : Burn.matmul dotR (q.map (· * attnRootScale a d)) (Burn.permute (k'.map (· * attnRootScale a d)) [0, 1, 3, 2]) =
      some (attnQk (attnScale a.scale d) q k') := by
    rw [permute_0132 (show (k'.map (· * attnRootScale a d)).shape = [b, h, sk, d] from hk), matmul4 (show (q.map _).shape = [b, h, sq, d] from hq) rfl]
    unfold attnQk
    rw [hq, hk]
    refine congrArg some (Tensor.ofFn_congr fun i hi => ?_)
    obtain ⟨i0, i1, i2, i3, rfl, h0, h1, h2, h3⟩ := inRange4 hi
    show ∑ l ∈ Finset.range d, (q.map _).get [i0, i1, i2, l] * (Tensor.ofFn [b, h, d, sk] _).get [i0, i1, l, i3] =
      attnScale a.scale d * ∑ l ∈ Finset.range d, q.get [i0, i1, i2, l] * k'.get [i0, i1 / (h / h), i3, l]
    rw [Finset.mul_sum, Nat.div_self (by omega), Nat.div_one]
    refine Finset.sum_congr rfl fun l hl => ?_
    have hl := Finset.mem_range.1 hl
    rw [Tensor.get_map (by rw [hq]; exact ⟨h0, h1, h2, hl, trivial⟩), Tensor.get_ofFn (show InRange [b, h, d, sk] [i0, i1, l, i3] from ⟨h0, h1, hl, h3, trivial⟩)]
    show q.get [i0, i1, i2, l] * attnRootScale a d * (k'.map _).get [i0, i1, i3, l] = _
    rw [Tensor.get_map (by rw [hk]; exact ⟨h0, h1, h3, hl, trivial⟩), ← hroot]
    ring
  have hs : (attnQk (attnScale a.scale d) q k').shape = [b, h, sq, sk] := by unfold attnQk; rw [hq, hk]; rfl
  have hcapped : (if a.softcap ≠ 0 then (attnMasked x.mask a.causal (attnQk (attnScale a.scale d) q k')).map (Score.cap a.softcap)
      else attnMasked x.mask a.causal (attnQk (attnScale a.scale d) q k')) =
      attnCapped a.softcap (attnMasked x.mask a.causal (attnQk (attnScale a.scale d) q k')) := by
    generalize attnMasked x.mask a.causal (attnQk (attnScale a.scale d) q k') = t
    by_cases h0 : a.softcap = 0
    · rw [if_neg (by simp [h0])]
      refine Tensor.eq_of_get rfl fun i hi => ?_
      unfold attnCapped
      rw [Tensor.get_ofFn hi, if_pos h0]
    · rw [if_pos h0]
      refine Tensor.eq_of_get rfl fun i hi => ?_
      unfold attnCapped
      rw [Tensor.get_map (show InRange t.shape i from hi), Tensor.get_ofFn (show InRange t.shape i from hi), if_neg h0]
  have hsm : Burn.softmax3 (attnCapped a.softcap (attnMasked x.mask a.causal (attnQk (attnScale a.scale d) q k'))) =
      attnWeights (attnCapped a.softcap (attnMasked x.mask a.causal (attnQk (attnScale a.scale d) q k'))) := by
    have ht : (attnCapped a.softcap (attnMasked x.mask a.causal (attnQk (attnScale a.scale d) q k'))).shape = [b, h, sq, sk] := hs
    generalize attnCapped a.softcap (attnMasked x.mask a.causal (attnQk (attnScale a.scale d) q k')) = t at ht
    unfold Burn.softmax3 attnWeights
    rw [ht]
    refine Tensor.ofFn_congr fun i hi => ?_
    obtain ⟨i0, i1, i2, i3, rfl, -, -, -, -⟩ := inRange4 hi
    rfl
  have hy : Burn.matmul dotR (attnWeights (attnCapped a.softcap (attnMasked x.mask a.causal (attnQk (attnScale a.scale d) q k')))) v' =
      some (attention a.scale x.mask a.causal a.softcap q k' v') := by
    have ht : (attnWeights (attnCapped a.softcap (attnMasked x.mask a.causal (attnQk (attnScale a.scale d) q k')))).shape = [b, h, sq, sk] := hs
    rw [matmul4 ht hv]
    unfold attention
    rw [hq, show ([b, h, sq, d] : List Nat).getD 3 0 = d from rfl]
    unfold attnApply
    rw [ht, hv]
    refine congrArg some (Tensor.ofFn_congr fun i hi => ?_)
    obtain ⟨i0, i1, i2, i3, rfl, h0, h1, h2, h3⟩ := inRange4 hi
    show _ = ∑ j ∈ Finset.range sk, (attnWeights _).get [i0, i1, i2, j] * v'.get [i0, i1 / (h / h), j, i3]
    rw [Nat.div_self (by omega), Nat.div_one]
    rfl
  have hys : (attention a.scale x.mask a.causal a.softcap q k' v').shape = [b, h, sq, dv] := by
    unfold attention attnApply
    have ht : ∀ s, (attnWeights (attnCapped a.softcap (attnMasked x.mask a.causal (attnQk s q k')))).shape = [b, h, sq, sk] := by
      intro s
      show (attnQk s q k').shape = _
      unfold attnQk; rw [hq, hk]; rfl
    rw [ht, hv]
    rfl
  have ho : attnQkOut a (attnQk (attnScale a.scale d) q k') (attnMasked x.mask a.causal (attnQk (attnScale a.scale d) q k'))
      (attnCapped a.softcap (attnMasked x.mask a.causal (attnQk (attnScale a.scale d) q k')))
      (attnWeights (attnCapped a.softcap (attnMasked x.mask a.causal (attnQk (attnScale a.scale d) q k')))) =
      some (attnQkOutput a.mode a.scale x.mask a.causal a.softcap q k') := by
    unfold attnQkOut attnQkOutput
    rw [hq, show ([b, h, sq, d] : List Nat).getD 3 0 = d from rfl]
    generalize hm : a.mode = m at hmode hcap
    match m, hmode with
    | 0, _ => rfl
    | 1, _ => rfl
    | 2, _ => exact if_pos (hcap rfl)
    | 3, _ => rfl
  unfold genAttention
  rw [hacc, hprec, hout]
  simp only [Bool.true_eq_false, Bool.false_eq_true, if_false, Option.isSome_none, show ¬ (4 ≤ 3) by omega]
  unfold attnCustom
  simp only [attnHeads_eq hin, attnCache_eq hc, Option.bind_some, hq, show ([b, h, sq, d] : List Nat).getD 3 0 = d from rfl, hqk,
    attnAddMask_eq hs hfits hbool hcausal, hcapped, hsm, hy, attnJoin_of hin hq hys, ho, Option.map_some]

end OnnxIR
