import Verif.Model.SplitValues
import Verif.Props.CumSum
import Verif.Props.Split

/-!
# Split gives the pieces of its input
-/

namespace OnnxIR

open Gen

variable {α : Type} [Inhabited α]

theorem pieces_spec {X : Tensor α} {a : Nat} (ha : a < X.shape.length) : ∀ (sizes : List Nat) (start : Nat),
    (∀ d ∈ sizes, 0 < d) → start + sizes.sum ≤ X.shape.getD a 0 → ∃ Zs, Burn.pieces X a sizes start = some Zs ∧
      Zs.length = sizes.length ∧ ∀ (k d : Nat) (Z : Tensor α), sizes[k]? = some d → Zs[k]? = some Z → Z.shape = X.shape.set a d ∧
        ∀ i, InRange Z.shape i → Z.get i = X.get (i.set a (i.getD a 0 + (start + (sizes.take k).sum)))
  | [], start, _, _ => ⟨[], rfl, rfl, fun k d Z h => by simp at h⟩
  | d :: ds, start, hp, hs => by
    simp only [List.sum_cons] at hs
    obtain ⟨z, hz⟩ := narrow_isSome ha (hp d (by simp)) (show start + d ≤ _ by omega)
    obtain ⟨Zs, h1, h2, h3⟩ := pieces_spec ha ds (start + d) (fun e he => hp e (by simp [he])) (by omega)
    refine ⟨z :: Zs, by simp [Burn.pieces, hz, h1], by simp [h2], fun k e Z hk hZ => ?_⟩
    cases k with
    | zero =>
      simp only [List.getElem?_cons_zero, Option.some.injEq] at hk hZ
      subst hk hZ
      obtain ⟨n1, n2⟩ := narrow_get hz
      exact ⟨n1, fun i hi => by rw [n2 i (n1 ▸ hi)]; simp⟩
    | succ k =>
      simp only [List.getElem?_cons_succ] at hk hZ
      obtain ⟨n1, n2⟩ := h3 k e Z hk hZ
      refine ⟨n1, fun i hi => ?_⟩
      rw [n2 i hi]
      simp [Nat.add_assoc]

theorem split_pieces {X : Tensor α} {c : Infer.SplitConfig} {sizes : List Nat} (ha : c.axis < X.shape.length)
    (hg : Infer.generatedSizes c (X.shape.getD c.axis 0) = some sizes) (hs : sizes.sum = X.shape.getD c.axis 0)
    (hp : ∀ d ∈ sizes, 0 < d) : ∃ Zs, genSplit c sizes.length X = some Zs ∧ Onnx.SplitT c.axis sizes X Zs := by
  obtain ⟨Zs, h1, h2, h3⟩ := pieces_spec ha sizes 0 hp (by omega)
  refine ⟨Zs, ?_, ha, h2, hs, fun k d Z hk hZ => ?_⟩
  · unfold genSplit
    rw [hg, Option.bind_some, Burn.splitWithSizes, if_pos ⟨ha, hs⟩, h1, Option.bind_some, if_pos h2]
  · simpa using h3 k d Z hk hZ

/-- What is known of the dimension at import is true of the value. -/
theorem known_dim {t : TensorType} {s : List Nat} {a d : Nat} (h : (ArgType.tensor t).Admits s)
    (hd : (t.staticShape.bind (·[a]?)).join = some d) : s.getD a 0 = d := by
  obtain ⟨-, h⟩ := h
  cases hp : t.staticShape with
  | none => simp [hp] at hd
  | some p =>
    have := (PShape.describes_iff.1 (h p hp)).2 a d
    simp only [hp, Option.bind_some, Option.join_eq_some_iff] at hd
    simp [List.getD, this hd]

theorem axis_norm {r a : Nat} {axis : Int} (h : Onnx.axis r axis = some a) :
    Infer.normAxis r axis = (a : Int) ∧ a < r ∧ ¬(axis < -(r : Int) ∨ (r : Int) ≤ axis) := by
  unfold Onnx.axis at h
  unfold Infer.normAxis
  split at h
  · simp only [Option.some.injEq] at h
    split at h <;> split <;> omega
  · cases h

/-- Split with explicit sizes, given by a constant operand or by the attribute of old operator sets, for every shape, axis and list of
positive sizes that add up to the dimension: the node is accepted, the generated code runs, and every output is the piece of the input that
ONNX says. -/
theorem C83_split_sizes_partial {t : TensorType} {X : Tensor α} {axis : Int} {a : Nat} {sizes : List Nat} {arg : Infer.SplitArg}
    (ht : (ArgType.tensor t).Admits X.shape) (ha : Onnx.axis X.shape.length axis = some a) (hne : sizes ≠ [])
    (hp : ∀ d ∈ sizes, 0 < d) (hs : sizes.sum = X.shape.getD a 0)
    (harg : arg = .constInput (sizes.map Int.ofNat) ∨ arg = .attr (sizes.map Int.ofNat)) :
    ∃ c Zs, Infer.splitConfig t.rank t.staticShape axis none arg sizes.length = some c ∧ genSplit c sizes.length X = some Zs ∧
      Onnx.SplitT a sizes X Zs := by
  obtain ⟨n1, n2, n3⟩ := axis_norm ha
  rw [ht.1] at n1 n2 n3
  have he : Infer.explicitSizes (t.staticShape.bind (·[a]?)).join sizes.length (sizes.map Int.ofNat) = some sizes :=
    C19_explicit_sizes.2 ⟨rfl, rfl, fun d hd => by rw [hs, known_dim ht hd]⟩
  have hc : Infer.splitConfig t.rank t.staticShape axis none arg sizes.length = some ⟨a, some (.static sizes), none⟩ := by
    unfold Infer.splitConfig
    rcases harg with rfl | rfl <;> simp [n1, n3, he, hne]
  obtain ⟨Zs, h1, h2⟩ := split_pieces (c := ⟨a, some (.static sizes), none⟩) (show a < _ by rw [ht.1]; exact n2) rfl hs hp
  exact ⟨_, Zs, hc, h1, h2⟩

theorem even_chunks {dim n : Nat} {sizes : List Nat} (h : Onnx.EvenSizes dim n sizes) : sizes = Infer.chunkSizes dim n := by
  obtain ⟨c, last, h1, hn, h2, h3, h4⟩ := h
  have hsum : (n - 1) * c + last = dim := by rw [← h2, h1]; simp
  have hle : dim ≤ n * c := by
    obtain ⟨m, rfl⟩ : ∃ m, n = m + 1 := ⟨n - 1, by omega⟩
    rw [Nat.succ_mul]; simp at hsum; omega
  have hc : c = Infer.divCeil dim n := Nat.le_antisymm (h4 _ (le_mul_divCeil hn)) (divCeil_least hn hle)
  rw [h1, Infer.chunkSizes, ← hc]
  have key : ∀ (m r : Nat), r = m * c + last → last ≤ c → Infer.chunks c (m + 1) r = List.replicate m c ++ [last] := by
    intro m
    induction m with
    | zero => intro r hr hl; simp [Infer.chunks]; omega
    | succ m ih =>
      intro r hr hl
      rw [Infer.chunks, List.replicate_succ, List.cons_append]
      rw [Nat.succ_mul] at hr
      rw [ih (r - c) (by omega) hl]
      congr 1
      generalize m * c = y at hr
      omega
  obtain ⟨m, rfl⟩ : ∃ m, n = m + 1 := ⟨n - 1, by omega⟩
  rw [key m dim (by simpa using hsum.symm) h3]
  rfl

/-- Split without explicit sizes, for every shape, axis and number of outputs that leaves no piece empty. -/
theorem C83_split_even_partial {t : TensorType} {X : Tensor α} {axis : Int} {a n : Nat} {num : Option Nat} {sizes : List Nat}
    (ht : (ArgType.tensor t).Admits X.shape) (ha : Onnx.axis X.shape.length axis = some a) (hn : num = none ∨ num = some n)
    (he : Onnx.EvenSizes (X.shape.getD a 0) n sizes) (hp : ∀ d ∈ sizes, 0 < d) :
    ∃ c Zs, Infer.splitConfig t.rank t.staticShape axis num .absent n = some c ∧ genSplit c n X = some Zs ∧
      Onnx.SplitT a sizes X Zs := by
  obtain ⟨n1, n2, n3⟩ := axis_norm ha
  rw [ht.1] at n1 n2 n3
  have hch := even_chunks he
  obtain ⟨c0, last, e1, hn0, e2, -, -⟩ := he
  have hlen : sizes.length = n := by rw [e1]; simp; omega
  have hpos : 0 < X.shape.getD a 0 := by
    have := hp last (by rw [e1]; simp)
    rw [← e2, e1]; simp; omega
  have hc : ∃ c, Infer.splitConfig t.rank t.staticShape axis num .absent n = some c ∧ c.axis = a ∧
      Infer.generatedSizes c (X.shape.getD a 0) = some sizes := by
    unfold Infer.splitConfig
    rw [if_neg n3]
    simp only [n1, Int.toNat_natCast]
    cases hd : (t.staticShape.bind (·[a]?)).join with
    | none =>
      rcases hn with rfl | rfl
      · refine ⟨_, rfl, rfl, ?_⟩
        show some (Infer.runtimeChunkSizes _ n) = _
        rw [← C19_static_eq_runtime, hch]
      · rw [if_neg (by simp; omega)]
        refine ⟨_, rfl, rfl, ?_⟩
        show some (Infer.runtimeChunkSizes _ n) = _
        rw [← C19_static_eq_runtime, hch]
    | some d =>
      have hd' := known_dim ht hd
      rw [hd'] at hch hpos
      rcases hn with rfl | rfl
      · exact ⟨_, rfl, rfl, by rw [hch]; rfl⟩
      · rw [if_neg (by simp; omega)]
        simp only [if_neg (show ¬ d = 0 by omega)]
        exact ⟨_, rfl, rfl, by rw [hch]; rfl⟩
  obtain ⟨c, h1, rfl, h3⟩ := hc
  obtain ⟨Zs, h4, h5⟩ := split_pieces (show c.axis < _ by rw [ht.1]; exact n2) h3 e2 hp
  exact ⟨c, Zs, h1, hlen ▸ h4, h5⟩

/-- The code for run-time sizes panics, whatever they are (burn/node/split.rs:26-28). -/
theorem C83_runtime_sizes_panics {X : Tensor α} {a n : Nat} : genSplit ⟨a, some .runtime, none⟩ n X = none := rfl

/-! ### Examples -/

/-- Three columns, split into two and one. -/
example : ∃ c Zs, Infer.splitConfig 2 (some [none, some 3]) (-1) none (.constInput [2, 1]) 2 = some c ∧
    genSplit c 2 (⟨[2, 3], [1, 2, 3, 4, 5, 6], rfl⟩ : Tensor Int) = some Zs ∧ Onnx.SplitT 1 [2, 1] ⟨[2, 3], [1, 2, 3, 4, 5, 6], rfl⟩ Zs :=
  C83_split_sizes_partial (sizes := [2, 1]) (X := ⟨[2, 3], [1, 2, 3, 4, 5, 6], rfl⟩) (t := ⟨.i64, 2, some [none, some 3]⟩) ⟨rfl, fun p hp => by cases hp; simp [PShape.Describes]⟩ (by decide +kernel)
    (by decide) (by decide) (by decide +kernel) (.inl rfl)

example : (genSplit ⟨1, some (.static [2, 1]), none⟩ 2 (⟨[2, 3], [1, 2, 3, 4, 5, 6], rfl⟩ : Tensor Int)).map (·.map Tensor.data) =
    some [[1, 2, 4, 5], [3, 6]] := by decide +kernel

/-- Five elements in two pieces. -/
example : ∃ c Zs, Infer.splitConfig 1 none 0 (some 2) .absent 2 = some c ∧
    genSplit c 2 (⟨[5], [1, 2, 3, 4, 5], rfl⟩ : Tensor Int) = some Zs ∧ Onnx.SplitT 0 [3, 2] ⟨[5], [1, 2, 3, 4, 5], rfl⟩ Zs :=
  C83_split_even_partial (t := ⟨.i64, 1, none⟩) ⟨rfl, fun p hp => by cases hp⟩ (by decide +kernel) (.inr rfl)
    ⟨3, 2, rfl, by decide, rfl, by decide, fun c' h => by have h : 5 ≤ 2 * c' := h; omega⟩ (by decide)

end OnnxIR
