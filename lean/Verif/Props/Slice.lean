import Verif.Model.Slice
import Verif.Props.ShapeSlice
import Verif.Props.Elementwise

/-!
# C60: Slice of a tensor
-/

namespace OnnxIR

open Gen
open Burn (SliceRange)

variable {α : Type} [Inhabited α]

/-- ONNX's positions for a positive step, counted. -/
theorem slicePositions_range {t : Nat} (ht : 0 < t) : ∀ (m a b : Nat), b - a ≤ m →
    slicePositions t b a = (List.range ((b - a + t - 1) / t)).map fun k => ((a + k * t : Nat) : Int) := by
  intro m
  induction m with
  | zero =>
    intro a b h
    have h0 : (b - a + t - 1) / t = 0 := Nat.div_eq_of_lt (by omega)
    rw [slicePositions, dif_neg (by omega), h0]
    rfl
  | succ m ih =>
    intro a b h
    by_cases hab : a < b
    · rw [slicePositions, dif_pos (by omega)]
      have e1 : ((a : Int) + (t : Int)) = ((a + t : Nat) : Int) := by omega
      have e2 : (b - a + t - 1) / t = (b - (a + t) + t - 1) / t + 1 := by
        by_cases hbt : a + t ≤ b
        · have : b - a + t - 1 = (b - (a + t) + t - 1) + t := by omega
          rw [this, Nat.add_div_right _ ht]
        · have h1 : b - (a + t) + t - 1 < t := by omega
          rw [Nat.div_eq_of_lt h1]
          refine Nat.div_eq_of_lt_le (by omega) (by omega)
      rw [e1, ih (a + t) b (by omega), e2, List.range_succ_eq_map, List.map_cons, List.map_map]
      congr 1
      · simp
      · refine List.map_congr_left fun k _ => ?_
        simp only [Function.comp, Nat.succ_eq_add_one, Nat.add_mul]
        congr 1
        omega
    · have h0 : (b - a + t - 1) / t = 0 := Nat.div_eq_of_lt (by omega)
      rw [slicePositions, dif_neg (by omega), h0]
      rfl

theorem bound_eq (d : Nat) (x : Int) : (Burn.bound d x : Int) = clampInt 0 d (fromBack d x) := by
  unfold Burn.bound clampInt fromBack
  repeat' split
  all_goals omega

theorem bound_le (d : Nat) (x : Int) : Burn.bound d x ≤ d := by
  unfold Burn.bound
  split <;> omega

/-- The places ONNX reads with a positive step. -/
theorem slicePlaces_eq {d : Nat} {s e : Int} {t : Nat} (ht : 0 < t) :
    Onnx.slicePlaces d s e t = (List.range ((Burn.bound d e - Burn.bound d s + t - 1) / t)).map fun k => Burn.bound d s + k * t := by
  have ht' : 0 < (t : Int) := by omega
  unfold Onnx.slicePlaces onnxSlice1
  simp only [ht', if_true, List.length_map, List.length_range]
  rw [← bound_eq, ← bound_eq, slicePositions_range ht _ _ _ (Nat.le_refl _)]
  rw [List.filterMap_map, List.map_filterMap]
  rw [← List.filterMap_eq_map (f := fun k => Burn.bound d s + k * t)]
  refine List.filterMap_congr fun k hk => ?_
  have hk : k < (Burn.bound d e - Burn.bound d s + t - 1) / t := List.mem_range.1 hk
  have hlt : Burn.bound d s + k * t < d := by
    have h1 := (Nat.lt_div_iff_mul_lt ht).1 hk
    have h2 := bound_le d e
    omega
  simp only [Function.comp, Int.toNat_natCast]
  rw [List.getElem?_map, List.getElem?_range hlt]
  rfl

/-- Burn's range with a positive step reads what ONNX reads. -/
theorem places_some {d : Nat} {s e t : Int} (ht : 0 < t) : Burn.places d ⟨s, some e, t⟩ = Onnx.slicePlaces d s e t := by
  obtain ⟨n, rfl⟩ : ∃ n : Nat, t = n := ⟨t.toNat, by omega⟩
  rw [slicePlaces_eq (by omega)]
  unfold Burn.places
  simp only [Int.natAbs_natCast, ht, if_true]

theorem places_none {d : Nat} {s t : Int} (ht : 0 < t) (hd : d < 2 ^ 63) :
    Burn.places d ⟨s, none, t⟩ = Onnx.slicePlaces d s (2 ^ 63 - 1) t := by
  obtain ⟨n, rfl⟩ : ∃ n : Nat, t = n := ⟨t.toNat, by omega⟩
  have hb : Burn.bound d (2 ^ 63 - 1) = d := by
    unfold Burn.bound
    rw [if_neg (by omega)]
    omega
  rw [slicePlaces_eq (by omega), hb]
  unfold Burn.places
  simp only [Int.natAbs_natCast, ht, if_true]

theorem places_full (d : Nat) : Burn.places d {} = List.range d := by
  simp [Burn.places, Burn.bound]

/-- Entries of the code that agree with ONNX's entries one by one. -/
inductive Agree (r : Nat) : List (Int × Int × Int × Int) → List (Nat × SliceRange) → Prop
  | nil : Agree r [] []
  | cons {a s e t k rg es L} : Onnx.index r a = some k → rg.step ≠ 0 →
      (∀ d, d < 2 ^ 63 → Burn.places d rg = Onnx.slicePlaces d s e t) → Agree r es L →
      Agree r ((a, s, e, t) :: es) ((k, rg) :: L)

theorem setAll_length (L : List (Nat × SliceRange)) : ∀ rs : List SliceRange,
    (L.foldl (fun rs e => rs.set e.1 e.2) rs).length = rs.length := by
  induction L with
  | nil => intro rs; rfl
  | cons x L ih => intro rs; rw [List.foldl_cons, ih]; simp

theorem setAll_get {r : Nat} {es : List (Int × Int × Int × Int)} {L : List (Nat × SliceRange)} (h : Agree r es L) :
    ∀ (rs : List SliceRange), rs.length = r → (es.map fun e => Onnx.index r e.1).Nodup → ∀ k < r,
      match Onnx.entryOf r k es with
      | none => (L.foldl (fun rs e => rs.set e.1 e.2) rs)[k]? = rs[k]?
      | some (s, e, t) => ∃ rg, (L.foldl (fun rs e => rs.set e.1 e.2) rs)[k]? = some rg ∧ rg.step ≠ 0 ∧
          ∀ d, d < 2 ^ 63 → Burn.places d rg = Onnx.slicePlaces d s e t := by
  induction h with
  | nil => intro rs _ _ k _; simp [Onnx.entryOf]
  | @cons a s e t k' rg es L ha hst hp hag ih =>
    intro rs hl hn k hk
    simp only [List.map_cons, List.nodup_cons] at hn
    have ih' := ih (rs.set k' rg) (by simpa using hl) hn.2 k hk
    rw [Onnx.entryOf]
    by_cases hkk : k' = k
    · subst hkk
      rw [if_pos ha]
      have hnone : Onnx.entryOf r k' es = none := by
        have : ∀ es : List (Int × Int × Int × Int), some k' ∉ es.map (fun e => Onnx.index r e.1) →
            Onnx.entryOf r k' es = none := by
          intro es
          induction es with
          | nil => intro _; rfl
          | cons x es ih =>
            intro hx
            simp only [List.map_cons, List.mem_cons, not_or] at hx
            rw [show x = (x.1, x.2) from rfl, Onnx.entryOf, if_neg (fun c => hx.1 c.symm)]
            exact ih hx.2
        rw [ha] at hn
        exact this es hn.1
      rw [hnone] at ih'
      refine ⟨rg, ?_, hst, hp⟩
      rw [List.foldl_cons]
      simp only at ih'
      rw [ih']
      simp [hl, hk]
    · have hne : ¬ Onnx.index r a = some k := by rw [ha]; intro c; cases c; exact hkk rfl
      rw [if_neg hne, List.foldl_cons]
      cases hent : Onnx.entryOf r k es with
      | none =>
        rw [hent] at ih'
        simp only at ih' ⊢
        rw [ih']
        simp [hkk]
      | some q =>
        rw [hent] at ih'
        exact ih'

/-- Ranges that agree with ONNX's entries give ONNX's slice. -/
theorem slice_agree {es : List (Int × Int × Int × Int)} {L : List (Nat × SliceRange)} {X Z : Tensor α}
    (h : Agree X.shape.length es L) (hd : ∀ d ∈ X.shape, d < 2 ^ 63) (hZ : Onnx.sliceT es X = some Z) :
    Burn.slice X (setRanges X.shape.length L) = some Z := by
  unfold Onnx.sliceT at hZ
  split at hZ
  next hc =>
    cases hZ
    have hlen : (setRanges X.shape.length L).length = X.shape.length := by
      unfold setRanges; rw [setAll_length]; simp
    have hget := setAll_get h (List.replicate X.shape.length {}) (by simp) hc.2
    have hplace : List.zipWith Burn.places X.shape (setRanges X.shape.length L) =
        X.shape.mapIdx fun k d => Onnx.placesOf X.shape.length k d es := by
      refine List.ext_getElem (by simp [hlen]) fun k h1 h2 => ?_
      have hk : k < X.shape.length := by simpa using h2
      rw [List.getElem_zipWith, List.getElem_mapIdx, Onnx.placesOf]
      have hg := hget k hk
      cases hent : Onnx.entryOf X.shape.length k es with
      | none =>
        rw [hent] at hg
        simp only at hg ⊢
        have e : (setRanges X.shape.length L)[k]? = some {} := by
          unfold setRanges; rw [hg]; simp [hk]
        rw [List.getElem?_eq_getElem (by omega)] at e
        have e := Option.some.inj e
        rw [e, places_full]
      | some q =>
        obtain ⟨s, e, t⟩ := q
        rw [hent] at hg
        obtain ⟨rg, e1, _, e3⟩ := hg
        have e : (setRanges X.shape.length L)[k]? = some rg := e1
        rw [List.getElem?_eq_getElem (by omega)] at e
        have e := Option.some.inj e
        rw [e]
        exact e3 _ (hd _ (List.getElem_mem hk))
    unfold Burn.slice
    rw [if_pos]
    · rw [hplace]
    · refine ⟨hlen, fun rg hrg => ?_⟩
      obtain ⟨k, hk, rfl⟩ := List.getElem_of_mem hrg
      have hk' : k < X.shape.length := by omega
      have hg := hget k hk'
      cases hent : Onnx.entryOf X.shape.length k es with
      | none =>
        rw [hent] at hg
        simp only at hg
        have e : (setRanges X.shape.length L)[k]? = some {} := by
          unfold setRanges; rw [hg]; simp [hk']
        rw [List.getElem?_eq_getElem (by omega)] at e
        have e := Option.some.inj e
        rw [e]; decide
      | some q =>
        obtain ⟨s, e, t⟩ := q
        rw [hent] at hg
        obtain ⟨rg, e1, e2, _⟩ := hg
        have e : (setRanges X.shape.length L)[k]? = some rg := e1
        rw [List.getElem?_eq_getElem (by omega)] at e
        have e := Option.some.inj e
        rw [e]; exact e2
  next => cases hZ

/-! ### The loops -/

/-- ONNX's entries. -/
def sliceQuads (A S E T : List Int) : List (Int × Int × Int × Int) := A.zip (S.zip (E.zip T))

/-- slice.rs:61-67, one axis. -/
def normA (r : Nat) (a : Int) : Int := if a < 0 then a + r else a

theorem normA_index {r k : Nat} {a : Int} (h : Onnx.index r a = some k) : normA r a = k ∧ k < r := by
  unfold Onnx.index at h
  unfold normA
  split at h
  · cases h; rw [if_neg (by omega)]; omega
  · split at h
    · cases h; rw [if_pos (by omega)]; omega
    · cases h

theorem static_agree {r : Nat} : ∀ {A S E T : List Int}, S.length = A.length → E.length = A.length → T.length = A.length →
    (∀ a ∈ A, (Onnx.index r a).isSome) → (∀ t ∈ T, 0 < t) → (∀ e ∈ E, e = 2 ^ 63 - 1 ∨ e ≤ 2 ^ 31 - 1) →
    ∃ L, staticEntries r (A.map (normA r)) S E T = some L ∧ Agree r (sliceQuads A S E T) L := by
  intro A
  induction A with
  | nil => intro S E T _ _ _ _ _ _; exact ⟨[], by simp [staticEntries], .nil⟩
  | cons a A ih =>
    intro S E T h1 h2 h3 hA hT hE
    cases S with
    | nil => simp at h1
    | cons s S =>
    cases E with
    | nil => simp at h2
    | cons e E =>
    cases T with
    | nil => simp at h3
    | cons t T =>
    obtain ⟨L, e1, e2⟩ := ih (S := S) (E := E) (T := T) (by simpa using h1) (by simpa using h2) (by simpa using h3)
      (fun x hx => hA x (by simp [hx])) (fun x hx => hT x (by simp [hx])) (fun x hx => hE x (by simp [hx]))
    obtain ⟨k, hk⟩ := Option.isSome_iff_exists.1 (hA a (by simp))
    obtain ⟨n1, n2⟩ := normA_index hk
    have ht := hT t (by simp)
    have hc : 0 ≤ (k : Int) ∧ (k : Int) < r := by omega
    have hr : ∃ rg, staticRange s e t = some rg ∧ rg.step ≠ 0 ∧
        ∀ d, d < 2 ^ 63 → Burn.places d rg = Onnx.slicePlaces d s e t := by
      unfold staticRange
      rcases hE e (by simp) with he | he
      · rw [if_pos he]
        exact ⟨_, rfl, by simp; omega, fun d hd => by rw [he]; exact places_none ht hd⟩
      · rw [if_neg (by omega), if_neg (by omega)]
        exact ⟨_, rfl, by simp; omega, fun d _ => places_some ht⟩
    obtain ⟨rg, r1, r2, r3⟩ := hr
    refine ⟨(k, rg) :: L, ?_, .cons hk r2 r3 e2⟩
    simp only [List.map_cons, staticEntries, n1, if_pos hc, r1, Option.bind_some, e1, Option.map_some, Int.toNat_natCast]

theorem pair_agree {r : Nat} : ∀ {A S E T : List Int}, S.length = A.length → E.length = A.length → T.length = A.length →
    (∀ a ∈ A, (Onnx.index r a).isSome) → (∀ t ∈ T, t = 1) →
    Agree r (sliceQuads A S E T) (pairEntries r (A.map (normA r)) S E) := by
  intro A
  induction A with
  | nil => intro S E T _ _ _ _ _; simp only [List.map_nil, pairEntries]; exact .nil
  | cons a A ih =>
    intro S E T h1 h2 h3 hA hT
    cases S with
    | nil => simp at h1
    | cons s S =>
    cases E with
    | nil => simp at h2
    | cons e E =>
    cases T with
    | nil => simp at h3
    | cons t T =>
    have e2 := ih (S := S) (E := E) (T := T) (by simpa using h1) (by simpa using h2) (by simpa using h3)
      (fun x hx => hA x (by simp [hx])) (fun x hx => hT x (by simp [hx]))
    obtain ⟨k, hk⟩ := Option.isSome_iff_exists.1 (hA a (by simp))
    obtain ⟨n1, n2⟩ := normA_index hk
    have ht := hT t (by simp)
    subst ht
    have hc : 0 ≤ (k : Int) ∧ (k : Int) < r := by omega
    simp only [List.map_cons, pairEntries, n1, if_pos hc, Int.toNat_natCast]
    exact .cons hk (by simp) (fun d _ => places_some (t := 1) (by decide)) e2

theorem vec_agree {r : Nat} : ∀ {A S E T : List Int}, S.length = A.length → E.length = A.length → T.length = A.length →
    (∀ a ∈ A, (Onnx.index r a).isSome) → (∀ t ∈ T, t = 1) → (∀ s ∈ S, 0 ≤ s) → (∀ e ∈ E, 0 ≤ e) →
    ∃ L, vecEntries r (A.map (normA r)) S E = some L ∧ Agree r (sliceQuads A S E T) L := by
  intro A
  induction A with
  | nil => intro S E T _ _ _ _ _ _ _; exact ⟨[], by simp [vecEntries], .nil⟩
  | cons a A ih =>
    intro S E T h1 h2 h3 hA hT hS hE
    cases S with
    | nil => simp at h1
    | cons s S =>
    cases E with
    | nil => simp at h2
    | cons e E =>
    cases T with
    | nil => simp at h3
    | cons t T =>
    obtain ⟨L, e1, e2⟩ := ih (S := S) (E := E) (T := T) (by simpa using h1) (by simpa using h2) (by simpa using h3)
      (fun x hx => hA x (by simp [hx])) (fun x hx => hT x (by simp [hx])) (fun x hx => hS x (by simp [hx]))
      (fun x hx => hE x (by simp [hx]))
    obtain ⟨k, hk⟩ := Option.isSome_iff_exists.1 (hA a (by simp))
    obtain ⟨n1, n2⟩ := normA_index hk
    have ht := hT t (by simp)
    subst ht
    have hc : 0 ≤ (k : Int) ∧ (k : Int) < r := by omega
    refine ⟨(k, ⟨s, some e, 1⟩) :: L, ?_, .cons hk (by simp) (fun d _ => places_some (t := 1) (by decide)) e2⟩
    simp only [List.map_cons, vecEntries, n1, if_pos hc, asUsize, if_pos (hS s (by simp)), if_pos (hE e (by simp)),
      Option.bind_some, e1, Option.map_some, Int.toNat_natCast]

/-- Axes beyond the bounds given are not used. -/
theorem pairEntries_append {r : Nat} : ∀ {A S E : List Int} (B : List Int), S.length = A.length →
    pairEntries r (A ++ B) S E = pairEntries r A S E := by
  intro A
  induction A with
  | nil =>
    intro S E B h
    cases S with
    | nil => cases B <;> simp [pairEntries]
    | cons => simp at h
  | cons a A ih =>
    intro S E B h
    cases S with
    | nil => simp at h
    | cons s S =>
      cases E with
      | nil => simp [pairEntries]
      | cons e E =>
        have := ih (S := S) (E := E) B (by simpa using h)
        simp only [List.cons_append, pairEntries, this]

theorem upTo_norm (r n : Nat) : (upTo n).map (normA r) = upTo n := by
  unfold upTo
  rw [List.map_map]
  refine List.map_congr_left fun k _ => ?_
  simp only [Function.comp, normA]
  rw [if_neg (by simp)]

theorem upTo_le {r n : Nat} (h : ∀ a ∈ upTo n, (Onnx.index r a).isSome) : n ≤ r := by
  cases n with
  | zero => omega
  | succ n =>
    have := h n (by simp only [upTo, List.mem_map, List.mem_range]; exact ⟨n, by omega, rfl⟩)
    unfold Onnx.index at this
    split at this
    · omega
    · split at this
      · omega
      · cases this

theorem upTo_split {n r : Nat} (h : n ≤ r) : ∃ B, upTo r = upTo n ++ B := by
  obtain ⟨m, rfl⟩ := Nat.exists_eq_add_of_le h
  refine ⟨(List.range m).map fun k => Int.ofNat (n + k), ?_⟩
  simp only [upTo, List.range_add, List.map_append, List.map_map]
  rfl

theorem upTo_length (n : Nat) : (upTo n).length = n := by simp [upTo]

/-! ### The theorem -/

/-- The values an input of Slice has: constants, or whatever the run-time value holds (a vector or a scalar). -/
def Gen.SliceIn.Holds (i : SliceIn) (vs : List Int) : Prop :=
  match i with
  | .static ws => ws = vs
  | .runtime ty v => ∃ V : Tensor Int, Reps id ty v V ∧ V.shape.length ≤ 1 ∧ V.data = vs

/-- An input that may be left out. -/
def Gen.HoldsOr (i : Option SliceIn) (dflt vs : List Int) : Prop :=
  match i with
  | none => vs = dflt
  | some i => i.Holds vs

/-- How an input reaches the generated code. -/
inductive SliceKind
  | const | array | tensor | number | device

/-- The kind of an input. -/
def Gen.SliceIn.kind : SliceIn → SliceKind
  | .static _ => .const
  | .runtime (.shape _) _ => .array
  | .runtime (.tensor _) _ => .tensor
  | .runtime (.scalarNative _) _ => .number
  | .runtime (.scalarTensor _) _ => .device

/-- Left out or constant. -/
def Gen.isConst : Option SliceIn → Prop
  | none => True
  | some (.static _) => True
  | some (.runtime _ _) => False

/-- What C60 asks for: axes known at import time; constant bounds with constant positive steps, ends that are `i64::MAX` or fit
an `i32`; steps of one as soon as a bound is known at run time only; bounds that are not negative where the code casts to
`usize`; axes given where starts are not constant and tensors or numbers are involved; the axes `0, 1, …` where the code does
not look at them. -/
def SliceOk (r : Nat) (starts ends : SliceIn) (axes steps : Option SliceIn) (A S E T : List Int) : Prop :=
  isConst axes ∧
  match starts.kind, ends.kind with
  | .const, .const => S ≠ [] ∧ isConst steps ∧ (∀ t ∈ T, 0 < t) ∧ ∀ e ∈ E, e = 2 ^ 63 - 1 ∨ e ≤ 2 ^ 31 - 1
  | .const, .array | .array, .const | .array, .array => ∀ t ∈ T, t = 1
  | .tensor, .tensor | .number, .number | .tensor, .array | .array, .tensor =>
    axes.isSome = true ∧ (∀ t ∈ T, t = 1) ∧ (∀ s ∈ S, 0 ≤ s) ∧ ∀ e ∈ E, 0 ≤ e
  | .const, .number => (∀ t ∈ T, t = 1) ∧ (∀ s ∈ S, 0 ≤ s) ∧ ∀ e ∈ E, 0 ≤ e
  | .const, .tensor | .tensor, .const =>
    A.map (normA r) = upTo A.length ∧ (∀ t ∈ T, t = 1) ∧ (∀ s ∈ S, 0 ≤ s) ∧ ∀ e ∈ E, 0 ≤ e
  | _, _ => False

theorem holds_array {ty : ArgType} {v : GVal Int} {vs : List Int} (h : (SliceIn.runtime ty v).Holds vs) {n : Nat}
    (ht : ty = .shape n) : v = .shape vs := by
  obtain ⟨V, h1, _, h3⟩ := h
  subst ht
  cases v with
  | shape l => obtain ⟨_, _, q⟩ := h1; rw [← h3, q]; simp
  | _ => exact h1.elim

theorem holds_tensor {ty : ArgType} {v : GVal Int} {vs : List Int} (h : (SliceIn.runtime ty v).Holds vs) {t : TensorType}
    (ht : ty = .tensor t) : ∃ u, v = .dev u ∧ u.data = vs := by
  obtain ⟨V, h1, _, h3⟩ := h
  subst ht
  cases v with
  | dev u => obtain ⟨q, _⟩ := h1; exact ⟨u, rfl, by rw [q, h3]⟩
  | _ => exact h1.elim

theorem holds_number {ty : ArgType} {v : GVal Int} {vs : List Int} (h : (SliceIn.runtime ty v).Holds vs) {d : DType}
    (ht : ty = .scalarNative d) : ∃ x, v = .native x ∧ vs = [x] := by
  obtain ⟨V, h1, _, h3⟩ := h
  subst ht
  cases v with
  | native x => obtain ⟨_, q⟩ := h1; exact ⟨x, rfl, by rw [← h3, q]⟩
  | _ => exact h1.elim

/-- The configuration: constant axes are normalised or the default. -/
theorem sliceConfig_ok {r : Nat} {starts ends : SliceIn} {axes steps : Option SliceIn} {A S T : List Int}
    (hax : isConst axes) (hA : HoldsOr axes (upTo S.length) A) (hT : HoldsOr steps (List.replicate S.length 1) T)
    (hT0 : ∀ t ∈ T, t ≠ 0) (hS : starts.Holds S) :
    ∃ c, sliceConfig r starts ends axes steps = some c ∧ c.starts = starts ∧ c.ends = ends ∧
      (c.axes = some (.static (A.map (normA r))) ∨
        (c.axes = none ∧ axes = none ∧ A = upTo S.length ∧ (S = [] ∨ starts.kind ≠ .const))) ∧
      (starts.kind = .const → S ≠ [] → isConst steps → c.steps = some (.static T)) ∧
      (axes.isSome = true → c.axes = some (.static (A.map (normA r)))) := by
  have hz : ∀ ts : List Int, (∀ t ∈ ts, t ≠ 0) → ¬ (0 ∈ ts) := fun ts h h0 => h 0 h0 rfl
  have hnorm : ∀ as : List Int, (as.map fun a => if a < 0 then a + (r : Int) else a) = as.map (normA r) := fun as => rfl
  cases starts with
  | static ss =>
    have hS : ss = S := hS
    subst hS
    cases axes with
    | none =>
      have hA : A = upTo ss.length := hA
      subst hA
      by_cases h0 : 0 < ss.length
      · cases steps with
        | none =>
          have hT : T = List.replicate ss.length 1 := hT
          refine ⟨⟨.static ss, ends, some (.static ((upTo ss.length).map (normA r))), some (.static T)⟩, ?_, rfl, rfl,
            .inl rfl, fun _ _ _ => rfl, by intro h; simp at h⟩
          simp only [sliceConfig, if_pos h0]
          rw [if_neg (hz _ (by rw [← hT]; exact hT0)), hT]
          simp only [sliceAxes, hnorm]
        | some st =>
          cases st with
          | static ts =>
            have hT : ts = T := hT
            subst hT
            refine ⟨⟨.static ss, ends, some (.static ((upTo ss.length).map (normA r))), some (.static ts)⟩, ?_, rfl, rfl,
              .inl rfl, fun _ _ _ => rfl, by intro h; simp at h⟩
            simp only [sliceConfig, if_pos h0]
            rw [if_neg (hz _ hT0)]
            simp only [sliceAxes, hnorm]
          | runtime ty v =>
            refine ⟨⟨.static ss, ends, some (.static ((upTo ss.length).map (normA r))), some (.runtime ty v)⟩, ?_, rfl, rfl,
              .inl rfl, fun _ _ h => h.elim, by intro h; simp at h⟩
            simp only [sliceConfig, if_pos h0, sliceAxes, hnorm]
      · have hnil : ss = [] := List.eq_nil_of_length_eq_zero (by omega)
        subst hnil
        cases steps with
        | none =>
          exact ⟨⟨.static [], ends, none, none⟩, by simp [sliceConfig, sliceAxes], rfl, rfl, .inr ⟨rfl, rfl, rfl, .inl rfl⟩,
            fun _ h _ => absurd rfl h, by intro h; simp at h⟩
        | some st =>
          cases st with
          | static ts =>
            have hT : ts = T := hT
            subst hT
            refine ⟨⟨.static [], ends, none, some (.static ts)⟩, ?_, rfl, rfl, .inr ⟨rfl, rfl, rfl, .inl rfl⟩,
              fun _ h _ => absurd rfl h, by intro h; simp at h⟩
            simp only [sliceConfig, List.length_nil, Nat.lt_irrefl, if_false]
            rw [if_neg (hz _ hT0)]
            rfl
          | runtime ty v =>
            exact ⟨⟨.static [], ends, none, some (.runtime ty v)⟩, by simp [sliceConfig, sliceAxes], rfl, rfl,
              .inr ⟨rfl, rfl, rfl, .inl rfl⟩, fun _ h _ => absurd rfl h, by intro h; simp at h⟩
    | some ax =>
      cases ax with
      | runtime ty v => exact hax.elim
      | static as =>
        have hA : as = A := hA
        subst hA
        cases steps with
        | none =>
          have hT : T = List.replicate ss.length 1 := hT
          by_cases h0 : 0 < ss.length
          · refine ⟨⟨.static ss, ends, some (.static (as.map (normA r))), some (.static T)⟩, ?_, rfl, rfl, .inl rfl,
              fun _ _ _ => rfl, fun _ => rfl⟩
            simp only [sliceConfig, if_pos h0]
            rw [if_neg (hz _ (by rw [← hT]; exact hT0)), hT]
            simp only [sliceAxes, hnorm]
          · have hnil : ss = [] := List.eq_nil_of_length_eq_zero (by omega)
            subst hnil
            exact ⟨⟨.static [], ends, some (.static (as.map (normA r))), none⟩, by simp [sliceConfig, sliceAxes, hnorm], rfl,
              rfl, .inl rfl, fun _ h _ => absurd rfl h, fun _ => rfl⟩
        | some st =>
          cases st with
          | static ts =>
            have hT : ts = T := hT
            subst hT
            refine ⟨⟨.static ss, ends, some (.static (as.map (normA r))), some (.static ts)⟩, ?_, rfl, rfl, .inl rfl,
              fun _ _ _ => rfl, fun _ => rfl⟩
            simp only [sliceConfig]
            rw [if_neg (hz _ hT0)]
            simp only [sliceAxes, hnorm]
          | runtime ty v =>
            exact ⟨⟨.static ss, ends, some (.static (as.map (normA r))), some (.runtime ty v)⟩,
              by simp only [sliceConfig, sliceAxes, hnorm], rfl, rfl, .inl rfl, fun _ _ h => h.elim, fun _ => rfl⟩
  | runtime sty sv =>
    have hk : (SliceIn.runtime sty sv).kind ≠ .const := by cases sty <;> simp [SliceIn.kind]
    have hsteps : ∀ ax', ∃ c, (match steps with
        | some (.static ts) => if 0 ∈ ts then none else some (SliceCfg.mk (.runtime sty sv) ends ax' steps)
        | _ => some ⟨.runtime sty sv, ends, ax', steps⟩) = some c ∧ c = ⟨.runtime sty sv, ends, ax', steps⟩ := by
      intro ax'
      cases steps with
      | none => exact ⟨_, rfl, rfl⟩
      | some st =>
        cases st with
        | runtime ty v => exact ⟨_, rfl, rfl⟩
        | static ts =>
          have hT : ts = T := hT
          subst hT
          exact ⟨_, if_neg (hz _ hT0), rfl⟩
    obtain ⟨c, c1, c2⟩ := hsteps (sliceAxes r axes)
    refine ⟨c, c1, by rw [c2], by rw [c2], ?_, fun h => absurd h hk, ?_⟩
    · cases axes with
      | none => exact .inr ⟨by rw [c2]; rfl, rfl, hA, .inr hk⟩
      | some ax =>
        cases ax with
        | runtime ty v => exact hax.elim
        | static as =>
          have hA : as = A := hA
          subst hA
          exact .inl (by rw [c2]; rfl)
    · intro h
      cases axes with
      | none => simp at h
      | some ax =>
        cases ax with
        | runtime ty v => exact hax.elim
        | static as =>
          have hA : as = A := hA
          subst hA
          rw [c2]; rfl

theorem quads_mem : ∀ {A S E T : List Int}, S.length = A.length → E.length = A.length → T.length = A.length →
    (∀ a ∈ A, ∃ q ∈ sliceQuads A S E T, q.1 = a) ∧ ∀ t ∈ T, ∃ q ∈ sliceQuads A S E T, q.2.2.2 = t := by
  intro A
  induction A with
  | nil => intro S E T _ _ h3; cases T with
    | nil => simp
    | cons => simp at h3
  | cons a A ih =>
    intro S E T h1 h2 h3
    cases S with
    | nil => simp at h1
    | cons s S =>
    cases E with
    | nil => simp at h2
    | cons e E =>
    cases T with
    | nil => simp at h3
    | cons t T =>
    obtain ⟨i1, i2⟩ := ih (S := S) (E := E) (T := T) (by simpa using h1) (by simpa using h2) (by simpa using h3)
    have hq : sliceQuads (a :: A) (s :: S) (e :: E) (t :: T) = (a, s, e, t) :: sliceQuads A S E T := by simp [sliceQuads]
    rw [hq]
    constructor
    · intro x hx
      rcases List.mem_cons.1 hx with rfl | hx
      · exact ⟨_, List.mem_cons_self, rfl⟩
      · obtain ⟨q, q1, q2⟩ := i1 x hx; exact ⟨q, by simp [q1], q2⟩
    · intro x hx
      rcases List.mem_cons.1 hx with rfl | hx
      · exact ⟨_, List.mem_cons_self, rfl⟩
      · obtain ⟨q, q1, q2⟩ := i2 x hx; exact ⟨q, by simp [q1], q2⟩

/-- **C60** (partial: under `SliceOk`). Slice with bounds `S`, `E`, axes `A` and steps `T`, each constant or known when the model
runs only: the generated code computes ONNX's slice. -/
theorem C60_slice_partial {starts ends : SliceIn} {axes steps : Option SliceIn} {A S E T : List Int} {X Z : Tensor α}
    (hS : starts.Holds S) (hE : ends.Holds E) (hA : HoldsOr axes (upTo S.length) A)
    (hT : HoldsOr steps (List.replicate S.length 1) T)
    (h1 : S.length = A.length) (h2 : E.length = A.length) (h3 : T.length = A.length) (hd : ∀ d ∈ X.shape, d < 2 ^ 63)
    (hok : SliceOk X.shape.length starts ends axes steps A S E T) (hZ : Onnx.sliceT (sliceQuads A S E T) X = some Z) :
    genSlice starts ends axes steps X = some Z := by
  obtain ⟨hax, hok⟩ := hok
  obtain ⟨q1, q2⟩ := quads_mem h1 h2 h3
  have hcond := hZ
  unfold Onnx.sliceT at hcond
  split at hcond
  next hc =>
    have hidx : ∀ a ∈ A, (Onnx.index X.shape.length a).isSome := by
      intro a ha
      obtain ⟨q, m, rfl⟩ := q1 a ha
      exact (hc.1 q m).1
    have hT0 : ∀ t ∈ T, t ≠ 0 := by
      intro t ht
      obtain ⟨q, m, rfl⟩ := q2 t ht
      exact (hc.1 q m).2
    obtain ⟨c, c1, c2, c3, c4, c5, c6⟩ := sliceConfig_ok (r := X.shape.length) (ends := ends) hax hA hT hT0 hS
    obtain ⟨cs, ce, ca, ct⟩ := c
    simp only at c2 c3 c4 c5 c6
    subst c2 c3
    have hrun : ∀ {L}, sliceEntries X.shape.length ⟨cs, ce, ca, ct⟩ = some L → Agree X.shape.length (sliceQuads A S E T) L →
        genSlice cs ce axes steps X = some Z := by
      intro L e1 e2
      unfold genSlice
      rw [c1, Option.bind_some, e1, Option.bind_some]
      exact slice_agree e2 hd hZ
    have hpair : (∀ t ∈ T, t = 1) →
        ((sliceEntries X.shape.length ⟨cs, ce, ca, ct⟩ = match (generalizing := false) ca with
          | some (.static as) => some (pairEntries X.shape.length as S E)
          | _ => some (pairEntries X.shape.length (upTo X.shape.length) S E)) →
        genSlice cs ce axes steps X = some Z) := by
      intro ht1 he
      have hag := pair_agree (r := X.shape.length) h1 h2 h3 hidx ht1
      rcases c4 with hca | ⟨hca, _, hAe, _⟩
      · rw [hca] at he
        exact hrun (by rw [hca]; exact he) hag
      · rw [hca] at he
        have hle : S.length ≤ X.shape.length := upTo_le (by rw [← hAe]; exact hidx)
        obtain ⟨B, hB⟩ := upTo_split hle
        rw [hB, pairEntries_append B (by rw [upTo_length]), ← hAe] at he
        rw [show A.map (normA X.shape.length) = A by rw [hAe, upTo_norm]] at hag
        exact hrun (by rw [hca]; exact he) hag
    have hlen : A.length ≤ X.shape.length ∨ A.map (normA X.shape.length) ≠ upTo A.length := by
      by_cases hm : A.map (normA X.shape.length) = upTo A.length
      · refine .inl ?_
        cases hn : A.length with
        | zero => omega
        | succ n =>
          have hmem : (n : Int) ∈ A.map (normA X.shape.length) := by
            rw [hm, hn]; simp only [upTo, List.mem_map, List.mem_range]; exact ⟨n, by omega, rfl⟩
          obtain ⟨a, ha, hae⟩ := List.mem_map.1 hmem
          obtain ⟨k, hk⟩ := Option.isSome_iff_exists.1 (hidx a ha)
          have := normA_index hk
          omega
      · exact .inr hm
    cases cs with
    | static ss =>
      have hS' : ss = S := hS
      subst hS'
      cases ce with
      | static es =>
        have hE' : es = E := hE
        subst hE'
        obtain ⟨o1, o2, o3, o4⟩ := hok
        have hct := c5 rfl o1 o2
        rcases c4 with hca | ⟨_, _, _, h | h⟩
        · subst hca hct
          obtain ⟨L, e1, e2⟩ := static_agree (r := X.shape.length) h1 h2 h3 hidx o3 o4
          exact hrun e1 e2
        · exact absurd h o1
        · exact absurd rfl h
      | runtime ety ev =>
        cases ety with
        | shape n =>
          have := holds_array hE rfl
          subst this
          exact hpair hok rfl
        | tensor t =>
          obtain ⟨u, rfl, hu⟩ := holds_tensor hE rfl
          obtain ⟨o1, o2, o3, o4⟩ := hok
          obtain ⟨L, e1, e2⟩ := vec_agree (r := X.shape.length) h1 h2 h3 hidx o2 o3 o4
          have hl := hlen.resolve_right (fun c => c o1)
          refine hrun ?_ e2
          show vecEntries _ (upTo (min X.shape.length ss.length)) ss u.data = _
          rw [hu, h1, Nat.min_eq_right hl, ← o1, e1]
        | scalarNative d =>
          obtain ⟨x, rfl, hx⟩ := holds_number hE rfl
          obtain ⟨o2, o3, o4⟩ := hok
          subst hx
          obtain ⟨L, e1, e2⟩ := vec_agree (r := X.shape.length) h1 h2 h3 hidx o2 o3 o4
          rcases c4 with hca | ⟨_, _, _, h | h⟩
          · subst hca
            refine hrun ?_ e2
            obtain ⟨a, rfl⟩ : ∃ a, A = [a] := List.length_eq_one_iff.1 (by simpa using h2.symm)
            obtain ⟨b, rfl⟩ : ∃ b, ss = [b] := List.length_eq_one_iff.1 (by simpa using h1)
            exact e1
          · subst h; simp only [List.length_nil, List.length_cons] at h1 h2; omega
          · exact absurd rfl h
        | scalarTensor d => exact hok.elim
    | runtime sty sv =>
      cases sty with
      | shape n =>
        have := holds_array hS rfl
        subst this
        cases ce with
        | static es =>
          have hE' : es = E := hE
          subst hE'
          exact hpair hok rfl
        | runtime ety ev =>
          cases ety with
          | shape n =>
            have := holds_array hE rfl
            subst this
            exact hpair hok rfl
          | tensor t =>
            obtain ⟨u, rfl, hu⟩ := holds_tensor hE rfl
            obtain ⟨o1, o2, o3, o4⟩ := hok
            have hca := c6 o1
            subst hca
            obtain ⟨L, e1, e2⟩ := vec_agree (r := X.shape.length) h1 h2 h3 hidx o2 o3 o4
            refine hrun ?_ e2
            show vecEntries _ _ _ u.data = _
            rw [hu, e1]
          | scalarNative d => exact hok.elim
          | scalarTensor d => exact hok.elim
      | tensor t =>
        obtain ⟨u, rfl, hu⟩ := holds_tensor hS rfl
        cases ce with
        | static es =>
          have hE' : es = E := hE
          subst hE'
          obtain ⟨o1, o2, o3, o4⟩ := hok
          obtain ⟨L, e1, e2⟩ := vec_agree (r := X.shape.length) h1 h2 h3 hidx o2 o3 o4
          have hl := hlen.resolve_right (fun c => c o1)
          refine hrun ?_ e2
          show vecEntries _ (upTo (min X.shape.length es.length)) u.data es = _
          rw [hu, h2, Nat.min_eq_right hl, ← o1, e1]
        | runtime ety ev =>
          cases ety with
          | shape n =>
            have := holds_array hE rfl
            subst this
            obtain ⟨o1, o2, o3, o4⟩ := hok
            have hca := c6 o1
            subst hca
            obtain ⟨L, e1, e2⟩ := vec_agree (r := X.shape.length) h1 h2 h3 hidx o2 o3 o4
            refine hrun ?_ e2
            show vecEntries _ _ u.data _ = _
            rw [hu, e1]
          | tensor t =>
            obtain ⟨w, rfl, hw⟩ := holds_tensor hE rfl
            obtain ⟨o1, o2, o3, o4⟩ := hok
            have hca := c6 o1
            subst hca
            obtain ⟨L, e1, e2⟩ := vec_agree (r := X.shape.length) h1 h2 h3 hidx o2 o3 o4
            refine hrun ?_ e2
            show vecEntries _ _ u.data w.data = _
            rw [hu, hw, e1]
          | scalarNative d => exact hok.elim
          | scalarTensor d => exact hok.elim
      | scalarNative d =>
        obtain ⟨x, rfl, hx⟩ := holds_number hS rfl
        cases ce with
        | static es => exact hok.elim
        | runtime ety ev =>
          cases ety with
          | scalarNative d =>
            obtain ⟨y, rfl, hy⟩ := holds_number hE rfl
            obtain ⟨o1, o2, o3, o4⟩ := hok
            have hca := c6 o1
            subst hca hx hy
            obtain ⟨L, e1, e2⟩ := vec_agree (r := X.shape.length) h1 h2 h3 hidx o2 o3 o4
            refine hrun ?_ e2
            obtain ⟨a, rfl⟩ : ∃ a, A = [a] := List.length_eq_one_iff.1 (by simpa using h2.symm)
            exact e1
          | shape n => exact hok.elim
          | tensor t => exact hok.elim
          | scalarTensor d => exact hok.elim
      | scalarTensor d => exact hok.elim
  next => cases hcond

/-! ### Cases -/

/-- A vector of run-time values in a tensor. -/
def sliceVec (vs : List Int) : SliceIn := .runtime (.tensor ⟨.i64, 1, none⟩) (.dev ⟨[vs.length], vs, by simp [prodShape]⟩)

theorem sliceVec_holds (vs : List Int) : (sliceVec vs).Holds vs :=
  ⟨⟨[vs.length], vs, by simp [prodShape]⟩, ⟨rfl, rfl, by decide⟩, by simp, rfl⟩

/-- Shape and elements, for comparison. -/
def parts (t : Option (Tensor Int)) : Option (List Nat × List Int) := t.map fun t => (t.shape, t.data)

/-- Constant bounds on both dimensions, one from the back and one open, with steps. -/
example : genSlice (.static [-1, 1]) (.static [2 ^ 63 - 1, -1]) (some (.static [0, -1])) (some (.static [1, 2])) sliceX =
    some ⟨[1, 1], [6], rfl⟩ := by
  refine C60_slice_partial (A := [0, -1]) (S := [-1, 1]) (E := [2 ^ 63 - 1, -1]) (T := [1, 2]) rfl rfl rfl rfl rfl rfl rfl
    (by decide) ⟨trivial, ?_⟩ ?_
  · exact ⟨by decide, trivial, by decide, by decide⟩
  · decide +kernel

/-- Run-time bounds in tensors. -/
example : genSlice (sliceVec [1]) (sliceVec [3]) (some (.static [1])) none sliceX = some ⟨[2, 2], [2, 3, 6, 7], rfl⟩ := by
  refine C60_slice_partial (A := [1]) (S := [1]) (E := [3]) (T := [1]) (sliceVec_holds _) (sliceVec_holds _) rfl rfl rfl rfl rfl
    (by decide) ⟨trivial, ?_⟩ ?_
  · exact ⟨rfl, by decide, by decide, by decide⟩
  · decide +kernel

/-- Ends that are sizes, no axes. -/
example : genSlice (.static [0, 1]) (.runtime (.shape 2) (.shape [1, 3])) none none sliceX = some ⟨[1, 2], [2, 3], rfl⟩ := by
  refine C60_slice_partial (A := [0, 1]) (S := [0, 1]) (E := [1, 3]) (T := [1, 1]) rfl
    ⟨⟨[2], [1, 3], rfl⟩, ⟨rfl, rfl, rfl⟩, by decide, rfl⟩ rfl rfl rfl rfl rfl (by decide) ⟨trivial, ?_⟩ ?_
  · show ∀ t ∈ [(1 : Int), 1], t = 1
    decide
  · decide +kernel

/-- A negative step: ONNX reads from the start bound down to the end bound, the code hands the two bounds to Burn as a range
from the first up to the second. The usual way to reverse a dimension, from `-1` down to the least number, yields nothing, and
bounds the other way round, where ONNX yields nothing, yield the reversed range. -/
theorem C60_slice_negative_step_wrong :
    parts (Onnx.sliceT [(1, -1, -9, -1)] sliceX) = some ([2, 4], [4, 3, 2, 1, 8, 7, 6, 5]) ∧
    parts (genSlice (.static [-1]) (.static [-9]) (some (.static [1])) (some (.static [-1])) sliceX) = some ([2, 0], []) ∧
    parts (Onnx.sliceT [(1, 0, 4, -1)] sliceX) = some ([2, 0], []) ∧
    parts (genSlice (.static [0]) (.static [4]) (some (.static [1])) (some (.static [-1])) sliceX) =
      some ([2, 4], [4, 3, 2, 1, 8, 7, 6, 5]) := by
  refine ⟨?_, ?_, ?_, ?_⟩ <;> decide +kernel

/-- Steps are dropped as soon as a bound is known at run time only. -/
theorem C60_slice_runtime_steps_ignored :
    parts (Onnx.sliceT [(1, 0, 4, 2)] sliceX) = some ([2, 2], [1, 3, 5, 7]) ∧
    parts (genSlice (sliceVec [0]) (sliceVec [4]) (some (.static [1])) (some (.static [2])) sliceX) =
      some ([2, 4], [1, 2, 3, 4, 5, 6, 7, 8]) := by
  refine ⟨?_, ?_⟩ <;> decide +kernel

/-- Constant bounds with steps known at run time only: the generator panics. -/
theorem C60_slice_static_bounds_runtime_steps_panics (S E : List Int) (ty : ArgType) (v : GVal Int) (axes : Option SliceIn)
    (X : Tensor α) : genSlice (.static S) (.static E) axes (some (.runtime ty v)) X = none := by
  unfold genSlice
  cases axes with
  | none =>
    simp only [sliceConfig, Option.bind_some]
    split <;> simp [sliceEntries]
  | some a => cases a <;> simp [sliceConfig, sliceEntries, sliceAxes]

/-- Axes known at run time only are taken for `0, 1, …`. -/
theorem C60_slice_runtime_axes_ignored :
    parts (Onnx.sliceT [(1, 0, 1, 1)] sliceX) = some ([2, 1], [1, 5]) ∧
    parts (genSlice (.static [0]) (.static [1]) (some (sliceVec [1])) none sliceX) = some ([1, 4], [1, 2, 3, 4]) := by
  refine ⟨?_, ?_⟩ <;> decide +kernel

/-- A constant start with an end in a tensor, and the reverse: the axes are not looked at, the first dimensions are sliced. -/
theorem C60_slice_mixed_axes_ignored :
    parts (Onnx.sliceT [(1, 0, 1, 1)] sliceX) = some ([2, 1], [1, 5]) ∧
    parts (genSlice (.static [0]) (sliceVec [1]) (some (.static [1])) none sliceX) = some ([1, 4], [1, 2, 3, 4]) ∧
    parts (genSlice (sliceVec [0]) (.static [1]) (some (.static [1])) none sliceX) = some ([1, 4], [1, 2, 3, 4]) := by
  refine ⟨?_, ?_, ?_⟩ <;> decide +kernel

/-- A tensor with an array and no axes: only the first dimension is sliced. -/
theorem C60_slice_tensor_array_one_dim :
    parts (Onnx.sliceT [(0, 0, 1, 1), (1, 0, 1, 1)] sliceX) = some ([1, 1], [1]) ∧
    parts (genSlice (sliceVec [0, 0]) (.runtime (.shape 2) (.shape [1, 1])) none none sliceX) = some ([1, 4], [1, 2, 3, 4]) ∧
    parts (genSlice (.runtime (.shape 2) (.shape [0, 0])) (sliceVec [1, 1]) none none sliceX) = some ([1, 4], [1, 2, 3, 4]) := by
  refine ⟨?_, ?_, ?_⟩ <;> decide +kernel

/-- Both bounds in tensors and no axes: the generator panics. -/
theorem C60_slice_tensors_without_axes_panics (S E : List Int) (X : Tensor α) :
    genSlice (sliceVec S) (sliceVec E) none none X = none := by
  simp [genSlice, sliceVec, sliceConfig, sliceEntries, sliceAxes]

/-- A native scalar start with a constant end: the generator panics. -/
theorem C60_slice_scalar_start_panics (d : DType) (s : Int) (E : List Int) (axes : Option SliceIn) (X : Tensor α) :
    genSlice (.runtime (.scalarNative d) (.native s)) (.static E) axes none X = none := by
  simp [genSlice, sliceConfig, sliceEntries]

/-- On-device scalars: the code does not compile. -/
theorem C60_slice_device_scalars_fail (d d' : DType) (s e : Tensor Int) (axes : Option SliceIn) (X : Tensor α) :
    genSlice (.runtime (.scalarTensor d) (.dev s)) (.runtime (.scalarTensor d') (.dev e)) axes none X = none := by
  simp [genSlice, sliceConfig, sliceEntries]

/-- A large end that is neither `i64::MAX` nor an `i32`, as exporters write `i64::MAX - 1` or `2^32`: the generator panics. -/
theorem C60_slice_large_end_panics (s e : Int) (h1 : 2 ^ 31 - 1 < e) (h2 : e < 2 ^ 63 - 1) (X : Tensor α)
    (hX : 0 < X.shape.length) : genSlice (.static [s]) (.static [e]) none none X = none := by
  have hr : staticRange s e 1 = none := by
    unfold staticRange
    rw [if_neg (by omega), if_pos (by omega)]
  simp [genSlice, sliceConfig, sliceEntries, sliceAxes, upTo, List.range_succ, staticEntries, hr, hX]

/-- Nothing to slice (`starts` and `ends` empty): ONNX returns the input, the generator panics. -/
theorem C60_slice_empty_panics (X : Tensor α) :
    (Onnx.sliceT [] X).isSome = true ∧ genSlice (.static []) (.static []) none none X = none := by
  constructor
  · simp [Onnx.sliceT]
  · simp [genSlice, sliceConfig, sliceEntries]

end OnnxIR
