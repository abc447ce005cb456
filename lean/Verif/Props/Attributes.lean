import Verif.Props.Declared

/-!
# C86: the attributes of a node are read faithfully

If the names of a node's attributes are distinct and each is of a kind the importer knows, with its data in the file itself, then the
node has for each name exactly the value the file gives to it and nothing under any other name (`C86_attributes_partial`); a
subgraph is read only for If, Loop and Scan (`C86_graph_of_other_operator_ignored`). A tensor whose data is in another file is read as
an initializer but not as an attribute (`C86_external_tensor_panics`), and an attribute without a type, as old files have it, a sparse
tensor or a type panics (`C86_kind_panics`).
-/

namespace OnnxIR.Decode

open Onnx

/-- What a map, newest entry first, has under a name. -/
def entry (m : List (String × AttrData)) (x : String) : Option AttrData := m.lookup x

theorem attrTensor_inline {p : Proto} (h : Inline p) : ∃ d, attrTensor p = some d ∧ SameTensor p d := by
  obtain ⟨he, hd, t, vs, ht, hv⟩ := h
  have hshape : ∀ d, tensorData p none = .ok d → d.shape.map Int.ofNat = p.dims := fun d h =>
    C40_shape_kept p none d hd (by simp [initializer, h])
  rcases hv with ⟨hr, hv⟩ | ⟨hr, rfl, hv⟩
  · obtain ⟨d, h1, rfl, h3⟩ := C40_raw_decoded p none t vs ht he hr hv
    exact ⟨d, by simp [attrTensor, h1], ht, hshape d h1, vs, h3, .inl ⟨hr, hv⟩⟩
  · obtain ⟨d, h1, rfl, h3⟩ := C40_typed_decoded p none t ht he hr hv
    exact ⟨d, by simp [attrTensor, h1], ht, hshape d h1, _, h3, .inr ⟨hr, rfl, hv⟩⟩

theorem strings_read : ∀ (l : List (Option String)), none ∉ l → ∃ ss, l.mapM id = some ss ∧ l = ss.map some
  | [], _ => ⟨[], rfl, rfl⟩
  | none :: _, h => by simp at h
  | some s :: l, h => by
    obtain ⟨ss, h1, h2⟩ := strings_read l fun hm => h (List.mem_cons_of_mem _ hm)
    exact ⟨s :: ss, by simp [List.mapM_cons, h1], by simp [← h2]⟩

theorem tensors_read : ∀ (l : List Proto), (∀ p ∈ l, Inline p) → ∃ ds, l.mapM attrTensor = some ds ∧ l.length = ds.length ∧
    ∀ (i : Nat) (p : Proto) (d : Data), l[i]? = some p → ds[i]? = some d → SameTensor p d
  | [], _ => ⟨[], rfl, rfl, by simp⟩
  | p :: l, h => by
    obtain ⟨d, h1, h2⟩ := attrTensor_inline (h p (List.mem_cons_self ..))
    obtain ⟨ds, h3, h4, h5⟩ := tensors_read l fun q hq => h q (List.mem_cons_of_mem _ hq)
    refine ⟨d :: ds, by simp [List.mapM_cons, h1, h3], by simp [h4], fun i q e hq he => ?_⟩
    cases i with
    | zero => simp at hq he; subst hq he; exact h2
    | succ i => exact h5 i q e (by simpa using hq) (by simpa using he)

theorem attrValue_proper {a : AttrProto} (h : Proper a) (hg : ¬ HoldsGraph a) : ∃ v, attrValue a = some v ∧ Means a v := by
  rcases h with h | h | ⟨h, hs⟩ | ⟨h, p, hp, hi⟩ | ⟨h, _⟩ | h | h | ⟨h, hs⟩ | ⟨h, hs⟩ | h
  · exact ⟨_, by simp [attrValue, h], .float h⟩
  · exact ⟨_, by simp [attrValue, h], .int h⟩
  · obtain ⟨s, hs⟩ := Option.ne_none_iff_exists'.1 hs
    exact ⟨_, by simp [attrValue, h, hs], .string s h hs⟩
  · obtain ⟨d, h1, h2⟩ := attrTensor_inline hi
    exact ⟨_, by simp [attrValue, h, hp, h1], .tensor p d h hp h2⟩
  · exact absurd (.inl h) hg
  · exact ⟨_, by simp [attrValue, h], .floats h⟩
  · exact ⟨_, by simp [attrValue, h], .ints h⟩
  · obtain ⟨ss, h1, h2⟩ := strings_read _ hs
    exact ⟨_, by simp [attrValue, h, h1], .strings ss h h2⟩
  · obtain ⟨ds, h1, h2, h3⟩ := tensors_read _ hs
    exact ⟨_, by simp [attrValue, h, h1], .tensors ds h h2 h3⟩
  · exact absurd (.inr h) hg

theorem entry_cons (m : List (String × AttrData)) (k x : String) (v : AttrData) :
    entry ((k, v) :: m) x = if x = k then some v else entry m x := by
  by_cases h : x = k
  · simp [entry, h, List.lookup]
  · simp only [entry, List.lookup, beq_eq_false_iff_ne.2 h, if_neg h]

theorem plainAttrs_read : ∀ (as : List AttrProto) (m : List (String × AttrData)), (as.map AttrProto.name).Nodup →
    (∀ a ∈ as, Proper a) → ∃ r, plainAttrs m as = some r ∧
      (∀ a ∈ as, ¬ HoldsGraph a → ∃ v, entry r a.name = some v ∧ Means a v) ∧
      ∀ x, (∀ a ∈ as, a.name = x → HoldsGraph a) → entry r x = entry m x
  | [], m, _, _ => ⟨m, rfl, by simp, by simp⟩
  | a :: as, m, hn, hp => by
    simp only [List.map_cons, List.nodup_cons, List.mem_map, not_exists, not_and] at hn
    have hp' : ∀ b ∈ as, Proper b := fun b hb => hp b (List.mem_cons_of_mem _ hb)
    by_cases hg : HoldsGraph a
    · obtain ⟨r, h1, h2, h3⟩ := plainAttrs_read as m hn.2 hp'
      refine ⟨r, by rw [plainAttrs, if_pos (show a.type = 5 ∨ a.type = 10 from hg), h1], fun b hb hbg => ?_, fun x hx => ?_⟩
      · rcases List.mem_cons.1 hb with rfl | hb
        · exact absurd hg hbg
        · exact h2 b hb hbg
      · exact h3 x fun b hb => hx b (List.mem_cons_of_mem _ hb)
    · obtain ⟨v, hv, hm⟩ := attrValue_proper (hp a (List.mem_cons_self ..)) hg
      obtain ⟨r, h1, h2, h3⟩ := plainAttrs_read as ((a.name, v) :: m) hn.2 hp'
      refine ⟨r, by rw [plainAttrs, if_neg (show ¬ (a.type = 5 ∨ a.type = 10) from hg)]; simp only [hv]; exact h1, fun b hb hbg => ?_, fun x hx => ?_⟩
      · rcases List.mem_cons.1 hb with rfl | hb
        · refine ⟨v, ?_, hm⟩
          rw [h3 b.name fun c hc he => absurd he (hn.1 c hc), entry_cons, if_pos rfl]
        · exact h2 b hb hbg
      · have hxa : x ≠ a.name := fun he => hg (hx a (List.mem_cons_self ..) he.symm)
        rw [h3 x fun b hb => hx b (List.mem_cons_of_mem _ hb), entry_cons, if_neg hxa]

theorem graphAttrs_read : ∀ (as : List AttrProto) (m : List (String × AttrData)), (as.map AttrProto.name).Nodup →
    (∀ a ∈ as, Proper a) →
      (∀ a ∈ as, HoldsGraph a → ∃ v, entry (graphAttrs m as) a.name = some v ∧ Means a v) ∧
      ∀ x, (∀ a ∈ as, a.name = x → ¬ HoldsGraph a) → entry (graphAttrs m as) x = entry m x
  | [], m, _, _ => ⟨by simp, by simp [graphAttrs]⟩
  | a :: as, m, hn, hp => by
    simp only [List.map_cons, List.nodup_cons, List.mem_map, not_exists, not_and] at hn
    have hp' : ∀ b ∈ as, Proper b := fun b hb => hp b (List.mem_cons_of_mem _ hb)
    by_cases hg : HoldsGraph a
    · have hv : ∃ v, Means a v ∧ graphAttrs m (a :: as) = graphAttrs ((a.name, v) :: m) as := by
        have hpa := hp a (List.mem_cons_self ..)
        rcases hg with h5 | h10
        · have : a.g ≠ none := by
            simp only [Proper, h5] at hpa
            simpa using hpa
          obtain ⟨g, hg⟩ := Option.ne_none_iff_exists'.1 this
          exact ⟨.graph g, .graph g h5 hg, by simp [graphAttrs, h5, hg]⟩
        · exact ⟨.graphs a.graphs, .graphs h10, by simp [graphAttrs, h10]⟩
      obtain ⟨v, hm, hr⟩ := hv
      obtain ⟨h2, h3⟩ := graphAttrs_read as ((a.name, v) :: m) hn.2 hp'
      rw [hr]
      refine ⟨fun b hb hbg => ?_, fun x hx => ?_⟩
      · rcases List.mem_cons.1 hb with rfl | hb
        · refine ⟨v, ?_, hm⟩
          rw [h3 b.name fun c hc he => absurd he (hn.1 c hc), entry_cons, if_pos rfl]
        · exact h2 b hb hbg
      · have hxa : x ≠ a.name := fun he => hx a (List.mem_cons_self ..) he.symm hg
        rw [h3 x fun b hb => hx b (List.mem_cons_of_mem _ hb), entry_cons, if_neg hxa]
    · have hr : graphAttrs m (a :: as) = graphAttrs m as := by
        simp only [HoldsGraph, not_or] at hg
        simp [graphAttrs, hg.1, hg.2]
      obtain ⟨h2, h3⟩ := graphAttrs_read as m hn.2 hp'
      rw [hr]
      refine ⟨fun b hb hbg => ?_, fun x hx => h3 x fun b hb => hx b (List.mem_cons_of_mem _ hb)⟩
      rcases List.mem_cons.1 hb with rfl | hb
      · exact absurd hbg hg
      · exact h2 b hb hbg

theorem entry_append : ∀ (m n : List (String × AttrData)) (x : String),
    entry (m ++ n) x = (entry m x).or (entry n x)
  | [], n, x => by simp [entry]
  | (k, v) :: m, n, x => by
    rw [List.cons_append, entry_cons, entry_cons, entry_append m n x]
    split <;> simp

/-- C86. Each attribute is found under its name with the value the file gives it (a subgraph if the operator owns subgraphs), and
nothing is found under a name the file does not use. Missing: sparse tensors, types, data in another file. -/
theorem C86_attributes_partial (control : Bool) (as : List AttrProto) (hn : (as.map AttrProto.name).Nodup)
    (hp : ∀ a ∈ as, Proper a) :
    ∃ m, nodeAttrs control as = some m ∧
      (∀ a ∈ as, (HoldsGraph a → control = true) → ∃ v, m.lookup a.name = some v ∧ Means a v) ∧
      ∀ x, (∀ a ∈ as, a.name ≠ x) → m.lookup x = none := by
  obtain ⟨r, h1, h2, h3⟩ := plainAttrs_read as [] hn hp
  obtain ⟨g2, g3⟩ := graphAttrs_read as [] hn hp
  have huniq : ∀ a ∈ as, ∀ b ∈ as, b.name = a.name → b = a := by
    intro a ha b hb he
    have := List.pairwise_iff_getElem.1 (List.pairwise_map.1 hn)
    obtain ⟨i, hi, rfl⟩ := List.getElem_of_mem ha
    obtain ⟨j, hj, rfl⟩ := List.getElem_of_mem hb
    rcases Nat.lt_trichotomy i j with h | h | h
    · exact absurd he.symm (this i j hi hj h)
    · subst h; rfl
    · exact absurd he (this j i hj hi h)
  refine ⟨if control then graphAttrs [] as ++ r else r, by simp only [nodeAttrs, h1, Option.map_some], fun a ha hc => ?_, fun x hx => ?_⟩
  · by_cases hg : HoldsGraph a
    · obtain ⟨v, hv, hm⟩ := g2 a ha hg
      refine ⟨v, ?_, hm⟩
      change entry _ _ = _
      rw [if_pos (hc hg), entry_append, hv]
      rfl
    · obtain ⟨v, hv, hm⟩ := h2 a ha hg
      refine ⟨v, ?_, hm⟩
      change entry _ _ = _
      split
      · rw [entry_append, g3 a.name fun b hb he => huniq a ha b hb he ▸ hg, hv]
        rfl
      · exact hv
  · change entry _ _ = _
    have e1 : entry r x = none := by rw [h3 x fun a ha he => absurd he (hx a ha)]; rfl
    have e2 : entry (graphAttrs [] as) x = none := by rw [g3 x fun a ha he => absurd he (hx a ha)]; rfl
    split
    · rw [entry_append, e1, e2]
      rfl
    · exact e1

/-- C86. The accessors give the integer, float, integers or text of the file, and refuse a value of another kind. -/
theorem C86_scalar_values (a : AttrProto) (v : AttrData) (h : Means a v) :
    (a.type = 2 → v.intoInt = some a.i) ∧ (a.type = 1 → v.intoFloat = some a.f) ∧
    (a.type = 7 → v.intoInts = some a.ints) ∧ (a.type = 3 → v.intoString = a.s) ∧
    (a.type ≠ 2 → v.intoInt = none) ∧ (a.type ≠ 7 → v.intoInts = none) := by
  cases h <;> simp_all [AttrData.intoInt, AttrData.intoFloat, AttrData.intoInts, AttrData.intoString]

/-- C86. A 32-bit reading of an integer is the integer if it fits in 32 bits. -/
theorem C86_int32_partial (v : Int) (h : -2 ^ 31 ≤ v ∧ v < 2 ^ 31) : (AttrData.int v).intoI32 = some v := by
  simp only [AttrData.intoI32, Option.some.injEq]
  omega

/-- C86. Otherwise it is another integer: the element type number 2^32 + 1 reads as 1. -/
theorem C86_int32_wraps : (AttrData.int (2 ^ 32 + 1)).intoI32 = some 1 := by decide

/-! ### Where the code and the property disagree -/

theorem plainAttrs_stops : ∀ (as : List AttrProto) (m : List (String × AttrData)) (a : AttrProto), a ∈ as →
    ¬ (a.type = 5 ∨ a.type = 10) → attrValue a = none → plainAttrs m as = none
  | [], _, _, h, _, _ => by simp at h
  | b :: as, m, a, h, hg, hv => by
    rw [plainAttrs]
    rcases List.mem_cons.1 h with rfl | h
    · rw [if_neg hg, hv]
    · split
      · exact plainAttrs_stops as m a h hg hv
      · split
        · rfl
        · exact plainAttrs_stops as _ a h hg hv

/-- C86. A tensor whose data is in another file panics as an attribute, among whatever other attributes, although it is read as an
initializer. -/
theorem C86_external_tensor_panics (control : Bool) (p : Proto) (t : DType) (vs : List Int)
    (pre raw post : List UInt8) (len : Option Nat) (ht : p.dataType = dataTypeNumber t) (he : p.external = true)
    (hr : RawOf t vs raw) (hl : len.getD (defaultLength (convertShape p.dims) t) = raw.length) (as : List AttrProto)
    (a : AttrProto) (ha : a ∈ as) (hk : a.type = 4) (hp : a.t = some p) :
    nodeAttrs control as = none ∧
      ∃ d, initializer p (some ⟨pre ++ raw ++ post, pre.length, len⟩) = .ok d ∧ d.values = some vs := by
  constructor
  · have : attrTensor p = none := by simp [attrTensor, tensorData, ht, elementType_number, he]
    have hv : attrValue a = none := by simp [attrValue, hk, hp, this]
    simp [nodeAttrs, plainAttrs_stops as [] a ha (by omega) hv]
  · obtain ⟨d, h1, _, h3⟩ := C40_external_decoded p t vs pre raw post len ht he hr hl
    refine ⟨d, ?_, h3⟩
    simp only [initializer, h1]

/-- C86. One attribute of another kind — no type (0), a sparse tensor (11, 12), a type (13, 14) or an unknown number — panics. -/
theorem C86_kind_panics (control : Bool) (as : List AttrProto) (a : AttrProto) (ha : a ∈ as)
    (hk : ¬ (1 ≤ a.type ∧ a.type ≤ 10)) : nodeAttrs control as = none := by
  have hv : attrValue a = none := by
    unfold attrValue
    split <;> first | rfl | omega
  simp [nodeAttrs, plainAttrs_stops as [] a ha (by omega) hv]

/-- C86. So does text that is not UTF-8, which the format allows in an attribute. -/
theorem C86_bytes_panic (control : Bool) (as : List AttrProto) (a : AttrProto) (ha : a ∈ as)
    (hk : a.type = 3) (hs : a.s = none) : nodeAttrs control as = none := by
  have hv : attrValue a = none := by simp [attrValue, hk, hs]
  simp [nodeAttrs, plainAttrs_stops as [] a ha (by omega) hv]

/-- C86. The subgraph of an operator other than If, Loop and Scan is dropped. -/
theorem C86_graph_of_other_operator_ignored (as : List AttrProto) (hn : (as.map AttrProto.name).Nodup)
    (hp : ∀ a ∈ as, Proper a) (a : AttrProto) (ha : a ∈ as) (hg : HoldsGraph a) :
    ∃ m, nodeAttrs false as = some m ∧ m.lookup a.name = none := by
  obtain ⟨r, h1, _, h3⟩ := plainAttrs_read as [] hn hp
  refine ⟨r, by simp [nodeAttrs, h1], ?_⟩
  change entry _ _ = _
  rw [h3 a.name fun b hb he => ?_]
  · rfl
  · have := List.pairwise_iff_getElem.1 (List.pairwise_map.1 hn)
    obtain ⟨i, hi, rfl⟩ := List.getElem_of_mem ha
    obtain ⟨j, hj, rfl⟩ := List.getElem_of_mem hb
    rcases Nat.lt_trichotomy i j with h | h | h
    · exact absurd he.symm (this i j hi hj h)
    · subst h; exact hg
    · exact absurd he (this j i hj hi h)

/-! ### The hypotheses are met -/

/-- The attributes of a node with one of each kind. -/
def sampleAttrs : List AttrProto :=
  [{ name := "alpha", type := 1, f := 0x3f800000 }, { name := "axis", type := 2, i := -1 },
   { name := "mode", type := 3, s := some "linear" },
   { name := "value", type := 4, t := some { dims := [2], dataType := 6, int32Data := [4, -5] } },
   { name := "body", type := 5, g := some 3 }, { name := "perm", type := 7, ints := [1, 0] },
   { name := "words", type := 8, strings := [some "a", some ""] }]

example : (sampleAttrs.map AttrProto.name).Nodup := by decide

example : ∀ a ∈ sampleAttrs, Proper a := by
  intro a ha
  simp only [sampleAttrs, List.mem_cons, List.not_mem_nil, or_false] at ha
  rcases ha with rfl | rfl | rfl | rfl | rfl | rfl | rfl
  · simp [Proper]
  · simp [Proper]
  · simp [Proper]
  · refine .inr (.inr (.inr (.inl ⟨rfl, _, rfl, rfl, by simp, .i32, [4, -5], rfl, .inr ⟨rfl, rfl, ?_⟩⟩)))
    simp [Onnx.InRange]
  · simp [Proper]
  · simp [Proper]
  · simp [Proper]

example : (nodeAttrs true sampleAttrs).bind (·.lookup "axis") = some (.int (-1)) ∧
    (nodeAttrs true sampleAttrs).bind (·.lookup "body") = some (.graph 3) ∧
    (nodeAttrs false sampleAttrs).bind (·.lookup "body") = none ∧
    (nodeAttrs true sampleAttrs).bind (·.lookup "value") = some (.tensor ⟨[2], .i32, [4, 0, 0, 0, 251, 255, 255, 255]⟩) := by
  decide +kernel

example : RawOf .u8 [7] [7] := RawOf.cons (bs := [7]) (rest := []) ⟨by decide, rfl, 0, by decide⟩ .nil

end OnnxIR.Decode
