import Verif.Model.Views
import Verif.Props.OpRules2
import Verif.Props.OpRules3
import Verif.Props.Reshape
import Verif.Props.Elementwise

/-!
# Property C56: operators that only change the shape compute what ONNX says

Squeeze, Unsqueeze, Reshape and Flatten keep the elements in row-major order and give them the ONNX shape, whatever form
the value has in the generated code (a tensor, a scalar on the device, a native number, an array); Transpose and Expand
put every element where ONNX puts it. `Reps` says which ONNX tensor a value of the generated code stands for.
-/

namespace OnnxIR

open Gen

variable {α : Type}

/-! ## Shapes -/

theorem reshape_view {t : Tensor α} {s : List Nat} (h : prodShape s = prodShape t.shape) :
    ∃ u, Burn.reshape t s = some u ∧ Viewed t u s :=
  ⟨⟨s, t.data, by rw [t.size, h]⟩, by simp [Burn.reshape, h], rfl, rfl⟩

theorem dimOf_axis {r : Nat} {a : Int} {k : Nat} (h : Onnx.axis r a = some k) : Burn.dimOf r a = some k := by
  unfold Onnx.axis at h
  split at h
  · rename_i hr
    simp only [Option.some.injEq] at h
    unfold Burn.dimOf
    split at h
    · rw [if_neg (by omega), if_pos (by omega)]; simp [h]
    · rw [if_pos (by omega), if_pos (by omega)]; simp [h]
  · cases h

theorem dimOf_axes {r : Nat} : ∀ {as : List Int} {is : List Nat}, Onnx.axes r as = some is →
    as.mapM (Burn.dimOf r) = some is
  | [], is, h => by simp [Onnx.axes] at h; simp [h]
  | a :: as, is, h => by
    simp only [Onnx.axes] at h
    split at h
    · rename_i i js hi hjs
      split at h
      · cases h
      · cases h
        simp [dimOf_axis hi, dimOf_axes hjs]
    · cases h

theorem prod_dropAtFrom {is : List Nat} : ∀ {s : List Nat} {k : Nat},
    (∀ i, k ≤ i → i ∈ is → i < k + s.length → s[i - k]? = some 1) → prodShape (Onnx.dropAtFrom k is s) = prodShape s
  | [], _, _ => rfl
  | d :: s, k, h => by
    have ih : prodShape (Onnx.dropAtFrom (k + 1) is s) = prodShape s := by
      refine prod_dropAtFrom fun i hk hi hl => ?_
      have := h i (by omega) hi (by simp; omega)
      rwa [show i - k = (i - (k + 1)) + 1 by omega, List.getElem?_cons_succ] at this
    simp only [Onnx.dropAtFrom]
    split
    · rename_i hk
      have := h k (Nat.le_refl k) hk (by simp)
      simp at this
      simp [prodShape, ih, this]
    · simp [prodShape, ih]

theorem prod_dropAt {is s : List Nat} (h : ∀ i ∈ is, s[i]? = some 1) : prodShape (Onnx.dropAt is s) = prodShape s :=
  prod_dropAtFrom fun i _ hi _ => by simpa using h i hi

theorem prod_filter : ∀ s : List Nat, prodShape (s.filter (· ≠ 1)) = prodShape s
  | [] => rfl
  | d :: s => by
    have ih := prod_filter s
    by_cases h : d = 1
    · subst h; simpa [prodShape] using ih
    · simp only [ne_eq, decide_not] at ih
      simp [h, prodShape, ih]

theorem prod_nil_of {s : List Nat} (h : prodShape s = 1) {t : Tensor α} (ht : t.shape = s) : ∃ x, t.data = [x] := by
  have := t.size
  rw [ht, h] at this
  exact List.length_eq_one_iff.1 this

/-- A scalar: the two ways to hand it over. -/
theorem hand_scalar {ofInt : Int → α} {u : Tensor α} (h : prodShape u.shape = 1) (d : DType) :
    (∃ z Z, (Burn.reshape u [1]).map GVal.dev = some z ∧ Reps ofInt (.scalarTensor d) z Z ∧ Viewed u Z []) ∧
    (∃ z Z, (Burn.intoScalar u).map GVal.native = some z ∧ Reps ofInt (.scalarNative d) z Z ∧ Viewed u Z []) := by
  obtain ⟨x, hx⟩ := prod_nil_of h rfl
  refine ⟨?_, ?_⟩
  · obtain ⟨w, hw, h1, h2⟩ := reshape_view (t := u) (s := [1]) (by rw [h]; rfl)
    refine ⟨.dev w, ⟨[], u.data, by simp [hx, prodShape]⟩, by rw [hw]; rfl, ⟨h1, rfl, h2⟩, rfl, rfl⟩
  · refine ⟨.native x, ⟨[], u.data, by simp [hx, prodShape]⟩, by simp [Burn.intoScalar, hx], ⟨rfl, hx⟩, rfl, rfl⟩

/-! ## Squeeze -/

/-- Squeeze with constant axes. -/
theorem C56_squeeze_axes {ofInt : Int → α} {as : List Int} {ty ot : ArgType} {v : GVal α} {X : Tensor α} {out : List Nat}
    (hx : Reps ofInt ty v X) (hne : as ≠ []) (ht : Infer.squeeze (some as) ty = some ot)
    (ho : Onnx.squeeze as X.shape = some out) :
    ∃ z Z, genSqueeze ofInt (.static as) ty ot v = some z ∧ Reps ofInt ot z Z ∧ Viewed X Z out := by
  unfold Onnx.squeeze at ho
  split at ho
  · rename_i is his
    split at ho
    · rename_i hones
      cases ho
      have hones' : ∀ i ∈ is, X.shape[i]? = some 1 := by simpa using hones
      have hlen := dropAt_length his
      have hp := prod_dropAt hones'
      cases ty with
      | tensor t =>
        cases v with
        | dev u =>
          obtain ⟨rfl, hr, h1⟩ := hx
          simp only [Infer.squeeze] at ht
          split at ht
          · cases ht
          · simp only [Option.some.injEq] at ht
            split at ht
            · rename_i hz
              subst ht
              have hnil : Onnx.dropAt is u.shape = [] := List.length_eq_zero_iff.1 (by omega)
              rw [hnil] at hp ⊢
              exact (hand_scalar (by rw [← hp]; rfl) _).1
            · subst ht
              obtain ⟨w, hw, hv⟩ := reshape_view hp
              refine ⟨.dev w, w, ?_, ⟨rfl, ?_, ?_⟩, hv⟩
              · cases as with
                | nil => exact absurd rfl hne
                | cons a as =>
                  simp only [genSqueeze, Burn.squeezeAxes, dimOf_axes his, Option.bind_some, Burn.squeezeDims]
                  have hal := axes_length his
                  simp only [List.length_cons] at hal hlen
                  rw [if_pos ⟨by simp_all; omega, hones', by simp; omega⟩, hw]; rfl
              · rw [hv.1]; simp; omega
              · simp; omega
        | native x => exact hx.elim
        | shape l => exact hx.elim
      | shape n =>
        cases v with
        | shape l =>
          obtain ⟨hl, hs, hd⟩ := hx
          rw [hs] at his hones' hlen ⊢
          simp only [List.length_singleton] at hlen his
          have hal : as.length = 1 := by
            cases as with
            | nil => exact absurd rfl hne
            | cons a as => simp only [List.length_cons] at hlen ⊢; omega
          have hil : is.length = 1 := by rw [axes_length his, hal]
          obtain ⟨i, rfl⟩ := List.length_eq_one_iff.1 hil
          have h0 : i = 0 := by have := (axes_nodup his).2 i (by simp); omega
          subst h0
          have h1 : n = 1 := by simpa using hones' 0 (by simp)
          subst h1
          simp only [Infer.squeeze] at ht
          split at ht
          · cases ht
          · simp at ht
            subst ht
            obtain ⟨a, rfl⟩ := List.length_eq_one_iff.1 hl
            refine ⟨.native (ofInt a), ⟨[], X.data, by simp [hd, prodShape]⟩, rfl, ⟨rfl, hd⟩, ?_, rfl⟩
            simp [Onnx.dropAt, Onnx.dropAtFrom]
        | native x => exact hx.elim
        | dev l => exact hx.elim
      | scalarTensor d =>
        exfalso
        cases v with
        | dev u =>
          rw [hx.2.1] at hlen
          simp only [List.length_nil] at hlen
          exact hne (List.length_eq_zero_iff.1 (by omega))
        | native x => exact hx.elim
        | shape l => exact hx.elim
      | scalarNative d =>
        exfalso
        cases v with
        | native x =>
          rw [hx.1] at hlen
          simp only [List.length_nil] at hlen
          exact hne (List.length_eq_zero_iff.1 (by omega))
        | dev x => exact hx.elim
        | shape l => exact hx.elim
    · cases ho
  · cases ho

theorem filter_describes : ∀ {p : PShape} {s dims : List Nat}, p.Describes s → allKnown p = some dims →
    (p.filter (· ≠ some 1)).length = (s.filter (· ≠ 1)).length
  | [], [], _, _, _ => rfl
  | [], _ :: _, _, h, _ => h.elim
  | _ :: _, [], _, h, _ => h.elim
  | none :: p, _ :: _, _, _, h => by simp [allKnown] at h
  | some d :: p, e :: s, dims, h, hk => by
    obtain ⟨h1, h2⟩ := h
    have h1 : d = e := by simpa using h1
    subst h1
    simp only [allKnown] at hk
    cases hk' : allKnown p with
    | none => simp [hk'] at hk
    | some ds =>
      have := filter_describes h2 hk'
      by_cases hd : d = 1
      · subst hd; simpa using this
      · simp only [ne_eq, decide_not] at this
        simp [hd, this]

/-- Squeeze without axes, the dimensions being known. -/
theorem C56_squeeze_all_partial {ofInt : Int → α} {ty ot : ArgType} {v : GVal α} {X : Tensor α}
    (hx : Reps ofInt ty v X) (hd : ty.Admits X.shape) (ht : Infer.squeeze none ty = some ot)
    (hk : ∀ t p, ty = .tensor t → t.staticShape = some p → ∃ dims, allKnown p = some dims) :
    ∃ z Z, genSqueeze ofInt .absent ty ot v = some z ∧ Reps ofInt ot z Z ∧ Viewed X Z (Onnx.squeezeAll X.shape) := by
  cases ty with
  | tensor t =>
    cases v with
    | dev u =>
      obtain ⟨rfl, hr, h1⟩ := hx
      simp only [Infer.squeeze] at ht
      cases hsh : t.staticShape with
      | none => simp [hsh] at ht
      | some p =>
        simp only [hsh, Option.some.injEq] at ht
        obtain ⟨dims, hdims⟩ := hk t p rfl hsh
        have hfl := filter_describes (hd.2 p hsh) hdims
        have hp := prod_filter u.shape
        split at ht
        · rename_i hz
          subst ht
          have hnil : Onnx.squeezeAll u.shape = [] := by
            unfold Onnx.squeezeAll
            exact List.length_eq_zero_iff.1 (by rw [← hfl]; exact hz)
          rw [hnil]
          have hp' : prodShape (Onnx.squeezeAll u.shape) = prodShape u.shape := hp
          exact (hand_scalar (by rw [← hp', hnil]; rfl) _).1
        · rename_i hz
          subst ht
          obtain ⟨w, hw, hv⟩ := reshape_view hp
          refine ⟨.dev w, w, ?_, ⟨rfl, ?_, ?_⟩, hv⟩
          · simp only [genSqueeze, Burn.squeezeOnes]
            rw [if_pos hfl.symm, hw]; rfl
          · rw [hv.1]; exact hfl.symm
          · exact Nat.one_le_iff_ne_zero.2 hz
    | native x => exact hx.elim
    | shape l => exact hx.elim
  | shape n =>
    cases v with
    | shape l =>
      have hx' := hx
      obtain ⟨hl, hs, hd⟩ := hx
      simp only [Infer.squeeze, Option.some.injEq] at ht
      split at ht
      · rename_i h1
        subst h1 ht
        obtain ⟨a, rfl⟩ := List.length_eq_one_iff.1 hl
        refine ⟨.native (ofInt a), ⟨[], X.data, by simp [hd, prodShape]⟩, rfl, ⟨rfl, hd⟩, ?_, rfl⟩
        rw [hs]; rfl
      · rename_i h1
        subst ht
        exact ⟨.shape l, X, rfl, hx', by rw [hs]; simp [Onnx.squeezeAll, h1], rfl⟩
    | native x => exact hx.elim
    | dev l => exact hx.elim
  | scalarTensor d =>
    cases v with
    | dev u =>
      obtain ⟨h1, h2, h3⟩ := hx
      simp only [Infer.squeeze, Option.some.injEq] at ht
      subst ht
      obtain ⟨-, z, Z, hz, hr, hv1, hv2⟩ := hand_scalar (ofInt := ofInt) (u := u) (by rw [h1]; rfl) d
      exact ⟨z, Z, hz, hr, by rw [hv1, h2]; rfl, by rw [hv2, h3]⟩
    | native x => exact hx.elim
    | shape l => exact hx.elim
  | scalarNative d =>
    cases v with
    | native x =>
      simp only [Infer.squeeze, Option.some.injEq] at ht
      subst ht
      refine ⟨.native x, X, rfl, hx, ?_, rfl⟩
      obtain ⟨h1, h2⟩ := hx
      rw [h1]; rfl
    | dev x => exact hx.elim
    | shape l => exact hx.elim

/-! ## Unsqueeze -/

theorem insertOnes_of {is : List Nat} : ∀ {out s : List Nat} {k : Nat}, Onnx.dropAtFrom k is out = s →
    (∀ i, k ≤ i → i ∈ is → i < k + out.length → out[i - k]? = some 1) →
    Burn.insertOnes is k out.length s = some out
  | [], s, k, h, _ => by simp [Onnx.dropAtFrom] at h; subst h; rfl
  | d :: out, s, k, h, hi => by
    have hi' : ∀ i, k + 1 ≤ i → i ∈ is → i < k + 1 + out.length → out[i - (k + 1)]? = some 1 := by
      intro i hk hm hl
      have := hi i (by omega) hm (by simp; omega)
      rwa [show i - k = (i - (k + 1)) + 1 by omega, List.getElem?_cons_succ] at this
    simp only [Onnx.dropAtFrom] at h
    simp only [List.length_cons, Burn.insertOnes]
    split at h
    · rename_i hk
      have h1 := hi k (Nat.le_refl k) hk (by simp)
      simp at h1
      rw [if_pos hk, insertOnes_of h hi', h1]; rfl
    · rename_i hk
      subst h
      rw [if_neg hk]
      simp only
      rw [insertOnes_of rfl hi']; rfl

/-- The scalars that Unsqueeze handles: one axis; a scalar on the device only as an integer, a native one not as a
boolean. -/
def UnsqueezeHandles (as : List Int) : ArgType → Prop
  | .tensor _ => (as.filter (· < 0)).length ≤ 1
  | .scalarTensor d => as.length = 1 ∧ Infer.isInt d = true
  | .scalarNative d => as.length = 1 ∧ d ≠ .bool
  | .shape _ => False

theorem unsqueeze_one {as : List Int} {out : List Nat} (h1 : as.length = 1) (ho : Onnx.Unsqueeze as [] out) : out = [1] := by
  obtain ⟨hl, is, his, hones, hdrop⟩ := ho
  rw [h1] at hl
  obtain ⟨d, rfl⟩ := List.length_eq_one_iff.1 (by simpa using hl)
  have hil : is.length = 1 := by rw [axes_length his, h1]
  obtain ⟨i, rfl⟩ := List.length_eq_one_iff.1 hil
  have h0 : i = 0 := by have := (axes_nodup his).2 i (by simp); simp at this; omega
  subst h0
  simpa using hones 0 (by simp)

/-- Unsqueeze with axes known when the code is generated or read from a tensor when it runs. -/
theorem C56_unsqueeze_partial {ofInt : Int → α} {toInt : α → Int} {as : List Int} {known : Bool} {axesTy : Option ArgType}
    {prev ty ot : ArgType} {v : GVal α} {X : Tensor α} {out : List Nat}
    (hx : Reps ofInt ty v X)
    (hax : ∀ t, axesTy = some t → t.Admits [as.length])
    (ht : Infer.unsqueeze (if known then some as else none) axesTy prev ty = some ot)
    (ho : Onnx.Unsqueeze as X.shape out) (hh : UnsqueezeHandles as ty)
    (hint : ∀ n, ot = .shape n → ∀ x ∈ X.data, ofInt (toInt x) = x) :
    ∃ z Z, genUnsqueeze toInt as ty ot v = some z ∧ Reps ofInt ot z Z ∧ Viewed X Z out := by
  have hrank : ∀ o, Infer.unsqueezeRank X.shape.length (if known then some as else none) axesTy = some o →
      o = X.shape.length + as.length := by
    intro o h
    cases known with
    | true => simp [Infer.unsqueezeRank] at h; omega
    | false =>
      simp only [Bool.false_eq_true, if_false, Infer.unsqueezeRank] at h
      split at h
      · rename_i t
        obtain ⟨k, hk, rfl⟩ := Option.map_eq_some_iff.1 h
        rw [Option.join_eq_some_iff, Option.bind_eq_some_iff] at hk
        obtain ⟨p, hp, hh⟩ := hk
        have hdesc := (hax _ rfl).2 p hp
        cases p with
        | nil => cases hh
        | cons e es =>
          simp at hh
          subst hh
          have := hdesc.1
          simp at this
          omega
      · cases h
  cases ty with
  | tensor t =>
    cases v with
    | dev u =>
      obtain ⟨rfl, hr, h1⟩ := hx
      obtain ⟨hl, is, his, hones, hdrop⟩ := ho
      simp only [Infer.unsqueeze, Option.bind_eq_some_iff] at ht
      obtain ⟨o, ho1, dt, -, ht⟩ := ht
      have hot : ∃ o', ot = .tensor o' ∧ o'.rank = o := by
        unfold Infer.unsqueezeTensor at ht
        split at ht
        · obtain ⟨q, -, rfl⟩ := Option.map_eq_some_iff.1 ht; exact ⟨_, rfl, rfl⟩
        · cases ht; exact ⟨_, rfl, rfl⟩
      obtain ⟨o', rfl, ho2⟩ := hot
      rw [← hr] at ho1
      have hp : prodShape out = prodShape u.shape := by
        rw [← hdrop]; exact (prod_dropAt hones).symm
      obtain ⟨w, hw, hv⟩ := reshape_view hp
      have hro : out.length = o'.rank := by rw [hl, ho2, hrank o ho1]
      refine ⟨.dev w, w, ?_, ⟨rfl, by rw [hv.1]; exact hro, by omega⟩, hv⟩
      simp only [genUnsqueeze, Burn.unsqueezeDims]
      rw [if_pos ⟨by omega, hh⟩, ← hro, dimOf_axes his]
      simp only [Option.bind_some]
      rw [insertOnes_of hdrop (fun i _ hi _ => by simpa using hones i hi)]
      simp [hw]
    | native x => exact hx.elim
    | shape l => exact hx.elim
  | shape n => exact hh.elim
  | scalarTensor d =>
    cases v with
    | dev u =>
      obtain ⟨h1, h2, h3⟩ := hx
      obtain ⟨ha, hd⟩ := hh
      rw [h2] at ho hrank
      have hout := unsqueeze_one ha ho
      subst hout
      simp only [Infer.unsqueeze, Option.bind_eq_some_iff] at ht
      obtain ⟨o, ho1, ht⟩ := ht
      have := hrank o ho1
      rw [ha] at this
      simp at this
      subst this
      simp only [Infer.unsqueezeScalar, if_true, hd] at ht
      cases ht
      obtain ⟨x, hxd⟩ := prod_nil_of (t := X) (by rw [h2]; rfl) rfl
      refine ⟨.shape [toInt x], ⟨[1], X.data, by simp [hxd, prodShape]⟩, ?_, ⟨rfl, rfl, ?_⟩, rfl, rfl⟩
      · simp [genUnsqueeze, Burn.intoScalar, h3, hxd]
      · simp [hxd, hint _ rfl x (by simp [hxd])]
    | native x => exact hx.elim
    | shape l => exact hx.elim
  | scalarNative d =>
    cases v with
    | native x =>
      obtain ⟨h2, h3⟩ := hx
      obtain ⟨ha, hd⟩ := hh
      rw [h2] at ho hrank
      have hout := unsqueeze_one ha ho
      subst hout
      simp only [Infer.unsqueeze, Option.bind_eq_some_iff] at ht
      obtain ⟨o, ho1, ht⟩ := ht
      have := hrank o ho1
      rw [ha] at this
      simp at this
      subst this
      simp only [Infer.unsqueezeScalar, if_true, Option.some.injEq] at ht
      split at ht
      · subst ht
        refine ⟨.shape [toInt x], ⟨[1], X.data, by simp [h3, prodShape]⟩, rfl, ⟨rfl, rfl, ?_⟩, rfl, rfl⟩
        simp [h3, hint _ rfl x (by simp [h3])]
      · subst ht
        refine ⟨.dev ⟨[1], [x], rfl⟩, ⟨[1], [x], rfl⟩, ?_, ⟨rfl, rfl, by simp⟩, rfl, h3.symm⟩
        simp [genUnsqueeze, hd, Burn.fromOne, Burn.unsqueeze, Burn.reshape, prodShape]
    | dev x => exact hx.elim
    | shape l => exact hx.elim

/-! ## Transpose -/

theorem isPerm_of {s perm out : List Nat} (ho : Onnx.transpose perm s = some out) :
    IsPerm s.length perm ∧ out = permShape s perm := by
  unfold Onnx.transpose at ho
  split at ho
  · rename_i hl
    obtain ⟨h1, h2⟩ := mapM_some_getElem? ho
    have hlt : ∀ a ∈ perm, a < s.length := by
      intro a ha
      obtain ⟨k, hk, rfl⟩ := List.getElem_of_mem ha
      obtain ⟨b, -, h3⟩ := h2 k perm[k] (List.getElem?_eq_getElem hk)
      exact (List.getElem?_eq_some_iff.1 h3).1
    have hsub : perm.Subperm (List.range s.length) :=
      hl.2.subperm fun a ha => List.mem_range.2 (hlt a ha)
    have hperm := hsub.perm_of_length_le (by simp [hl.1])
    refine ⟨⟨hl.2, fun a => by rw [hperm.mem_iff, List.mem_range]⟩, ?_⟩
    refine List.ext_getElem (by simp [permShape, h1]) fun k hk hk' => ?_
    have hkp : k < perm.length := by omega
    obtain ⟨b, h4, h3⟩ := h2 k perm[k] (List.getElem?_eq_getElem hkp)
    rw [List.getElem?_eq_getElem hk, Option.some.injEq] at h4
    simp [permShape, h3, h4]
  · cases ho

theorem perm_unpermute {n : Nat} {perm i : List Nat} (h : IsPerm n perm) (hl : i.length = n) :
    unpermute n perm (perm.map (i.getD · 0)) = i := by
  refine List.ext_getElem (by simp [unpermute, hl]) fun a ha ha' => ?_
  have hmem : a ∈ perm := (h.2 a).2 (by omega)
  have hk := List.idxOf_lt_length_iff.2 hmem
  simp [unpermute, hk, ha']

/-- Transpose: output dimension and output index at position `k` are those of the input at `perm[k]`. -/
theorem C56_transpose [Inhabited α] {ofInt : Int → α} {perm : List Nat} {given : Option (List Int)} {ty ot : ArgType}
    {v : GVal α} {X : Tensor α} {out : List Nat} (hx : Reps ofInt ty v X)
    (ht : Infer.transpose given ty = some ot)
    (hp : given.getD ((List.range X.shape.length).reverse.map Int.ofNat) = perm.map Int.ofNat)
    (ho : Onnx.transpose perm X.shape = some out) :
    ∃ z Z, genTranspose perm v = some z ∧ Reps ofInt ot z Z ∧ Z.shape = out ∧
      ∀ i, InRange X.shape i → Z.get (perm.map (i.getD · 0)) = X.get i := by
  obtain ⟨hperm, rfl⟩ := isPerm_of ho
  cases ty with
  | tensor t =>
    cases v with
    | dev u =>
      obtain ⟨rfl, hr, h1⟩ := hx
      have hot : ∃ o, ot = .tensor o ∧ o.rank = t.rank := by
        simp only [Infer.transpose] at ht
        split at ht
        · cases ht
        · split at ht
          · cases ht; exact ⟨_, rfl, rfl⟩
          · obtain ⟨q, -, rfl⟩ := Option.map_eq_some_iff.1 ht; exact ⟨_, rfl, rfl⟩
      obtain ⟨o, rfl, hor⟩ := hot
      have hpl : (permShape u.shape perm).length = u.shape.length := by simp [permShape, hperm.length]
      have hlen : (permShape u.shape perm).length = o.rank := by omega
      refine ⟨.dev (u.transpose perm), u.transpose perm, rfl, ⟨rfl, hlen, by omega⟩, rfl, fun i hi => ?_⟩
      have hin : InRange (permShape u.shape perm) (perm.map (i.getD · 0)) := by
        rw [inRange_iff_get] at hi ⊢
        refine ⟨by simp [permShape], fun k hk => ?_⟩
        have hk' : k < perm.length := by simpa [permShape] using hk
        have := hi.2 perm[k] ((hperm.2 _).1 (List.getElem_mem hk'))
        simpa [permShape, hk'] using this
      rw [Tensor.transpose, Tensor.get_ofFn hin, perm_unpermute hperm hi.length]
    | native x => exact hx.elim
    | shape l => exact hx.elim
  | shape n => simp [Infer.transpose] at ht
  | scalarTensor d => simp [Infer.transpose] at ht
  | scalarNative d => simp [Infer.transpose] at ht

/-! ## Reshape -/

theorem reshapeEntries_of {s : List Nat} : ∀ {target : List Int} {out : List Nat} {k : Nat},
    Onnx.ReshapeDims false s k target out → ∃ es, Burn.reshapeEntries s k target = some es ∧
      (target.count (-1) = 0 → (∀ q, es.map (·.getD q) = out) ∧ prodShape out = Burn.knownPart es) ∧
      (target.count (-1) = 1 → ∃ d, es.map (·.getD d) = out ∧ prodShape out = d * Burn.knownPart es) ∧
      ((∀ (i : Nat), out[i]? = some 0 → target[i]? = some (-1)) → Burn.knownPart es ≠ 0)
  | [], [], k, _ => ⟨[], rfl, by simp [prodShape, Burn.knownPart], by simp, by simp [Burn.knownPart]⟩
  | [], _ :: _, _, h => h.elim
  | _ :: _, [], _, h => h.elim
  | v :: vs, d :: ds, k, h => by
    obtain ⟨h1, h2⟩ := h
    obtain ⟨es, he, ha, hb, hc⟩ := reshapeEntries_of h2
    have hc' : (∀ (i : Nat), (d :: ds)[i]? = some 0 → (v :: vs)[i]? = some (-1)) → Burn.knownPart es ≠ 0 := fun hz =>
      hc fun i hi => by simpa using hz (i + 1) (by simpa using hi)
    simp only [Burn.reshapeEntries, he, Option.map_some]
    -- the entry is known
    have known : v ≠ -1 → ∃ es', some (some d :: es) = some es' ∧
        ((v :: vs).count (-1) = 0 → (∀ q, es'.map (·.getD q) = d :: ds) ∧ prodShape (d :: ds) = Burn.knownPart es') ∧
        ((v :: vs).count (-1) = 1 → ∃ e, es'.map (·.getD e) = d :: ds ∧ prodShape (d :: ds) = e * Burn.knownPart es') ∧
        ((∀ (i : Nat), (d :: ds)[i]? = some 0 → (v :: vs)[i]? = some (-1)) → Burn.knownPart es' ≠ 0) := by
      intro hv
      refine ⟨_, rfl, fun h0 => ?_, fun h1 => ?_, fun hz => ?_⟩
      · rw [List.count_cons_of_ne hv] at h0
        obtain ⟨h3, h4⟩ := ha h0
        exact ⟨fun q => by simp [h3 q], by simp [prodShape, Burn.knownPart, h4]⟩
      · rw [List.count_cons_of_ne hv] at h1
        obtain ⟨e, h3, h4⟩ := hb h1
        exact ⟨e, by simp [h3], by simp [prodShape, Burn.knownPart, h4, Nat.mul_left_comm]⟩
      · have hd : d ≠ 0 := by
          intro hd
          have := hz 0 (by simp [hd])
          simp at this
          exact hv this
        simp only [Burn.knownPart]
        exact Nat.mul_ne_zero hd (hc' hz)
    rcases h1 with rfl | ⟨rfl, -, hs⟩ | ⟨rfl, hz⟩
    · refine ⟨none :: es, by rw [if_pos rfl], fun h0 => ?_, fun h1 => ?_, fun hz => hc' hz⟩
      · simp at h0
      · have h1 : vs.count (-1) = 0 := by simpa using h1
        obtain ⟨h3, h4⟩ := ha h1
        exact ⟨d, by simp [h3 d], by simp [prodShape, Burn.knownPart, h4]⟩
    · rw [if_neg (by decide), if_neg (by decide), if_pos rfl, hs]
      exact known (by decide)
    · have hd : (d : Int) ≠ 0 := fun h => by simpa using hz h
      rw [if_neg (by omega), if_neg (by omega), if_neg hd]
      exact known (by omega)

/-- Burn's reading of the target agrees with ONNX, when no dimension next to a −1 is 0. -/
theorem reshapeSigned_view {t : Tensor α} {target : List Int} {out : List Nat}
    (ho : Onnx.Reshape false target t.shape out)
    (hz : -1 ∈ target → ∀ (i : Nat), out[i]? = some 0 → target[i]? = some (-1)) :
    ∃ u, Burn.reshapeSigned t target = some u ∧ Viewed t u out := by
  obtain ⟨h1, h2, h3⟩ := ho
  obtain ⟨es, he, ha, hb, hc⟩ := reshapeEntries_of h2
  obtain ⟨u, hu, hv⟩ := reshape_view h3
  refine ⟨u, ?_, hv⟩
  simp only [Burn.reshapeSigned, he, Option.bind_some]
  rw [if_neg (by omega)]
  split
  · rename_i hm
    have hk := hc (hz hm)
    have h1' : target.count (-1) = 1 := by
      have := List.count_pos_iff.2 hm
      omega
    obtain ⟨d, h4, h5⟩ := hb h1'
    rw [if_neg hk, ← h3, h5, Nat.mul_div_cancel _ (Nat.pos_of_ne_zero hk), h4, hu]
  · rename_i hm
    rw [(ha (List.count_eq_zero.2 hm)).1 0, hu]

theorem reshape_no_zero {s : List Nat} : ∀ {target : List Int} {out : List Nat} {k : Nat}, 0 ∉ target →
    Onnx.ReshapeDims true s k target out → Onnx.ReshapeDims false s k target out
  | [], [], _, _, _ => trivial
  | [], _ :: _, _, _, h => h.elim
  | _ :: _, [], _, _, h => h.elim
  | v :: vs, d :: ds, k, h0, ⟨h1, h2⟩ => by
    refine ⟨?_, reshape_no_zero (fun h => h0 (List.mem_cons_of_mem _ h)) h2⟩
    have hv : v ≠ 0 := fun h => h0 (by simp [h])
    rcases h1 with h | ⟨h, -⟩ | ⟨h, -⟩
    · exact Or.inl h
    · exact absurd h hv
    · exact Or.inr (Or.inr ⟨h, fun h => absurd h hv⟩)

theorem reshape_scalar_dims : ∀ {target : List Int} {out : List Nat} {k : Nat},
    Onnx.ReshapeDims false [] k target out → Onnx.ReshapeDims false [1] k target out
  | [], [], _, _ => trivial
  | [], _ :: _, _, h => h.elim
  | _ :: _, [], _, h => h.elim
  | v :: vs, d :: ds, k, ⟨h1, h2⟩ => by
    refine ⟨?_, reshape_scalar_dims h2⟩
    rcases h1 with h | ⟨h, -, h'⟩ | h
    · exact Or.inl h
    · simp at h'
    · exact Or.inr (Or.inr h)

/-- The inputs that Reshape with a constant target handles. -/
def ReshapeHandles (target : List Int) : ArgType → Prop
  | .tensor t => target = [] → reshapeScalarOk t.dtype = true
  | .scalarTensor _ => True
  | .scalarNative _ => target = []
  | .shape _ => target ≠ [0]

/-- The targets that Burn reads as ONNX does: no 0 under `allowzero`, and no dimension 0 next to a −1. -/
def ReshapeReads (az : Bool) (target : List Int) (out : List Nat) : Prop :=
  (az = true → 0 ∉ target) ∧ (-1 ∈ target → ∀ (i : Nat), out[i]? = some 0 → target[i]? = some (-1))

theorem reshape_signed {az : Bool} {target : List Int} {s out : List Nat} (ho : Onnx.Reshape az target s out)
    (hr : ReshapeReads az target out) : Onnx.Reshape false target s out := by
  cases az with
  | false => exact ho
  | true => exact ⟨ho.1, reshape_no_zero (hr.1 rfl) ho.2.1, ho.2.2⟩

/-- Reshape with a constant target. -/
theorem C56_reshape_partial {ofInt : Int → α} {az : Bool} {target : List Int} {shapeTy : Option ArgType}
    {prev ty ot : ArgType} {v : GVal α} {X : Tensor α} {out : List Nat} (hx : Reps ofInt ty v X)
    (ht : Infer.reshape az (some target) shapeTy prev ty = some ot) (ho : Onnx.Reshape az target X.shape out)
    (hh : ReshapeHandles target ty) (hr : ReshapeReads az target out) :
    ∃ z Z, genReshape ofInt target ty ot v = some z ∧ Reps ofInt ot z Z ∧ Viewed X Z out := by
  have ho' := reshape_signed ho hr
  have hlen := reshapeDims_length ho.2.1
  simp only [Infer.reshape, Infer.reshapeRank, Option.map_some] at ht
  split at ht
  · cases ht
  split at ht
  · cases ht
  simp only [Option.some.injEq, Infer.reshapeOut] at ht
  cases ty with
  | tensor t =>
    cases v with
    | dev u =>
      obtain ⟨rfl, hrk, h1⟩ := hx
      split at ht
      · rename_i h0
        subst ht
        have ht0 : target = [] := List.length_eq_zero_iff.1 h0
        have hout : out = [] := List.length_eq_zero_iff.1 (by omega)
        subst hout
        obtain ⟨-, z, Z, hz, hr, hv⟩ := hand_scalar (ofInt := ofInt) (u := u) (by rw [← ho.2.2]; rfl) t.dtype
        refine ⟨z, Z, ?_, hr, hv⟩
        have hok : reshapeScalarOk (Infer.reshapeElem (.tensor t)) = true := hh ht0
        simp only [genReshape, hok, if_true]; exact hz
      · simp only at ht
        subst ht
        obtain ⟨w, hw, hv⟩ := reshapeSigned_view ho' hr.2
        refine ⟨.dev w, w, ?_, ⟨rfl, by rw [hv.1]; omega, by simp; omega⟩, hv⟩
        simp only [genReshape, hw]; rfl
    | native x => exact hx.elim
    | shape l => exact hx.elim
  | scalarTensor d =>
    cases v with
    | dev u =>
      obtain ⟨h1, h2, h3⟩ := hx
      rw [h2] at ho' ho
      split at ht
      · rename_i h0
        subst ht
        have hout : out = [] := List.length_eq_zero_iff.1 (by omega)
        subst hout
        obtain ⟨-, z, Z, hz, hr, hv1, hv2⟩ := hand_scalar (ofInt := ofInt) (u := u) (by rw [h1]; rfl) d
        exact ⟨z, Z, hz, hr, hv1, by rw [hv2, h3]⟩
      · simp only at ht
        subst ht
        obtain ⟨w, hw, hv⟩ := reshapeSigned_view (t := u) (target := target) (out := out)
          (by rw [h1]; exact ⟨ho'.1, reshape_scalar_dims ho'.2.1, by rw [ho'.2.2]; rfl⟩) hr.2
        refine ⟨.dev w, w, ?_, ⟨rfl, by rw [hv.1]; omega, by simp; omega⟩, hv.1, by rw [hv.2, h3]⟩
        simp only [genReshape, hw]; rfl
    | native x => exact hx.elim
    | shape l => exact hx.elim
  | scalarNative d =>
    cases v with
    | native x =>
      have ht0 : target = [] := hh
      subst ht0
      simp at ht
      subst ht
      have hout : out = [] := List.length_eq_zero_iff.1 (by simpa using hlen)
      subst hout
      exact ⟨.native x, X, rfl, hx, hx.1, rfl⟩
    | dev x => exact hx.elim
    | shape l => exact hx.elim
  | shape n =>
    cases v with
    | shape l =>
      have hx' := hx
      obtain ⟨hl, hs, hd⟩ := hx
      have hpn : prodShape out = n := by rw [ho.2.2, hs]; simp [prodShape]
      split at ht
      · rename_i h0
        subst ht
        have hout : out = [] := List.length_eq_zero_iff.1 (by omega)
        subst hout
        have h1 : n = 1 := by rw [← hpn]; rfl
        subst h1
        obtain ⟨a, rfl⟩ := List.length_eq_one_iff.1 hl
        exact ⟨.native (ofInt a), ⟨[], X.data, by simp [hd, prodShape]⟩, rfl, ⟨rfl, hd⟩, rfl, rfl⟩
      · simp only at ht
        split at ht
        · rename_i h1
          obtain ⟨w, rfl⟩ := List.length_eq_one_iff.1 h1
          obtain ⟨e, rfl⟩ := List.length_eq_one_iff.1 (by simpa using hlen : out.length = 1)
          have hen : e = n := by simpa [prodShape] using hpn
          subst hen
          have hsz : Infer.reshapeShapeSize e (some [w]) (Infer.reshapeStaticOut az (some [w]) prev (.shape e)) = e := by
            have h4 := ho'.2.1
            rw [hs] at h4
            simp only [Infer.reshapeShapeSize]
            have hw0 : w ≠ 0 := fun h => hh (by simp [h])
            rcases h4.1 with h | ⟨h, -⟩ | ⟨h, -⟩
            · rw [if_pos h]
            · exact absurd h hw0
            · subst h
              rw [if_neg (by omega), if_pos (by omega)]; simp
          rw [hsz] at ht
          subst ht
          refine ⟨.shape l, X, by simp [genReshape], hx', hs, rfl⟩
        · subst ht
          have hsh : (Burn.ofShape ofInt l).shape = X.shape := by rw [hs, ← hl]; rfl
          obtain ⟨w, hw, hv⟩ := reshapeSigned_view (t := Burn.ofShape ofInt l) (by rw [hsh]; exact ho') hr.2
          refine ⟨.dev w, w, ?_, ⟨rfl, by rw [hv.1]; omega, by simp; omega⟩, hv.1, ?_⟩
          · simp only [genReshape, hw]; rfl
          · rw [hv.2, hd]; rfl
    | native x => exact hx.elim
    | dev l => exact hx.elim

/-- Reshape with a target known when the code runs, of a value on the device into a tensor. The entries of a tensor must
be the dimensions themselves. -/
theorem C56_reshape_runtime_partial {ofInt : Int → α} {az : Bool} {target : List Int} {shapeTy ty : ArgType} {o : TensorType}
    {v : GVal α} {X : Tensor α} {out : List Nat} (hx : Reps ofInt ty v X)
    (hdev : (∃ t, ty = .tensor t) ∨ (∃ d, ty = .scalarTensor d)) (hro : out.length = o.rank) (hne : 1 ≤ o.rank)
    (ho : Onnx.Reshape az target X.shape out)
    (hs : (∃ n, shapeTy = .shape n ∧ ReshapeReads az target out) ∨
      (∃ t, shapeTy = .tensor t ∧ target = out.map Int.ofNat ∧ ∀ d ∈ out, d < 2 ^ 63)) :
    ∃ z Z, genReshapeRuntime target shapeTy (.tensor o) v = some z ∧ Reps ofInt (.tensor o) z Z ∧ Viewed X Z out := by
  have hu : ∃ u, v = .dev u ∧ u.data = X.data ∧ prodShape u.shape = prodShape X.shape ∧
      (Onnx.Reshape false target X.shape out → Onnx.Reshape false target u.shape out) := by
    rcases hdev with ⟨t, rfl⟩ | ⟨d, rfl⟩
    · cases v with
      | dev u => obtain ⟨rfl, -⟩ := hx; exact ⟨u, rfl, rfl, rfl, id⟩
      | native x => exact hx.elim
      | shape l => exact hx.elim
    · cases v with
      | dev u =>
        obtain ⟨h1, h2, h3⟩ := hx
        refine ⟨u, rfl, h3, by rw [h1, h2]; rfl, fun h => ?_⟩
        rw [h2] at h
        rw [h1]
        exact ⟨h.1, reshape_scalar_dims h.2.1, by rw [h.2.2]; rfl⟩
      | native x => exact hx.elim
      | shape l => exact hx.elim
  obtain ⟨u, rfl, hd, hp, himp⟩ := hu
  rcases hs with ⟨n, rfl, hr⟩ | ⟨t, rfl, rfl, hb⟩
  · obtain ⟨w, hw, hv⟩ := reshapeSigned_view (himp (reshape_signed ho hr)) hr.2
    exact ⟨.dev w, w, by simp [genReshapeRuntime, hw], ⟨rfl, by rw [hv.1]; exact hro, hne⟩, hv.1, by rw [hv.2, hd]⟩
  · obtain ⟨w, hw, hv⟩ := reshape_view (t := u) (s := out) (by rw [ho.2.2, hp])
    refine ⟨.dev w, w, ?_, ⟨rfl, by rw [hv.1]; exact hro, hne⟩, hv.1, by rw [hv.2, hd]⟩
    have hm : (List.take o.rank (List.map Int.ofNat out)).map asUsize64 = out := by
      rw [List.take_of_length_le (by simp; omega), List.map_map]
      conv => rhs; rw [← List.map_id out]
      refine List.map_congr_left fun d hd => ?_
      have := hb d hd
      have h1 : ((d : Int) % 2 ^ 64).toNat = d := by
        rw [Int.emod_eq_of_lt (by omega) (by omega)]; simp
      exact h1
    simp only [genReshapeRuntime, List.length_map]
    rw [if_neg (by omega), hm, hw]; rfl

/-! ## Flatten -/

theorem asI32_eq {n : Nat} (h : n < 2 ^ 31) : asI32 n = n := by
  unfold asI32
  rw [Nat.mod_eq_of_lt (by omega), if_pos h]

/-- Flatten, when the dimensions before the axis are not 0 and their product fits an `i32`. -/
theorem C56_flatten_partial {ofInt : Int → α} {a : Option Int} {ty ot : ArgType} {v : GVal α} {X : Tensor α}
    {out : List Nat} {k : Nat} (hx : Reps ofInt ty v X) (ht : Infer.flatten a ty = some ot)
    (hk : Infer.normAxis X.shape.length (a.getD 1) = k) (ho : Onnx.flatten (a.getD 1) X.shape = some out)
    (hpos : 0 ∉ X.shape.take k) (hfit : prodShape (X.shape.take k) < 2 ^ 31) :
    ∃ z Z, genFlatten k v = some z ∧ Reps ofInt ot z Z ∧ Viewed X Z out := by
  cases ty with
  | tensor t =>
    cases v with
    | dev u =>
      obtain ⟨rfl, hr, h1⟩ := hx
      have hot : ∃ o, ot = .tensor o ∧ o.rank = 2 := by
        simp only [Infer.flatten] at ht
        split at ht
        · cases ht
        · split at ht
          · cases ht; exact ⟨_, rfl, rfl⟩
          · split at ht
            · cases ht
            · cases ht; exact ⟨_, rfl, rfl⟩
      obtain ⟨o, rfl, ho2⟩ := hot
      unfold Onnx.flatten at ho
      split at ho
      · rename_i hrange
        have hkk : (if a.getD 1 < 0 then a.getD 1 + u.shape.length else a.getD 1).toNat = k := by
          unfold Infer.normAxis at hk
          split at hk <;> split <;> omega
        simp only [hkk, Option.some.injEq] at ho
        have hkl : k ≤ u.shape.length := by
          split at hkk <;> omega
        have hpp : prodShape (u.shape.take k) * prodShape (u.shape.drop k) = prodShape u.shape := by
          rw [← prodShape_append, List.take_append_drop]
        have hp0 : prodShape (u.shape.take k) ≠ 0 := by
          intro h
          have : ∀ l : List Nat, prodShape l = 0 → 0 ∈ l := by
            intro l
            induction l with
            | nil => simp [prodShape]
            | cons d l ih =>
              intro h
              rcases Nat.mul_eq_zero.1 h with h | h
              · simp [h]
              · simp [ih h]
          exact hpos (this _ h)
        have hview : ∃ w, Burn.reshapeSigned u [(prodShape (u.shape.take k) : Int), -1] = some w ∧ Viewed u w out := by
          subst ho
          refine reshapeSigned_view ⟨?_, ⟨Or.inr (Or.inr ⟨rfl, fun h => absurd h (by omega)⟩), Or.inl rfl, trivial⟩,
            ?_⟩ ?_
          · rw [List.count_cons_of_ne (by omega)]; decide
          · simp [prodShape, hpp]
          · intro _ i hi
            match i with
            | 0 => simp at hi; omega
            | 1 => rfl
            | i + 2 => simp at hi
        obtain ⟨w, hw, hv⟩ := hview
        refine ⟨.dev w, w, ?_, ⟨rfl, ?_, by omega⟩, hv⟩
        · simp only [genFlatten]
          split
          · rename_i h0
            subst h0
            have : ((prodShape (u.shape.take 0) : Nat) : Int) = 1 := rfl
            rw [this] at hw
            simp [hw]
          · rw [if_neg (by omega), asI32_eq hfit, hw]; rfl
        · rw [hv.1, ho2, ← ho]; rfl
      · cases ho
    | native x => exact hx.elim
    | shape l => exact hx.elim
  | shape n => simp [Infer.flatten] at ht
  | scalarTensor d => simp [Infer.flatten] at ht
  | scalarNative d => simp [Infer.flatten] at ht

/-! ## Expand -/

/-- A 1 in the target gives way to the input's dimension. -/
def expandDim (t : Int) (d : Nat) : Int := if t = 1 ∧ 1 < d then d else t

theorem expandLoop_eq (offset : Nat) : ∀ (dims : List Nat) (i : Nat) (front back : List Int),
    front.length = offset + i → back.length = dims.length →
      expandLoop offset dims i (front ++ back) = front ++ List.zipWith expandDim back dims
  | [], i, front, back, _, hb => by
    have : back = [] := List.length_eq_zero_iff.1 hb
    subst this
    simp [expandLoop]
  | d :: ds, i, front, [], _, hb => by simp at hb
  | d :: ds, i, front, b :: bs, hf, hb => by
    have hstep : (if (front ++ b :: bs).getD (offset + i) 0 = 1 ∧ 1 < d then (front ++ b :: bs).set (offset + i) d
        else front ++ b :: bs) = (front ++ [expandDim b d]) ++ bs := by
      rw [← hf]
      simp only [List.getD_eq_getElem?_getD, List.getElem?_append_right (Nat.le_refl _), Nat.sub_self,
        List.getElem?_cons_zero, Option.getD_some, expandDim]
      split
      · simp
      · simp
    rw [expandLoop, hstep, expandLoop_eq offset ds (i + 1) (front ++ [expandDim b d]) bs (by simp; omega) (by simpa using hb)]
    simp

theorem expandDim_zip : ∀ {a s q : List Nat}, 0 ∉ s → zipDims a s = some q →
    List.zipWith expandDim (a.map Int.ofNat) s = q.map Int.ofNat ∧ zipDims q s = some q
  | [], [], q, _, h => by simp [zipDims] at h; subst h; exact ⟨rfl, rfl⟩
  | [], _ :: _, _, _, h => by simp [zipDims] at h
  | _ :: _, [], _, _, h => by simp [zipDims] at h
  | x :: a, y :: s, q, h0, h => by
    simp only [zipDims] at h
    split at h
    · rename_i z zs hz hzs
      cases h
      have hy : y ≠ 0 := fun h => h0 (by simp [h])
      obtain ⟨h1, h2⟩ := expandDim_zip (fun h => h0 (List.mem_cons_of_mem _ h)) hzs
      have hz' : expandDim x y = z ∧ (if z = y then some z else if z = 1 then some y else if y = 1 then some z else none) = some z := by
        unfold expandDim
        split at hz
        · rename_i hxy
          cases hz
          subst hxy
          refine ⟨?_, by simp⟩
          split <;> omega
        · split at hz
          · rename_i hx1
            cases hz
            subst hx1
            refine ⟨?_, by simp⟩
            split <;> omega
          · split at hz
            · rename_i hx1 hy1
              cases hz
              subst hy1
              refine ⟨?_, by simp [hx1]⟩
              split <;> omega
            · cases hz
      refine ⟨?_, ?_⟩
      · simp only [List.map_cons, List.zipWith_cons_cons, h1]
        rw [show expandDim (Int.ofNat x) y = Int.ofNat z from hz'.1]
      · simp only [zipDims, h2]
        rw [hz'.2]
    · cases h

/-- Expand: the output has the broadcast shape, and every element is the input's at the index that broadcasting reads.
`target` is the constant target or the one found when the code runs. -/
theorem C56_expand_partial [Inhabited α] {ofInt : Int → α} {target : List Nat} {ty : ArgType} {o : TensorType} {v : GVal α}
    {X : Tensor α} {out : List Nat} (hx : Reps ofInt ty v X) (hn : ∀ d, ty ≠ .scalarTensor d) (hne : target ≠ [])
    (hrank : o.rank = target.length) (hlen : X.shape.length ≤ target.length) (hpos : 0 ∉ X.shape)
    (hsh : ∀ n, ty ≠ .shape n) (ho : Onnx.expand X.shape target = some out) :
    ∃ z Z, genExpand (target.map Int.ofNat) ty (.tensor o) v = some z ∧ Reps ofInt (.tensor o) z Z ∧ Z.shape = out ∧
      ∀ i, InRange out i → Z.get i = X.get (proj X.shape i) := by
  have hnn : ∀ l : List Nat, (l.map Int.ofNat).any (· < 0) = false := by
    intro l; rw [List.any_eq_false]; intro x hx; obtain ⟨d, -, rfl⟩ := List.mem_map.1 hx; simp
  have htn : ∀ l : List Nat, (l.map Int.ofNat).map Int.toNat = l := by
    intro l; rw [List.map_map]; conv => rhs; rw [← List.map_id l]
    exact List.map_congr_left fun d _ => by simp
  have ho' : bcast X.shape target = some out := ho
  have holen := bcast_length ho'
  have htl : 1 ≤ target.length := by
    cases target with
    | nil => exact absurd rfl hne
    | cons a l => simp
  cases ty with
  | tensor t =>
    cases v with
    | dev u =>
      obtain ⟨rfl, hr, h1⟩ := hx
      have hsplit := List.take_append_drop (target.length - u.shape.length) target
      have hal : (target.drop (target.length - u.shape.length)).length = u.shape.length := by simp; omega
      rw [bcast_comm, ← hsplit, bcast_zip hal] at ho'
      obtain ⟨q, hq, rfl⟩ := Option.map_eq_some_iff.1 ho'
      obtain ⟨h2, h3⟩ := expandDim_zip hpos hq
      have hloop : expandLoop (o.rank - t.rank) u.shape 0 (target.map Int.ofNat) =
          (target.take (target.length - u.shape.length) ++ q).map Int.ofNat := by
        conv => lhs; rw [← hsplit]
        rw [List.map_append, expandLoop_eq _ _ _ _ _ (by simp; omega) (by simpa using hal), h2, List.map_append]
      have hb : bcast u.shape (target.take (target.length - u.shape.length) ++ q) =
          some (target.take (target.length - u.shape.length) ++ q) := by
        rw [bcast_comm, bcast_zip (zipDims_length h3).2, h3]; rfl
      refine ⟨.dev (Tensor.ofFn (target.take (target.length - u.shape.length) ++ q) fun i => u.get (proj u.shape i)),
        Tensor.ofFn (target.take (target.length - u.shape.length) ++ q) fun i => u.get (proj u.shape i),
        ?_, ⟨rfl, ?_, ?_⟩, ?_, ?_⟩
      · have hc : ¬ ((target.map Int.ofNat).length ≠ (ArgType.tensor o).rank ∨ (ArgType.tensor o).rank < t.rank) := by
          rw [List.length_map]
          show ¬ (_ ≠ o.rank ∨ o.rank < _)
          omega
        simp only [genExpand]
        rw [if_neg hc]
        have hloop' : expandLoop ((ArgType.tensor o).rank - t.rank) u.shape 0 (target.map Int.ofNat) =
            (target.take (target.length - u.shape.length) ++ q).map Int.ofNat := hloop
        rw [hloop', hnn, htn]
        simp [Burn.expand, hb]
      · rw [show ∀ (a : List Nat) (f : List Nat → α), (Tensor.ofFn a f).shape = a from fun _ _ => rfl]
        omega
      · omega
      · rfl
      · intro i hi
        rw [Tensor.get_ofFn hi]
    | native x => exact hx.elim
    | shape l => exact hx.elim
  | shape n => exact absurd rfl (hsh n)
  | scalarTensor d => exact absurd rfl (hn d)
  | scalarNative d =>
    cases v with
    | native x =>
      obtain ⟨h1, h2⟩ := hx
      rw [h1, bcast_nil_left, Option.some.injEq] at ho'
      subst ho'
      have hb : bcast [1] target = some target := by
        obtain ⟨front, l, hfl⟩ : ∃ front l, target = front ++ [l] := ⟨target.dropLast, target.getLast hne, (List.dropLast_append_getLast hne).symm⟩
        rw [hfl, bcast_comm, bcast_zip (show [l].length = [1].length from rfl)]
        by_cases h : l = 1 <;> simp [zipDims, h]
      refine ⟨.dev (Tensor.ofFn target fun i => (⟨[1], [x], rfl⟩ : Tensor α).get (proj [1] i)), _, ?_, ⟨rfl, hrank.symm, by omega⟩,
        rfl, ?_⟩
      · simp only [genExpand]
        rw [hnn, htn]
        simp [Burn.expand, hb]
      · intro i hi
        rw [Tensor.get_ofFn hi, get_scalar h1 h2]
        have hl := hi.length
        have : flatIdx [1] (proj [1] i) = 0 := by
          unfold proj
          cases hr : i.reverse with
          | nil => simp at hr; subst hr; simp at hl; omega
          | cons j js => simp [projRev, flatIdx]
        simp [Tensor.get, this]
    | dev x => exact hx.elim
    | shape l => exact hx.elim

/-! ## Cases that meet the hypotheses -/

/-- A tensor of integers with elements `0, 1, …`. -/
def iotaT (s : List Nat) : Tensor Int := ⟨s, (List.range (prodShape s)).map Int.ofNat, by simp⟩

theorem reps_tensor {d : DType} {s : List Nat} {p : Option PShape} (h : s ≠ []) :
    Reps id (.tensor ⟨d, s.length, p⟩) (.dev (iotaT s)) (iotaT s) :=
  ⟨rfl, rfl, List.length_pos_iff.2 h⟩

/-- Squeeze, Unsqueeze, Reshape, Flatten. -/
example :
    (∃ z Z, genSqueeze id (.static [0, -1]) (.tensor ⟨.i64, 3, none⟩) (.tensor ⟨.i64, 1, some [none]⟩) (.dev (iotaT [1, 3, 1])) = some z ∧
      Reps id (.tensor ⟨.i64, 1, some [none]⟩) z Z ∧ Viewed (iotaT [1, 3, 1]) Z [3]) ∧
    (∃ z Z, genSqueeze id (.static [0]) (.tensor ⟨.i64, 1, none⟩) (.scalarTensor .i64) (.dev (iotaT [1])) = some z ∧
      Reps id (.scalarTensor .i64) z Z ∧ Viewed (iotaT [1]) Z []) :=
  ⟨C56_squeeze_axes (reps_tensor (by simp)) (by simp) (by decide) (by decide),
    C56_squeeze_axes (reps_tensor (by simp)) (by simp) (by decide) (by decide)⟩

example : ∃ z Z, genUnsqueeze id [0, -1] (.tensor ⟨.i64, 2, none⟩) (.tensor ⟨.i64, 4, some [some 1, none, none, some 1]⟩)
      (.dev (iotaT [3, 4])) = some z ∧
    Reps id (.tensor ⟨.i64, 4, some [some 1, none, none, some 1]⟩) z Z ∧ Viewed (iotaT [3, 4]) Z [1, 3, 4, 1] :=
  C56_unsqueeze_partial (known := true) (axesTy := none) (prev := .tensor ⟨.i64, 4, none⟩) (reps_tensor (by simp))
    (by simp) (by decide) ⟨by decide, [0, 3], by decide, by decide, by decide⟩
    (by simp [UnsqueezeHandles]) (by simp)

example : ∃ z Z, genReshape id [2, 0, -1] (.tensor ⟨.i64, 3, none⟩) (.tensor ⟨.i64, 3, some [some 2, none, none]⟩)
      (.dev (iotaT [6, 3, 4])) = some z ∧
    Reps id (.tensor ⟨.i64, 3, some [some 2, none, none]⟩) z Z ∧ Viewed (iotaT [6, 3, 4]) Z [2, 3, 12] :=
  C56_reshape_partial (az := false) (shapeTy := none) (prev := .scalarNative .i64) (reps_tensor (by simp)) (by decide)
    ⟨by decide, by simp [Onnx.ReshapeDims, iotaT], by decide⟩ (by simp [ReshapeHandles])
    ⟨by simp, fun _ i hi => by
      match i with
      | 0 => simp at hi
      | 1 => simp at hi
      | 2 => simp at hi
      | i + 3 => simp at hi⟩

example : ∃ z Z, genTranspose [2, 0, 1] (.dev (iotaT [5, 6, 7])) = some z ∧
    Reps id (.tensor ⟨.i64, 3, none⟩) z Z ∧ Z.shape = [7, 5, 6] ∧
      ∀ i, InRange [5, 6, 7] i → Z.get ([2, 0, 1].map (i.getD · 0)) = (iotaT [5, 6, 7]).get i :=
  C56_transpose (perm := [2, 0, 1]) (X := iotaT [5, 6, 7]) (ot := .tensor ⟨.i64, 3, none⟩) (out := [7, 5, 6])
    (given := some [2, 0, 1]) (ty := .tensor ⟨.i64, 3, none⟩) (reps_tensor (by simp))
    (by decide) rfl (by decide)

example : ∃ z Z, genFlatten 3 (.dev (iotaT [2, 3, 4, 5])) = some z ∧ Reps id (.tensor ⟨.i64, 2, some [none, none]⟩) z Z ∧
    Viewed (iotaT [2, 3, 4, 5]) Z [24, 5] :=
  C56_flatten_partial (a := some (-1)) (ty := .tensor ⟨.i64, 4, none⟩) (reps_tensor (by simp)) (by decide)
    (by decide) (by decide) (by decide) (by decide)

example : ∃ z Z, genExpand [2, 1, 6] (.tensor ⟨.i64, 2, none⟩) (.tensor ⟨.i64, 3, none⟩) (.dev (iotaT [3, 1])) = some z ∧
    Reps id (.tensor ⟨.i64, 3, none⟩) z Z ∧ Z.shape = [2, 3, 6] ∧
      ∀ i, InRange [2, 3, 6] i → Z.get i = (iotaT [3, 1]).get (proj [3, 1] i) :=
  C56_expand_partial (target := [2, 1, 6]) (reps_tensor (by simp)) (by simp) (by simp) rfl (by decide) (by decide) (by simp)
    (by decide)

/-! ## Where the code and ONNX disagree -/

/-- A dimension whose size is not known when the code is generated but is 1 when it runs: Squeeze without axes panics. -/
theorem C56_squeeze_unknown_one_panics :
    Infer.squeeze none (.tensor ⟨.i64, 2, some [none, some 3]⟩) = some (.tensor ⟨.i64, 2, some [none, some 3]⟩) ∧
      (ArgType.tensor ⟨.i64, 2, some [none, some 3]⟩).Admits [1, 3] ∧
      (genSqueeze id .absent (.tensor ⟨.i64, 2, some [none, some 3]⟩) (.tensor ⟨.i64, 2, some [none, some 3]⟩)
        (.dev (iotaT [1, 3]))).isNone := by
  refine ⟨by decide, ⟨rfl, ?_⟩, by decide +kernel⟩
  intro p hp; cases hp; simp [PShape.Describes]

/-- Reshape of a native number to a tensor of rank two or more: the code panics, whatever the legal target. -/
theorem C56_reshape_native_panics {ofInt : Int → α} {az : Bool} {target : List Int} {shapeTy : Option ArgType}
    {prev ot : ArgType} {d : DType} {x : α} (ht : Infer.reshape az (some target) shapeTy prev (.scalarNative d) = some ot)
    (h2 : 2 ≤ target.length) : genReshape ofInt target (.scalarNative d) ot (.native x) = none := by
  simp only [Infer.reshape, Infer.reshapeRank, Option.map_some] at ht
  split at ht
  · cases ht
  split at ht
  · cases ht
  simp only [Option.some.injEq, Infer.reshapeOut] at ht
  rw [if_neg (by omega), if_neg (by omega)] at ht
  subst ht
  simp only [genReshape, Burn.fromOne]
  rw [if_neg (by omega)]; rfl

/-- Unsqueeze of a native number to a tensor of rank two or more: the code panics. -/
theorem C56_unsqueeze_native_panics {toInt : α → Int} {as : List Int} {prev ot : ArgType} {d : DType} {x : α}
    (ht : Infer.unsqueeze (some as) none prev (.scalarNative d) = some ot) (h2 : 2 ≤ as.length) :
    genUnsqueeze toInt as (.scalarNative d) ot (.native x) = none := by
  simp only [Infer.unsqueeze, Infer.unsqueezeRank, Option.bind_some, Infer.unsqueezeScalar] at ht
  rw [if_neg (by omega)] at ht
  obtain ⟨dt, -, ht⟩ := Option.bind_eq_some_iff.1 ht
  simp only [Infer.unsqueezeTensor] at ht
  obtain ⟨q, -, rfl⟩ := Option.map_eq_some_iff.1 ht
  simp only [genUnsqueeze, Burn.fromOne]
  split
  · rfl
  · rw [if_neg (by omega)]; rfl

example : Infer.unsqueeze (some [0, 1]) none (.scalarNative .f32) (.scalarNative .f32) =
    some (.tensor ⟨.f32, 2, some [some 1, some 1]⟩) := by decide

/-- `allowzero` is lost: the target `[0, 7]` turns an empty `[3, 0]` tensor into `[0, 7]`; the code asks Burn to copy the
input's first dimension and panics. -/
theorem C56_allowzero_panics :
    Onnx.Reshape true [0, 7] [3, 0] [0, 7] ∧
      Infer.reshape true (some [0, 7]) none (.scalarNative .i64) (.tensor ⟨.i64, 2, none⟩) =
        some (.tensor ⟨.i64, 2, some [some 0, some 7]⟩) ∧
      (genReshape id [0, 7] (.tensor ⟨.i64, 2, none⟩) (.tensor ⟨.i64, 2, some [some 0, some 7]⟩)
        (.dev (iotaT [3, 0]))).isNone := by
  refine ⟨⟨by decide, by simp [Onnx.ReshapeDims], by decide⟩, by decide, by decide +kernel⟩

/-- A −1 or a 0 in a target read from a tensor when the code runs is taken for a dimension: the code panics. -/
theorem C56_runtime_target_panics :
    Onnx.Reshape false [2, -1] [6] [2, 3] ∧ Onnx.Reshape false [0, 6] [1, 6] [1, 6] ∧
      (genReshapeRuntime [2, -1] (.tensor ⟨.i64, 1, some [some 2]⟩) (.tensor ⟨.i64, 2, none⟩) (.dev (iotaT [6]))).isNone ∧
      (genReshapeRuntime [0, 6] (.tensor ⟨.i64, 1, some [some 2]⟩) (.tensor ⟨.i64, 2, none⟩) (.dev (iotaT [1, 6]))).isNone := by
  refine ⟨⟨by decide, by simp [Onnx.ReshapeDims], by decide⟩, ⟨by decide, by simp [Onnx.ReshapeDims], by decide⟩,
    by decide +kernel, by decide +kernel⟩

/-- Flatten of a tensor without elements: the code divides by zero. -/
theorem C56_flatten_empty_panics :
    Onnx.flatten 1 [0, 3] = some [0, 3] ∧ (genFlatten 1 (.dev (iotaT [0, 3]))).isNone := by
  refine ⟨by decide, by decide +kernel⟩

/-- Expand of an empty dimension by 1: ONNX leaves it empty, the code asks Burn for size one and panics. -/
theorem C56_expand_empty_panics :
    Onnx.expand [0, 3] [1, 3] = some [0, 3] ∧
      (genExpand [1, 3] (.tensor ⟨.i64, 2, none⟩) (.tensor ⟨.i64, 2, some [some 1, some 3]⟩) (.dev (iotaT [0, 3]))).isNone := by
  refine ⟨by decide, by decide +kernel⟩

/-- Expand of a scalar on the device does not compile. -/
theorem C56_expand_device_scalar_panics [Inhabited α] {target : List Int} {d : DType} {ot : ArgType} {u : Tensor α} :
    genExpand target (.scalarTensor d) ot (.dev u) = none := rfl

end OnnxIR
