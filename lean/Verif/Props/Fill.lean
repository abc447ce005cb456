import Verif.Model.Fill
import Verif.Props.AxisOps

/-!
# C62: generated code of Pad, Tile, Trilu, OneHot and NonZero
-/

namespace OnnxIR

open Gen

variable {α : Type} [Inhabited α]

/-! ### Pad -/

theorem mapM_none {β γ : Type} {f : β → Option γ} {x : β} (hx : f x = none) : ∀ {l : List β}, x ∈ l → l.mapM f = none := by
  intro l
  induction l with
  | nil => intro h; simp at h
  | cons y l ih =>
    intro h
    rw [List.mapM_cons]
    rcases List.mem_cons.1 h with rfl | h
    · rw [hx]; rfl
    · rw [ih h]
      cases f y <;> rfl

theorem getD_map_range {f : Nat → Nat} {n k : Nat} (h : k < n) : ((List.range n).map f).getD k 0 = f k := by
  simp [List.getD_eq_getElem?_getD, h]

/-- The constant of a Pad node is the number `v`: written in the model, or an input that holds a scalar. -/
def PadIs (ofInt : Int → α) (v : α) : PadValue α → Prop
  | .static finite x => finite = true ∧ x = v
  | .runtime ty g => ∃ T, Reps ofInt ty g T ∧ T.shape = [] ∧ T.data = [v]

theorem padValue_eq {ofInt : Int → α} {v : α} {pv : PadValue α} (h : PadIs ofInt v pv) : padValue pv = some v := by
  match pv, h with
  | .static _ _, ⟨rfl, rfl⟩ => rfl
  | .runtime (.scalarNative _) (.native x), ⟨T, hT, _, hd⟩ =>
    obtain ⟨_, h2⟩ := hT
    rw [hd] at h2
    simp only [padValue]
    rw [(List.cons.inj h2).1]
  | .runtime (.scalarTensor _) (.dev u), ⟨T, hT, _, hd⟩ =>
    obtain ⟨h1, _, h3⟩ := hT
    rw [hd] at h3
    simp [padValue, Burn.intoScalar, h1, h3]
  | .runtime (.tensor t) (.dev u), ⟨T, hT, hs, _⟩ =>
    obtain ⟨_, h2, h3⟩ := hT
    rw [hs] at h2
    simp at h2
    omega
  | .runtime (.shape n) (.shape l), ⟨T, hT, hs, _⟩ =>
    obtain ⟨_, h2, _⟩ := hT
    rw [hs] at h2
    cases h2
  | .runtime (.tensor _) (.native _), ⟨_, hT, _, _⟩ | .runtime (.tensor _) (.shape _), ⟨_, hT, _, _⟩
  | .runtime (.scalarNative _) (.dev _), ⟨_, hT, _, _⟩ | .runtime (.scalarNative _) (.shape _), ⟨_, hT, _, _⟩
  | .runtime (.scalarTensor _) (.native _), ⟨_, hT, _, _⟩ | .runtime (.scalarTensor _) (.shape _), ⟨_, hT, _, _⟩
  | .runtime (.shape _) (.dev _), ⟨_, hT, _, _⟩ | .runtime (.shape _) (.native _), ⟨_, hT, _, _⟩ => exact hT.elim

/-- **C62, Pad** (partial: pads and axes as the importer takes them: constant pads for all dimensions, a constant that is a number
or a scalar; ONNX's mode `wrap` and cropping by negative pads are refused). -/
theorem C62_pad_partial {ofInt : Int → α} {n : Nat} {mode : FillMode} {pads : List Int} {v : α} {pv : PadValue α} {X Z : Tensor α} (hn : n < 4)
    (hv : mode = .constant → PadIs ofInt v pv) (hZ : Onnx.PadT mode pads v X Z) :
    genPad n mode (.static pads) pv X = some Z := by
  have hlen := hZ.len
  have hp0 : ∀ k, 0 ≤ pads.getD k 0 := by
    intro k
    rw [List.getD_eq_getElem?_getD]
    cases h : pads[k]? with
    | none => simp
    | some p => simpa using hZ.nonneg p (List.mem_of_getElem? h)
  let r := X.shape.length
  let ps : List (Nat × Nat) := (List.range r).map fun i => ((pads.getD i 0).toNat, (pads.getD (r + i) 0).toNat)
  have hpairs : padPairs X.shape.length pads = some ps := by
    unfold padPairs
    rw [if_neg, if_neg (by omega)]
    · simp only [show pads.length / 2 = r by show _ = X.shape.length; omega]
      rfl
    · rintro ⟨p, h1, h2⟩
      have := hZ.nonneg p h1; omega
  have hpsl : ps.length = X.shape.length := by simp [ps, r]
  have hb : ∀ k, k < r → ps.getD k (0, 0) = ((pads.getD k 0).toNat, (pads.getD (r + k) 0).toNat) := by
    intro k hk
    simp only [ps, List.getD_eq_getElem?_getD, List.getElem?_map, List.getElem?_range hk, Option.map_some, Option.getD_some]
  have hpad : ∀ w : α, (mode = .constant → w = v) → Burn.pad X ps mode w = some Z := by
    intro w hw
    unfold Burn.pad
    rw [if_pos]
    · congr 1
      have hsh : (List.range X.shape.length).map
          (fun k => (ps.getD k (0, 0)).1 + X.shape.getD k 0 + (ps.getD k (0, 0)).2) = Z.shape := by
        refine ext_getD (by simp [hZ.rank]) fun k hk => ?_
        have hk : k < X.shape.length := by simpa using hk
        rw [getD_map_range hk, hb k hk]
        have := hZ.shape k hk
        have h1 := hp0 k
        have h2 := hp0 (X.shape.length + k)
        simp only [r]
        omega
      refine Tensor.eq_of_get hsh fun i hi => ?_
      have hi' : InRange ((List.range X.shape.length).map
          (fun k => (ps.getD k (0, 0)).1 + X.shape.getD k 0 + (ps.getD k (0, 0)).2)) i := hi
      rw [Tensor.get_ofFn hi']
      rw [hsh] at hi'
      rw [hZ.elems i hi']
      have hil : i.length = X.shape.length := by rw [hi'.length, hZ.rank]
      have hik : ∀ k, k < X.shape.length → (i.getD k 0 : Int) <
          pads.getD k 0 + X.shape.getD k 0 + pads.getD (X.shape.length + k) 0 := by
        intro k hk
        rw [← hZ.shape k hk]
        have := (inRange_iff_get.1 hi').2 k (by rw [hZ.rank]; exact hk)
        omega
      have htake : ∀ k, k < X.shape.length → (pads.take X.shape.length).getD k 0 = pads.getD k 0 := by
        intro k hk
        simp [List.getD_eq_getElem?_getD, List.getElem?_take_of_lt hk]
      by_cases hc : mode = .constant ∧ ∃ k ∈ List.range X.shape.length,
          i.getD k 0 < (ps.getD k (0, 0)).1 ∨ (ps.getD k (0, 0)).1 + X.shape.getD k 0 ≤ i.getD k 0
      · rw [if_pos hc]
        obtain ⟨hm, k, hk, hout⟩ := hc
        have hk' := List.mem_range.1 hk
        rw [hb k hk'] at hout
        have h1 := hp0 k
        have hnone : Onnx.padPlace mode (X.shape.getD k 0) (i.getD k 0 - (pads.take X.shape.length).getD k 0) = none := by
          unfold Onnx.padPlace
          rw [htake k hk', if_neg, hm]
          simp only at hout
          omega
        rw [Onnx.padIndex, mapM_none (f := fun k => Onnx.padPlace mode (X.shape.getD k 0)
          (i.getD k 0 - (pads.take X.shape.length).getD k 0)) hnone hk, hw hm]
      · rw [if_neg hc]
        rw [Onnx.padIndex, mapM_some (g := fun k => Burn.padRead mode ((ps.getD k (0, 0)).1) (X.shape.getD k 0) (i.getD k 0))]
        intro k hk
        have hk' := List.mem_range.1 hk
        have h1 := hp0 k
        have h2 := hik k hk'
        have h3 := hp0 (X.shape.length + k)
        rw [htake k hk', hb k hk']
        simp only
        have hroom := hZ.room k hk'
        unfold Onnx.padPlace Burn.padRead
        by_cases hin : 0 ≤ (i.getD k 0 : Int) - pads.getD k 0 ∧ (i.getD k 0 : Int) - pads.getD k 0 < X.shape.getD k 0
        · rw [if_pos hin, if_neg (by omega), if_pos (by omega)]
          congr 1; omega
        · rw [if_neg hin]
          cases mode with
          | constant =>
            exfalso
            apply hc
            refine ⟨rfl, k, hk, ?_⟩
            rw [hb k hk']
            simp only
            omega
          | edge =>
            simp only [if_true]
            by_cases hlt : (i.getD k 0 : Int) - pads.getD k 0 < 0
            · rw [if_pos hlt, if_pos (by omega)]
            · rw [if_neg hlt, if_neg (by omega), if_neg (by omega)]
          | reflect =>
            simp only [reduceCtorEq, if_false]
            rcases hroom with hr | ⟨_, hr⟩
            · omega
            · have hr := hr rfl
              by_cases hlt : (i.getD k 0 : Int) - pads.getD k 0 < 0
              · rw [if_pos hlt, if_pos (by omega)]
                congr 1; omega
              · rw [if_neg hlt, if_neg (by omega), if_neg (by omega)]
                congr 1; omega
    · refine ⟨hpsl, fun k hk => ?_⟩
      have hk' := List.mem_range.1 hk
      simp only [hb k hk']
      have h1 := hp0 k
      have h3 := hp0 (X.shape.length + k)
      rcases hZ.room k hk' with h | ⟨h, h'⟩
      · left; show (pads.getD k 0).toNat = 0 ∧ (pads.getD (X.shape.length + k) 0).toNat = 0; omega
      · right
        refine ⟨h, fun hm => ?_⟩
        have := h' hm
        show (pads.getD k 0).toNat < _ ∧ (pads.getD (X.shape.length + k) 0).toNat < _
        omega
  unfold genPad
  rw [if_neg (by omega)]
  simp only [hpairs, Option.bind_some]
  cases mode with
  | constant =>
    simp only
    rw [padValue_eq (hv rfl), Option.bind_some]
    exact hpad v fun _ => rfl
  | edge => exact hpad default fun h => by cases h
  | reflect => exact hpad default fun h => by cases h

/-! ### Tile -/

theorem repeats_fold : ∀ (ns : List Nat) (o : Nat) (t : Tensor α), o + ns.length ≤ t.shape.length →
    ∃ u, (ns.zipIdx o).foldlM (fun t p => Burn.repeatDim t p.2 p.1) t = some u ∧ u.shape.length = t.shape.length ∧
      (∀ k, k < t.shape.length → u.shape.getD k 0 = t.shape.getD k 0 * (if o ≤ k ∧ k < o + ns.length then ns.getD (k - o) 0 else 1)) ∧
      ∀ i, InRange u.shape i → u.get i =
        t.get (i.mapIdx fun k v => if o ≤ k ∧ k < o + ns.length then v % t.shape.getD k 0 else v) := by
  intro ns
  induction ns with
  | nil =>
    intro o t _
    refine ⟨t, rfl, rfl, fun k _ => ?_, fun i _ => ?_⟩
    · rw [if_neg (by simp; try omega)]; omega
    · congr 1
      symm
      refine List.ext_getElem (by simp) fun k h1 h2 => ?_
      rw [List.getElem_mapIdx, if_neg (by simp; try omega)]
  | cons n ns ih =>
    intro o t ho
    simp only [List.length_cons] at ho
    have hol : o < t.shape.length := by omega
    let t' : Tensor α := Tensor.ofFn (t.shape.set o (t.shape.getD o 0 * n)) fun i => t.get (i.set o (i.getD o 0 % t.shape.getD o 0))
    have ht' : Burn.repeatDim t o n = some t' := by unfold Burn.repeatDim; rw [if_pos hol]
    have hl' : t'.shape.length = t.shape.length := by show (t.shape.set o _).length = _; simp
    have hs' : ∀ k, t'.shape.getD k 0 = if k = o then t.shape.getD o 0 * n else t.shape.getD k 0 := by
      intro k
      show (t.shape.set o _).getD k 0 = _
      rw [getD_set]
      by_cases h : k = o
      · subst h; rw [if_pos ⟨rfl, hol⟩, if_pos rfl]
      · rw [if_neg (fun c => h c.1.symm), if_neg h]
    obtain ⟨u, e1, e2, e3, e4⟩ := ih (o + 1) t' (by rw [hl']; omega)
    refine ⟨u, ?_, e2.trans hl', ?_, ?_⟩
    · rw [List.zipIdx_cons, List.foldlM_cons]
      simp only [ht']
      exact e1
    · intro k hk
      rw [e3 k (by omega), hs' k]
      by_cases h : k = o
      · subst h
        rw [if_pos rfl, if_neg (by omega), if_pos (by simp)]
        simp
      · rw [if_neg h]
        by_cases h2 : o + 1 ≤ k ∧ k < o + 1 + ns.length
        · rw [if_pos h2, if_pos (by simp only [List.length_cons]; omega)]
          congr 1
          obtain ⟨m, rfl⟩ := Nat.exists_eq_add_of_le h2.1
          rw [show o + 1 + m - o = m + 1 by omega, show o + 1 + m - (o + 1) = m by omega, List.getD_cons_succ]
        · rw [if_neg h2, if_neg (by simp only [List.length_cons]; omega)]
    · intro i hi
      rw [e4 i hi]
      have hil := hi.length
      rw [e2, hl'] at hil
      let j := i.mapIdx fun k v => if o + 1 ≤ k ∧ k < o + 1 + ns.length then v % t'.shape.getD k 0 else v
      have hjl : j.length = t.shape.length := by simp [j, hil]
      have hjd : ∀ k, k < t.shape.length → j.getD k 0 =
          if o + 1 ≤ k ∧ k < o + 1 + ns.length then i.getD k 0 % t'.shape.getD k 0 else i.getD k 0 := by
        intro k hk
        simp [j, List.getD_eq_getElem?_getD, List.getElem?_mapIdx, show k < i.length by omega]
      have hj : InRange t'.shape j := by
        rw [inRange_iff_get]
        refine ⟨by rw [hjl, hl'], fun k hk => ?_⟩
        rw [hl'] at hk
        rw [hjd k hk]
        have hik := (inRange_iff_get.1 hi).2 k (by rw [e2, hl']; exact hk)
        rw [e3 k (by omega)] at hik
        by_cases h2 : o + 1 ≤ k ∧ k < o + 1 + ns.length
        · rw [if_pos h2] at hik ⊢
          apply Nat.mod_lt
          apply Nat.pos_of_ne_zero
          intro c
          rw [c] at hik; omega
        · rw [if_neg h2] at hik ⊢
          omega
      have hg : t'.get j = t.get (j.set o (j.getD o 0 % t.shape.getD o 0)) := Tensor.get_ofFn hj
      show t'.get j = _
      rw [hg]
      congr 1
      refine List.ext_getElem (by simp [j]) fun k h1 h2 => ?_
      have hk : k < t.shape.length := by simp [j] at h1; omega
      have hki : k < i.length := by omega
      have hdi : i.getD k 0 = i[k] := by simp [List.getD_eq_getElem?_getD, hki]
      rw [List.getElem_mapIdx, List.getElem_set]
      by_cases h : o = k
      · subst h
        rw [if_pos rfl, if_pos (by simp), hjd o hk, if_neg (by omega), hdi]
      · rw [if_neg h]
        have hjk : j[k]'(by omega) = j.getD k 0 := by simp [List.getD_eq_getElem?_getD, show k < j.length by omega]
        rw [hjk, hjd k hk, hdi, hs' k, if_neg (show ¬ k = o from fun c => h c.symm)]
        by_cases h2 : o + 1 ≤ k ∧ k < o + 1 + ns.length
        · rw [if_pos h2, if_pos (by simp only [List.length_cons]; omega)]
        · rw [if_neg h2, if_neg (by simp only [List.length_cons]; omega)]

/-- **C62, Tile** (partial: constant repeats). -/
theorem C62_tile_partial {reps : List Int} {X Z : Tensor α} (hZ : Onnx.TileT reps X Z) :
    genTile (.static reps) X = some Z := by
  have hneg : ¬ ∃ r ∈ reps, r < 0 := by
    rintro ⟨r, h1, h2⟩
    have := hZ.nonneg r h1; omega
  simp only [genTile, if_neg hneg, Burn.repeats]
  obtain ⟨u, e1, e2, e3, e4⟩ := repeats_fold (reps.map Int.toNat) 0 X (by simp [hZ.len])
  rw [e1]
  congr 1
  have hsh : u.shape = Z.shape := by
    refine ext_getD (by rw [e2, hZ.rank]) fun k hk => ?_
    rw [e2] at hk
    rw [e3 k hk, if_pos (by simp [hZ.len]; exact hk)]
    have h1 := hZ.shape k hk
    have hkr : k < reps.length := by rw [hZ.len]; exact hk
    have hd : reps.getD k 0 = reps[k] := by simp [List.getD_eq_getElem?_getD, hkr]
    have hd' : (reps.map Int.toNat).getD (k - 0) 0 = reps[k].toNat := by simp [List.getD_eq_getElem?_getD, hkr]
    have h0 := hZ.nonneg reps[k] (List.getElem_mem hkr)
    rw [hd] at h1
    rw [hd']
    have : ((X.shape.getD k 0 * reps[k].toNat : Nat) : Int) = Z.shape.getD k 0 := by
      rw [h1, Int.natCast_mul, Int.toNat_of_nonneg h0]
    exact_mod_cast this
  refine Tensor.eq_of_get hsh fun i hi => ?_
  rw [e4 i hi]
  have hil := hi.length
  rw [hsh] at hi
  rw [hZ.elems i hi]
  congr 1
  refine List.ext_getElem (by simp; omega) fun k h1 h2 => ?_
  have hk : k < X.shape.length := by simp at h1; omega
  rw [List.getElem_mapIdx, List.getElem_zipWith, if_pos (by simp [hZ.len]; exact hk)]
  simp [List.getD_eq_getElem?_getD, hk]

/-! ### Trilu -/

/-- **C62, Trilu** (partial: the diagonal left out, or constant). -/
theorem C62_trilu_partial {zero : α} {upper : Bool} {d : DiagIn} {k : Int} {X : Tensor α} (hr : 2 ≤ X.shape.length)
    (hk : d = .static k ∨ d = .absent ∧ k = 0) : genTrilu zero upper d X = some (Onnx.triluT zero upper k X) := by
  have hd : triluDiag d = k := by
    rcases hk with rfl | ⟨rfl, rfl⟩ <;> rfl
  unfold genTrilu Burn.tri
  rw [if_neg (by omega), if_pos hr, hd]

/-- **C62, not for a run-time diagonal**: whatever the input holds, the diagonal is 0. -/
theorem C62_trilu_runtime_ignored : genTrilu (0 : Int) true .runtime ⟨[2, 2], [1, 2, 3, 4], rfl⟩ =
      some (Onnx.triluT 0 true 0 ⟨[2, 2], [1, 2, 3, 4], rfl⟩) ∧
    Onnx.triluT (0 : Int) true 0 ⟨[2, 2], [1, 2, 3, 4], rfl⟩ ≠ Onnx.triluT (0 : Int) true 1 ⟨[2, 2], [1, 2, 3, 4], rfl⟩ := by
  refine ⟨rfl, fun h => ?_⟩
  have := congrArg Tensor.data h
  revert this
  decide +kernel

/-! ### OneHot -/

theorem inRange_eraseIdx {s i : List Nat} {a : Nat} (h : InRange s i) : InRange (s.eraseIdx a) (i.eraseIdx a) := by
  induction s generalizing i a with
  | nil => cases i with
    | nil => exact h
    | cons _ _ => exact absurd h (by simp [InRange])
  | cons d s ih => cases i with
    | nil => exact absurd h (by simp [InRange])
    | cons x i =>
      cases a with
      | zero => exact h.2
      | succ a => exact ⟨h.1, ih h.2⟩

theorem index_eq_some_iff {d : Nat} {x : Int} {v : Nat} (hx : -(d : Int) ≤ x ∧ x < d) :
    Onnx.index d x = some v ↔ (if x < 0 then x + d else x) = v := by
  unfold Onnx.index
  by_cases h : 0 ≤ x
  · rw [if_pos ⟨h, hx.2⟩, if_neg (by omega)]
    constructor
    · intro e; cases e; omega
    · intro e; congr 1; omega
  · rw [if_neg (by omega), if_pos (by omega), if_pos (by omega)]
    constructor
    · intro e; cases e; omega
    · intro e; congr 1; omega

/-- **C62, OneHot** (partial: constant `depth` of type `i64` and constant values, indices in range, and with integer indices
values that are integers). -/
theorem C62_onehot_partial {viaInt : α → α} {intIndices : Bool} {d a : Nat} {off on : α} {axis : Option Int} {I : Tensor Int}
    (ha : Onnx.index (I.shape.length + 1) (axis.getD (-1)) = some a) (hI : ∀ x ∈ I.data, -(d : Int) ≤ x ∧ x < d)
    (hv : intIndices = true → viaInt on = on ∧ viaInt off = off) :
    genOneHot viaInt intIndices (.static .i64 d) (.static off on) axis I = some (Onnx.oneHotT d a on off I) := by
  have hon : (if intIndices then viaInt else id) on = on ∧ (if intIndices then viaInt else id) off = off := by
    cases intIndices with
    | false => exact ⟨rfl, rfl⟩
    | true => exact hv rfl
  have hax : (if axis.getD (-1) < 0 then axis.getD (-1) + I.shape.length + 1 else axis.getD (-1)) = (a : Int) ∧
      a ≤ I.shape.length := by
    generalize axis.getD (-1) = x at ha ⊢
    unfold Onnx.index at ha
    by_cases h : 0 ≤ x
    · by_cases h2 : x < ((I.shape.length + 1 : Nat) : Int)
      · rw [if_pos ⟨h, h2⟩] at ha
        cases ha
        rw [if_neg (by omega)]; omega
      · rw [if_neg (by omega), if_neg (by omega)] at ha; cases ha
    · rw [if_neg (by omega)] at ha
      by_cases h2 : -((I.shape.length + 1 : Nat) : Int) ≤ x ∧ x < 0
      · rw [if_pos h2] at ha
        cases ha
        rw [if_pos (by omega)]; omega
      · rw [if_neg h2] at ha; cases ha
  simp only [genOneHot, ne_eq, not_true_eq_false, if_false, hon.1, hon.2]
  unfold Burn.oneHotFill
  simp only [hax.1]
  rw [if_pos ⟨by omega, by omega, hI⟩]
  congr 1
  unfold Onnx.oneHotT
  simp only [Int.toNat_natCast]
  refine Tensor.eq_of_get rfl fun i hi => ?_
  have hi : InRange (I.shape.take a ++ d :: I.shape.drop a) i := hi
  rw [Tensor.get_ofFn hi, Tensor.get_ofFn hi]
  have hj : InRange I.shape (i.eraseIdx a) := by
    have := inRange_eraseIdx (a := a) hi
    rwa [List.eraseIdx_append_of_length_le (by simp; try omega), show (I.shape.take a).length = a by simp; omega, Nat.sub_self,
      List.eraseIdx_cons_zero, List.take_append_drop] at this
  have hx := hI (I.get (i.eraseIdx a)) (by
    unfold Tensor.get
    have := flatIdx_lt hj
    rw [← I.size] at this
    rw [List.getD_eq_getElem?_getD, List.getElem?_eq_getElem this]
    exact List.getElem_mem this)
  simp only [index_eq_some_iff hx]

/-- **C62, not for fractional values with integer indices**: the values are cut to integers first. -/
theorem C62_onehot_fraction_truncated : (genOneHot (fun q : Rat => (q.floor : Rat)) true (.static .i64 2) (.static 0 (1/2)) none
      ⟨[1], [1], rfl⟩).map (·.data) = some [0, 0] ∧
    (Onnx.oneHotT 2 1 (1/2 : Rat) 0 ⟨[1], [1], rfl⟩).data = [0, 1/2] := by decide +kernel

/-- **C62, not for a depth of another type**: the import panics on a constant depth that is not `i64`, and code generation on
one that is no constant. -/
theorem C62_onehot_depth_panics {α : Type} [Inhabited α] {viaInt : α → α} {b : Bool} {ty : DType} {d : Nat} {v : OnOffIn α} {axis : Option Int}
    {I : Tensor Int} (h : ty ≠ .i64) : genOneHot viaInt b (.static ty d) v axis I = none ∧
      genOneHot viaInt b .runtime v axis I = none := by
  constructor
  · cases v with
    | static off on => simp [genOneHot, h]
    | runtime => rfl
  · cases v <;> rfl

/-! ### NonZero -/

/-- **C62, NonZero.** -/
theorem C62_nonzero {isZero : α → Bool} {X : Tensor α} : genNonZero isZero X = Onnx.nonzeroT isZero X := by
  have hf : (indices X.shape).filter (X.map fun v => !isZero v).get = (indices X.shape).filter fun j => !isZero (X.get j) := by
    refine List.filter_congr fun j hj => ?_
    rw [Tensor.get_map (mem_indices.1 hj)]
  unfold genNonZero Onnx.nonzeroT Burn.permute Burn.argwhere
  have hs : (X.map fun v => !isZero v).shape = X.shape := rfl
  simp only [hs, hf]
  generalize (indices X.shape).filter (fun j => !isZero (X.get j)) = js
  refine Tensor.eq_of_get rfl fun i hi => ?_
  have hi : InRange [X.shape.length, js.length] i := hi
  obtain ⟨p, q, rfl, hp, hq⟩ : ∃ p q, i = [p, q] ∧ p < X.shape.length ∧ q < js.length := by
    match i, hi with
    | [p, q], h => exact ⟨p, q, rfl, by simpa [InRange] using h⟩
  rw [Tensor.get_ofFn hi]
  refine (Tensor.get_ofFn (by simpa [permShape, Tensor.ofFn, InRange] using hi)).trans ?_
  refine (Tensor.get_ofFn ?_).trans ?_
  · simp [unpermute, Tensor.ofFn, InRange, hp, hq, List.range_succ, List.idxOf_cons]
  · simp [unpermute, Tensor.ofFn, List.range_succ, List.idxOf_cons]

/-! ### Examples -/

/-- Pad: reflection in front of and behind a vector. -/
example : ∃ Z : Tensor Int, Onnx.PadT .reflect [2, 1] 0 ⟨[3], [1, 2, 3], rfl⟩ Z ∧ Z.data = [3, 2, 1, 2, 3, 2] := by
  refine ⟨⟨[6], [3, 2, 1, 2, 3, 2], rfl⟩, ⟨rfl, by decide, ?_, rfl, ?_, ?_⟩, rfl⟩
  · intro k hk
    have : k = 0 := by simpa using hk
    subst this; decide
  · intro k hk
    have : k = 0 := by simpa using hk
    subst this; decide
  · intro i hi
    replace hi := mem_indices.2 hi
    revert i
    decide +kernel

/-- Pad: a constant around a matrix, and the code's result. -/
example : parts (genPad 3 .constant (.static [1, 0, 0, 1]) (.static true 9) ⟨[1, 2], [1, 2], rfl⟩) =
    some ([2, 3], [9, 9, 9, 1, 2, 9]) := by decide +kernel

/-- A constant known at run time, as a number and on the device. -/
example : PadIs (fun z : Int => z) 7 (.runtime (.scalarNative .i64) (.native 7)) ∧
    PadIs (fun z : Int => z) 7 (.runtime (.scalarTensor .i64) (.dev ⟨[1], [7], rfl⟩)) :=
  ⟨⟨⟨[], [7], rfl⟩, ⟨rfl, rfl⟩, rfl, rfl⟩, ⟨⟨[], [7], rfl⟩, ⟨rfl, rfl, rfl⟩, rfl, rfl⟩⟩

/-- Tile. -/
example : ∃ Z : Tensor Int, Onnx.TileT [2, 2] ⟨[1, 2], [1, 2], rfl⟩ Z ∧ Z.data = [1, 2, 1, 2, 1, 2, 1, 2] := by
  refine ⟨⟨[2, 4], [1, 2, 1, 2, 1, 2, 1, 2], rfl⟩, ⟨rfl, by decide, rfl, ?_, ?_⟩, rfl⟩
  · intro k hk
    have : k = 0 ∨ k = 1 := by simp at hk; omega
    rcases this with rfl | rfl <;> decide
  · intro i hi
    replace hi := mem_indices.2 hi
    revert i
    decide +kernel

/-- Trilu, OneHot with a negative axis and a negative index, and NonZero. -/
example : parts (genTrilu (0 : Int) false (.static (-1)) ⟨[2, 2], [1, 2, 3, 4], rfl⟩) = some ([2, 2], [0, 0, 3, 0]) := by
  decide +kernel

example : Onnx.index 2 ((some (-2) : Option Int).getD (-1)) = some 0 ∧
    parts (genOneHot (fun x : Int => x) true (.static .i64 3) (.static 0 5) (some (-2)) ⟨[2], [1, -1], rfl⟩) =
      some ([3, 2], [0, 0, 5, 0, 0, 5]) := by decide +kernel

example : (genNonZero (fun x : Int => x == 0) ⟨[2, 2], [1, 0, 3, 4], rfl⟩).data = [0, 1, 1, 0, 0, 1] := by decide +kernel

/-! ### Where the code fails -/

/-- **C62, refused or panicking**: Pad with axes, with pads known at run time only, with a negative pad, or with an infinite
constant; Tile with run-time repeats. -/
theorem C62_pad_refused {n : Nat} {mode : FillMode} {l : ListIn} {v : PadValue α} {X : Tensor α} (hn : 4 ≤ n) :
    genPad n mode l v X = none := by unfold genPad; rw [if_pos hn]

theorem C62_pad_runtime_panics {n : Nat} {mode : FillMode} {v : PadValue α} {X : Tensor α} :
    genPad n mode .runtime v X = none := by unfold genPad; split <;> rfl

theorem C62_pad_negative_refused {n : Nat} {mode : FillMode} {pads : List Int} {v : PadValue α} {X : Tensor α}
    (h : ∃ p ∈ pads, p < 0) : genPad n mode (.static pads) v X = none := by
  unfold genPad padPairs
  simp only [if_pos h]
  split <;> rfl

theorem C62_pad_infinite_fails {n : Nat} {pads : List Int} {v : α} {X : Tensor α} :
    genPad n .constant (.static pads) (.static false v) X = none := by
  unfold genPad
  split
  · rfl
  · simp only [padValue, Bool.false_eq_true, if_false, Option.bind_none]
    cases padPairs X.shape.length pads <;> rfl

theorem C62_tile_runtime_panics {X : Tensor α} : genTile .runtime X = none := rfl

end OnnxIR
