import Verif.Model.WindowGen
import Verif.Props.Conv
import Verif.Props.Col2Im
import Verif.Lemmas.Box
import Mathlib.Order.MinMax
import Mathlib.Algebra.BigOperators.Ring.List
import Mathlib.Data.List.Count

/-!
# C75: values of convolution and pooling

First for modules with any number of axes, then for the generated code.
-/

namespace OnnxIR

open Gen Infer Onnx

/-! ### Windows -/

/-- A window that can be placed at least once. -/
structure Onnx.Axis.Proper (a : Axis) : Prop where
  kernel : 0 < a.kernel
  stride : 0 < a.stride
  fits : a.Fits 0

theorem slide_length {a : Axis} (h : a.Proper) {s : Burn.Slide} {x : Nat} (hx : x + 2 * s.pad = a.before + a.input + a.after)
    (hs : s.stride = a.stride) (hd : s.dilation = a.dilation) : ∃ n, s.length x a.kernel = some n ∧ a.Positions n := by
  have h1 := h.fits
  have h2 := h.kernel
  have h3 := h.stride
  simp only [Axis.Fits, Nat.zero_mul, Nat.zero_add] at h1
  have e : s.dilation * (a.kernel - 1) = (a.kernel - 1) * a.dilation := by rw [hd, Nat.mul_comm]
  refine ⟨_, by rw [Burn.Slide.length, if_neg (by rw [e]; omega)], fun p => ?_⟩
  rw [e, hs]
  simp only [Axis.Fits]
  rw [Nat.lt_succ_iff, Nat.le_div_iff_mul_le h3]
  omega

/-- Padding left to the operation. -/
theorem lengths_same {as : List Axis} (h : ∀ a ∈ as, a.Proper) (hs : ∀ a ∈ as, a.before = a.after) :
    ∃ outs, Burn.lengths (Burn.slides (as.map (·.before)) (as.map (·.stride)) (as.map (·.dilation))) (as.map (·.input)) (as.map (·.kernel)) =
      some outs ∧ List.Forall₂ Axis.Positions as outs := by
  induction as with
  | nil => exact ⟨[], rfl, .nil⟩
  | cons a as ih =>
    obtain ⟨outs, h1, h2⟩ := ih (fun b hb => h b (List.mem_cons_of_mem _ hb)) (fun b hb => hs b (List.mem_cons_of_mem _ hb))
    have ha := hs a List.mem_cons_self
    obtain ⟨n, h3, h4⟩ := slide_length (h a List.mem_cons_self) (s := ⟨a.before, a.stride, a.dilation⟩) (x := a.input) (by dsimp only; omega) rfl rfl
    refine ⟨n :: outs, ?_, .cons h4 h2⟩
    simp only [List.map_cons, Burn.slides, Burn.lengths, h1, h3]

/-- Padding added before. -/
theorem lengths_padded {as : List Axis} (h : ∀ a ∈ as, a.Proper) :
    ∃ outs, Burn.lengths (Burn.slides (as.map fun _ => 0) (as.map (·.stride)) (as.map (·.dilation)))
      (as.map fun a => a.before + a.input + a.after) (as.map (·.kernel)) = some outs ∧ List.Forall₂ Axis.Positions as outs := by
  induction as with
  | nil => exact ⟨[], rfl, .nil⟩
  | cons a as ih =>
    obtain ⟨outs, h1, h2⟩ := ih fun b hb => h b (List.mem_cons_of_mem _ hb)
    obtain ⟨n, h3, h4⟩ := slide_length (h a List.mem_cons_self) (s := ⟨0, a.stride, a.dilation⟩) (x := a.before + a.input + a.after) rfl rfl rfl
    refine ⟨n :: outs, ?_, .cons h4 h2⟩
    simp only [List.map_cons, Burn.slides, Burn.lengths, h1, h3]

theorem cell_eq (a : Axis) (o k : Nat) : a.cell o k =
    if o * a.stride + k * a.dilation < a.before ∨ a.input ≤ o * a.stride + k * a.dilation - a.before then none
    else some (o * a.stride + k * a.dilation - a.before) := by
  unfold Axis.cell
  generalize h1 : o * a.stride = p
  generalize h2 : k * a.dilation = q
  have e : (o : Int) * a.stride + k * a.dilation - a.before = (p : Int) + q - a.before := by
    rw [← h1, ← h2, Int.natCast_mul, Int.natCast_mul]
  simp only [e]
  by_cases c : p + q < a.before ∨ a.input ≤ p + q - a.before
  · rw [if_pos c, if_neg (by omega)]
  · rw [if_neg c, if_pos (by omega)]
    congr 1
    omega

theorem place_same (as : List Axis) (o k : List Nat) :
    Burn.place (Burn.slides (as.map (·.before)) (as.map (·.stride)) (as.map (·.dilation))) (as.map (·.input)) o k = cells as o k := by
  induction as generalizing o k with
  | nil => rfl
  | cons a as ih =>
    cases o with
    | nil => rfl
    | cons o os =>
      cases k with
      | nil => rfl
      | cons k ks =>
        simp only [List.map_cons, Burn.slides, Burn.place, cells, ih, cell_eq]
        split
        · rfl
        · cases cells as os ks <;> rfl

theorem place_padded (as : List Axis) {o k : List Nat} (ho : o.length = as.length) (hk : k.length = as.length) :
    match Burn.place (Burn.slides (as.map fun _ => 0) (as.map (·.stride)) (as.map (·.dilation))) (as.map fun a => a.before + a.input + a.after) o k with
    | some r => InRange (as.map fun a => a.before + a.input + a.after) r ∧
        Burn.unpad (as.map fun a => (a.before, a.after)) (as.map (·.input)) r = cells as o k
    | none => cells as o k = none := by
  induction as generalizing o k with
  | nil =>
    simp only [List.length_nil, List.length_eq_zero_iff] at ho hk
    subst ho hk
    exact ⟨trivial, rfl⟩
  | cons a as ih =>
    rcases o with _ | ⟨o, os⟩
    · simp at ho
    rcases k with _ | ⟨k, ks⟩
    · simp at hk
    simp only [List.length_cons, Nat.add_right_cancel_iff] at ho hk
    have := ih ho hk
    simp only [List.map_cons, Burn.slides, Burn.place, cells, cell_eq, Nat.sub_zero, Nat.not_lt_zero, false_or]
    generalize o * a.stride + k * a.dilation = q
    by_cases c : a.before + a.input + a.after ≤ q
    · simp only [if_pos c]
      rw [if_pos (by omega)]
    · simp only [if_neg c]
      generalize Burn.place _ _ os ks = r at this
      cases r with
      | none =>
        simp only [Option.map_none] at this ⊢
        rw [this]
        generalize (if q < a.before ∨ a.input ≤ q - a.before then none else some (q - a.before) : Option Nat) = r
        cases r <;> rfl
      | some r =>
        simp only [Option.map_some] at this ⊢
        refine ⟨⟨by omega, this.1⟩, ?_⟩
        simp only [Burn.unpad, this.2]
        split
        · rfl
        · cases cells as os ks <;> rfl

variable {α : Type} [Inhabited α]

theorem element_eq (fill : α) (x : Tensor α) (n c : Nat) (r : Option (List Nat)) : Burn.element fill x n c r = padded fill x n c r := by
  cases r <;> rfl

/-- What a module makes of its padding. -/
theorem prepare_spec (fill : α) {as : List Axis} {n c : Nat} {x : Tensor α} (h : ∀ a ∈ as, a.Proper) (hx : x.shape = n :: c :: as.map (·.input)) :
    let p := Burn.prepare fill (as.map fun a => (a.before, a.after)) x
    let ss := Burn.slides p.1 (as.map (·.stride)) (as.map (·.dilation))
    ∃ xs outs, p.2.shape = n :: c :: xs ∧ Burn.lengths ss xs (as.map (·.kernel)) = some outs ∧ List.Forall₂ Axis.Positions as outs ∧
      ∀ i j o k, i < n → j < c → o.length = as.length → k.length = as.length →
        Burn.element fill p.2 i j (Burn.place ss xs o k) = padded fill x i j (cells as o k) ∧
        ((as.map fun a => (a.before, a.after)).all (fun p => p.1 = p.2) → Burn.place ss xs o k = cells as o k) := by
  dsimp only
  by_cases hs : (as.map fun a => (a.before, a.after)).all (fun p => p.1 = p.2)
  · rw [Burn.prepare, if_pos hs]
    simp only [List.map_map]
    have hs' : ∀ a ∈ as, a.before = a.after := by simpa using hs
    obtain ⟨outs, h1, h2⟩ := lengths_same h hs'
    refine ⟨_, outs, hx, h1, h2, fun i j o k _ _ _ _ => ⟨?_, fun _ => place_same as o k⟩⟩
    rw [element_eq]
    congr 1
    exact place_same as o k
  · rw [Burn.prepare, if_neg hs]
    simp only [List.map_map]
    obtain ⟨outs, h1, h2⟩ := lengths_padded h
    have hz : List.zipWith (fun (p : Nat × Nat) x => p.1 + x + p.2) (as.map fun a => (a.before, a.after)) (as.map (·.input)) =
        as.map fun a => a.before + a.input + a.after := by
      clear h hx hs h1 h2
      induction as with
      | nil => rfl
      | cons a as ih => simp [ih]
    have hp : Burn.padSpatial fill (as.map fun a => (a.before, a.after)) x = Tensor.ofFn (n :: c :: as.map fun a => a.before + a.input + a.after)
        (fun i => match i with
          | i :: j :: r => Burn.element fill x i j (Burn.unpad (as.map fun a => (a.before, a.after)) (as.map (·.input)) r)
          | _ => fill) := by
      rw [← hz]
      unfold Burn.padSpatial
      split
      · rename_i n' c' xs he
        rw [hx] at he
        cases he
        rfl
      · rename_i hn
        exact absurd hx (hn _ _ _)
    refine ⟨_, outs, by rw [hp]; rfl, h1, h2, fun i j o k hi hj ho hk => ⟨?_, fun h => absurd h hs⟩⟩
    have := place_padded as ho hk
    simp only [Function.comp_def]
    revert this
    generalize Burn.place _ _ o k = r
    intro this
    cases r with
    | none =>
      dsimp only at this
      rw [this]
      rfl
    | some r =>
      dsimp only at this
      rw [hp]
      refine (Tensor.get_ofFn (by exact ⟨hi, hj, this.1⟩)).trans ?_
      dsimp only
      rw [this.2, element_eq]

theorem positions_length {as : List Axis} {outs : List Nat} (h : List.Forall₂ Axis.Positions as outs) : outs.length = as.length := h.length_eq.symm

/-! ### Modules -/

/-- A convolution module with parameters of the shapes it is made for. -/
theorem convModule_spec [AddCommMonoid α] [Mul α] {as : List Axis} {groups n cg mg : Nat} {x w : Tensor α} {b : Option (Tensor α)}
    (h : ∀ a ∈ as, a.Proper) (hg : 0 < groups) (hx : x.shape = n :: groups * cg :: as.map (·.input))
    (hw : w.shape = groups * mg :: cg :: as.map (·.kernel)) (hb : ∀ t, b = some t → t.shape = [groups * mg]) :
    ∃ y outs, Burn.convModule (cg * groups) (groups * mg) (as.map (·.kernel)) (as.map (·.stride)) (as.map (·.dilation))
      (as.map fun a => (a.before, a.after)) groups x w b = some y ∧ ConvT as groups n cg mg outs x w b y := by
  obtain ⟨xs, outs, h1, h2, h3, h4⟩ := prepare_spec (0 : α) h hx
  generalize hp : Burn.prepare 0 (as.map fun a => (a.before, a.after)) x = p at h1 h2 h4
  have hc : ∃ y, Burn.conv (Burn.slides p.1 (as.map (·.stride)) (as.map (·.dilation))) groups p.2 w b = some y ∧
      y.shape = n :: groups * mg :: outs ∧ ∀ i j o, i < n → j < groups * mg → InRange outs o → y.get (i :: j :: o) =
        ((List.range cg).map fun c => ((indices (as.map (·.kernel))).map fun k =>
          Burn.element 0 p.2 i (j / (groups * mg / groups) * cg + c) (Burn.place (Burn.slides p.1 (as.map (·.stride)) (as.map (·.dilation))) xs o k) *
            w.get (j :: c :: k)).sum).sum +
        b.elim 0 (fun b => b.get [j]) := by
    unfold Burn.conv
    split
    · rename_i n' c' xs' m' cg' ks' e1 e2
      rw [h1] at e1
      rw [hw] at e2
      cases e1
      cases e2
      rw [if_neg (by simp; omega), h2]
      exact ⟨_, rfl, rfl, fun i j o hi hj ho => (Tensor.get_ofFn (by exact ⟨hi, hj, ho⟩)).trans rfl⟩
    · rename_i hn
      exact absurd hw (hn _ _ _ _ _ _ h1)
  obtain ⟨y, hy, hsh, hv⟩ := hc
  refine ⟨y, outs, ?_, h3, hsh, ?_⟩
  · unfold Burn.convModule
    rw [if_neg]
    · dsimp only
      rw [hp]
      exact hy
    · rw [hw, Nat.mul_div_cancel _ hg]
      simp only [Nat.mul_mod_left, ne_eq, not_true_eq_false, false_or, not_or, not_exists, not_and]
      exact ⟨by omega, fun t ht h => h (hb t ht)⟩
  · intro i g j o hi hgr hj ho
    have hm : g * mg + j < groups * mg := by
      have := Nat.mul_le_mul_right mg (Nat.succ_le_of_lt hgr)
      rw [Nat.succ_mul] at this
      omega
    rw [hv i _ o hi hm ho]
    have hd : (g * mg + j) / (groups * mg / groups) = g := by
      rw [Nat.mul_div_cancel_left _ hg, Nat.add_comm, Nat.add_mul_div_right _ _ (by omega), Nat.div_eq_of_lt hj, Nat.zero_add]
    rw [hd]
    congr 2
    refine List.map_congr_left fun c hc => ?_
    congr 1
    refine List.map_congr_left fun k hk => ?_
    have hcg : g * cg + c < groups * cg := by
      have h5 := List.mem_range.1 hc
      have := Nat.mul_le_mul_right cg (Nat.succ_le_of_lt hgr)
      rw [Nat.succ_mul] at this
      omega
    rw [(h4 i _ o k hi hcg (by rw [ho.length, positions_length h3]) (by rw [(mem_indices.1 hk).length, List.length_map])).1]

omit [Inhabited α] in
theorem pool_max_le [LinearOrder α] (l : List α) (b : α) : b ≤ l.foldl max b ∧ ∀ a ∈ l, a ≤ l.foldl max b := by
  induction l generalizing b with
  | nil => simp
  | cons x xs ih =>
    obtain ⟨h1, h2⟩ := ih (max b x)
    refine ⟨le_trans (le_max_left _ _) h1, fun a ha => ?_⟩
    rcases List.mem_cons.1 ha with rfl | ha
    · exact le_trans (le_max_right _ _) h1
    · exact h2 a ha

omit [Inhabited α] in
theorem pool_max_mem [LinearOrder α] (l : List α) (b : α) : l.foldl max b = b ∨ l.foldl max b ∈ l := by
  induction l generalizing b with
  | nil => exact .inl rfl
  | cons x xs ih =>
    rcases ih (max b x) with h | h
    · rw [List.foldl_cons, h]
      rcases max_choice b x with h | h
      · exact .inl h
      · exact .inr (by rw [h]; exact List.mem_cons_self)
    · exact .inr (List.mem_cons_of_mem _ h)

/-- A module for the maximum. -/
theorem maxPoolModule_spec [LinearOrder α] [OrderBot α] {as : List Axis} {n c : Nat} {x : Tensor α}
    (h : ∀ a ∈ as, a.Proper) (hx : x.shape = n :: c :: as.map (·.input)) :
    ∃ y outs, Burn.maxPoolModule (as.map (·.kernel)) (as.map (·.stride)) (as.map (·.dilation)) (as.map fun a => (a.before, a.after)) x = some y ∧
      MaxPoolT as n c outs x y := by
  obtain ⟨xs, outs, h1, h2, h3, h4⟩ := prepare_spec (⊥ : α) h hx
  unfold Burn.maxPoolModule
  generalize Burn.prepare ⊥ (as.map fun a => (a.before, a.after)) x = p at h1 h2 h4
  dsimp only at h1 h2 h4 ⊢
  have hc : ∃ y, (match p.2.shape with
    | n :: c :: xs => (Burn.lengths (Burn.slides p.1 (as.map (·.stride)) (as.map (·.dilation))) xs (as.map (·.kernel))).map fun outs =>
      Tensor.ofFn (n :: c :: outs) fun i => match i with
        | i :: j :: o => ((indices (as.map (·.kernel))).map fun k =>
            Burn.element ⊥ p.2 i j (Burn.place (Burn.slides p.1 (as.map (·.stride)) (as.map (·.dilation))) xs o k)).foldl max ⊥
        | _ => ⊥
    | _ => none) = some y ∧
      y.shape = n :: c :: outs ∧ ∀ i j o, i < n → j < c → InRange outs o → y.get (i :: j :: o) =
        ((indices (as.map (·.kernel))).map fun k => padded ⊥ x i j (cells as o k)).foldl max ⊥ := by
    rw [h1]
    dsimp only
    rw [h2]
    refine ⟨_, rfl, rfl, fun i j o hi hj ho => (Tensor.get_ofFn (by exact ⟨hi, hj, ho⟩)).trans ?_⟩
    dsimp only
    congr 1
    refine List.map_congr_left fun k hk => ?_
    exact (h4 i j o k hi hj (by rw [ho.length, positions_length h3]) (by rw [(mem_indices.1 hk).length, List.length_map])).1
  obtain ⟨y, hy, hsh, hv⟩ := hc
  refine ⟨y, outs, hy, h3, hsh, ?_, ?_⟩
  · intro i j o k r hi hj ho hk hr
    rw [hv i j o hi hj ho]
    refine (pool_max_le _ _).2 _ (List.mem_map.2 ⟨k, mem_indices.2 hk, ?_⟩)
    rw [hr]
    rfl
  · rintro i j o hi hj ho ⟨k, r, hk, hr⟩
    rw [hv i j o hi hj ho]
    have hle := (pool_max_le ((indices (as.map (·.kernel))).map fun k => padded ⊥ x i j (cells as o k)) ⊥).2 (x.get (i :: j :: r))
      (List.mem_map.2 ⟨k, mem_indices.2 hk, by rw [hr]; rfl⟩)
    have hbot : ((indices (as.map (·.kernel))).map fun k => padded ⊥ x i j (cells as o k)).foldl max ⊥ = ⊥ →
        ∃ k r, InRange (as.map (·.kernel)) k ∧ cells as o k = some r ∧
          ((indices (as.map (·.kernel))).map fun k => padded ⊥ x i j (cells as o k)).foldl max ⊥ = x.get (i :: j :: r) := by
      intro e
      rw [e] at hle ⊢
      exact ⟨k, r, hk, hr, (le_bot_iff.1 hle).symm⟩
    rcases pool_max_mem ((indices (as.map (·.kernel))).map fun k => padded ⊥ x i j (cells as o k)) ⊥ with e | e
    · exact hbot e
    · obtain ⟨k', hk', e'⟩ := List.mem_map.1 e
      cases hc : cells as o k' with
      | none =>
        rw [hc] at e'
        exact hbot e'.symm
      | some r' =>
        rw [hc] at e'
        exact ⟨k', r', mem_indices.1 hk', hc, e'.symm⟩

omit [Inhabited α] in
theorem sum_filterMap [AddMonoid α] {β γ : Type} (l : List β) (g : β → Option γ) (f : γ → α) :
    ((l.filterMap g).map f).sum = (l.map fun b => (g b).elim 0 f).sum := by
  induction l with
  | nil => rfl
  | cons b l ih =>
    rw [List.filterMap_cons]
    cases h : g b <;> simp [h, ih]

/-- A module for the average, without dilation. -/
theorem avgPoolModule_spec [Field α] {as : List Axis} {n c : Nat} {x : Tensor α} {count : Bool}
    (h : ∀ a ∈ as, a.Proper) (hd : ∀ a ∈ as, a.dilation = 1) (hx : x.shape = n :: c :: as.map (·.input))
    (hc : count = true ∨ ∀ a ∈ as, a.before = a.after) :
    ∃ y outs, Burn.avgPoolModule (as.map (·.kernel)) (as.map (·.stride)) (as.map fun a => (a.before, a.after)) count x = some y ∧
      AveragePoolT as count n c outs x y := by
  obtain ⟨xs, outs, h1, h2, h3, h4⟩ := prepare_spec (0 : α) h hx
  have hd' : (as.map (·.kernel)).map (fun _ => 1) = as.map (·.dilation) := by
    rw [List.map_map]
    exact List.map_congr_left fun a ha => (hd a ha).symm
  have hs : count = false → (as.map fun a => (a.before, a.after)).all (fun p => p.1 = p.2) := by
    rintro rfl
    simpa using hc
  unfold Burn.avgPoolModule
  rw [if_neg (by cases count <;> simp_all)]
  rw [hd']
  generalize Burn.prepare 0 (as.map fun a => (a.before, a.after)) x = p at h1 h2 h4
  dsimp only at h1 h2 h4 ⊢
  generalize Burn.slides p.1 (as.map (·.stride)) (as.map (·.dilation)) = ss at h2 h4
  have hy : ∃ y, (match p.2.shape with
    | n :: c :: xs => (Burn.lengths ss xs (as.map (·.kernel))).map fun outs => Tensor.ofFn (n :: c :: outs) fun i => match i with
      | i :: j :: o =>
        ((indices (as.map (·.kernel))).map fun k => Burn.element 0 p.2 i j (Burn.place ss xs o k)).sum /
          ((if count then prodShape (as.map (·.kernel)) else (indices (as.map (·.kernel))).countP fun k => (Burn.place ss xs o k).isSome : Nat) : α)
      | _ => 0
    | _ => none) = some y ∧
      y.shape = n :: c :: outs ∧ ∀ i j o, i < n → j < c → InRange outs o → y.get (i :: j :: o) =
        ((indices (as.map (·.kernel))).map fun k => padded 0 x i j (cells as o k)).sum /
          ((if count then prodShape (as.map (·.kernel)) else (indices (as.map (·.kernel))).countP fun k => (cells as o k).isSome : Nat) : α) := by
    rw [h1]
    dsimp only
    rw [h2]
    refine ⟨_, rfl, rfl, fun i j o hi hj ho => (Tensor.get_ofFn (by exact ⟨hi, hj, ho⟩)).trans ?_⟩
    dsimp only
    have hl : ∀ k ∈ indices (as.map (·.kernel)), k.length = as.length := fun k hk => by rw [(mem_indices.1 hk).length, List.length_map]
    have ho' : o.length = as.length := by rw [ho.length, positions_length h3]
    congr 2
    · refine List.map_congr_left fun k hk => (h4 i j o k hi hj ho' (hl k hk)).1
    · cases count with
      | true => rfl
      | false =>
        simp only [Bool.false_eq_true, if_false]
        refine List.countP_congr fun k hk => ?_
        rw [(h4 i j o k hi hj ho' (hl k hk)).2 (hs rfl)]
  obtain ⟨y, hy, hsh, hv⟩ := hy
  refine ⟨y, outs, hy, h3, hsh, fun i j o hi hj ho => ?_⟩
  dsimp only
  rw [hv i j o hi hj ho, sum_filterMap, List.length_filterMap_eq_countP]
  congr 2
  refine List.map_congr_left fun k _ => ?_
  cases cells as o k <;> rfl

/-! ### Averages of whole channels -/

theorem adaptiveCells_one (xs : List Nat) : Burn.adaptiveCells xs (xs.map fun _ => 1) (xs.map fun _ => 0) = indices xs := by
  induction xs with
  | nil => rfl
  | cons x xs ih =>
    have : Burn.adaptiveRange x 1 0 = List.range x := by
      unfold Burn.adaptiveRange
      rw [List.filter_eq_self]
      intro i hi
      have := List.mem_range.1 hi
      simp [this]
    simp only [List.map_cons, Burn.adaptiveCells, this, ih, indices]

theorem adaptive_spec [Field α] {xs : List Nat} {n c : Nat} {x : Tensor α} (hx : x.shape = n :: c :: xs) :
    ∃ y, Burn.adaptiveAvgPool (xs.map fun _ => 1) x = some y ∧ GlobalAveragePoolT x y := by
  unfold Burn.adaptiveAvgPool
  split
  · rename_i n' c' xs' e
    rw [hx] at e
    cases e
    rw [if_neg (by simp)]
    refine ⟨_, rfl, ⟨n, c, xs, hx, rfl, fun i j hi hj => ?_⟩⟩
    refine (Tensor.get_ofFn ?_).trans ?_
    · refine ⟨hi, hj, ?_⟩
      clear hx
      induction xs with
      | nil => trivial
      | cons x xs ih => exact ⟨Nat.one_pos, ih⟩
    · dsimp only
      rw [adaptiveCells_one, indices_length]
  · rename_i hn
    exact absurd hx (hn _ _ _)

/-! ### Transposed convolution -/

theorem tlengths_spec {as : List TAxis} (hp : ∀ a ∈ as, a.pad.1 = a.pad.2) (hk : ∀ a ∈ as, 0 < a.kernel ∧ 0 < a.stride ∧ 0 < a.input)
    (hl : ∀ a ∈ as, 0 ≤ transposedLength a.input a.pad.1 a.pad.2 a.kernel a.stride a.dilation a.outPad) :
    ∃ outs, Burn.tlengths (Burn.tslides (as.map (·.pad.1)) (as.map (·.stride)) (as.map (·.dilation)) (as.map (·.outPad))) (as.map (·.input))
      (as.map (·.kernel)) = some outs ∧
      List.Forall₂ (fun (a : TAxis) (l : Nat) => transposedLength a.input a.pad.1 a.pad.2 a.kernel a.stride a.dilation a.outPad = (l : Int)) as outs := by
  induction as with
  | nil => exact ⟨[], rfl, .nil⟩
  | cons a as ih =>
    obtain ⟨outs, h1, h2⟩ := ih (fun b hb => hp b (List.mem_cons_of_mem _ hb)) (fun b hb => hk b (List.mem_cons_of_mem _ hb))
      (fun b hb => hl b (List.mem_cons_of_mem _ hb))
    have hp := hp a List.mem_cons_self
    obtain ⟨hk1, hs, hi⟩ := hk a List.mem_cons_self
    have hl := hl a List.mem_cons_self
    have e : transposedLength a.input a.pad.1 a.pad.2 a.kernel a.stride a.dilation a.outPad =
        ((a.input - 1) * a.stride + a.dilation * (a.kernel - 1) + a.outPad + 1 : Nat) - 2 * (a.pad.1 : Int) := by
      obtain ⟨x, hx⟩ : ∃ x, a.input = x + 1 := ⟨a.input - 1, by omega⟩
      obtain ⟨k, hk⟩ : ∃ k, a.kernel = k + 1 := ⟨a.kernel - 1, by omega⟩
      simp only [transposedLength, hx, hk, ← hp, Nat.add_sub_cancel]
      push_cast
      ring
    rw [e] at hl
    refine ⟨((a.input - 1) * a.stride + a.dilation * (a.kernel - 1) + a.outPad + 1 - 2 * a.pad.1) :: outs, ?_, .cons ?_ h2⟩
    · simp only [List.map_cons, Burn.tslides, Burn.tlengths, h1, Burn.TSlide.length]
      rw [if_neg (by omega)]
    · rw [e]
      omega

omit [Inhabited α] in
/-- The one input element that the cell `k` of the weight brings to `o`. -/
theorem sum_source [AddCommMonoid α] {as : List TAxis} (hs : ∀ a ∈ as, 0 < a.stride) {o k : List Nat} (ho : o.length = as.length)
    (hk : k.length = as.length) (f : List Nat → α) :
    ((indices (as.map (·.input))).map fun r => if addsAll as r k o then f r else 0).sum =
      (Burn.source (Burn.tslides (as.map (·.pad.1)) (as.map (·.stride)) (as.map (·.dilation)) (as.map (·.outPad))) (as.map (·.input)) o k).elim 0 f := by
  induction as generalizing o k f with
  | nil => simp [indices, addsAll, Burn.source, Burn.tslides]
  | cons a as ih =>
    rcases o with _ | ⟨o, os⟩
    · simp at ho
    rcases k with _ | ⟨k, ks⟩
    · simp at hk
    simp only [List.length_cons, Nat.add_right_cancel_iff] at ho hk
    have ih := fun f => ih (fun b hb => hs b (List.mem_cons_of_mem _ hb)) ho hk f
    have hs := hs a List.mem_cons_self
    simp only [List.map_cons, indices, sum_map_flatMap, List.map_map, Function.comp_def, addsAll, Burn.tslides, Burn.source, Bool.and_eq_true,
      decide_eq_true_eq]
    have inner : ∀ i, ((indices (as.map (·.input))).map fun r => if a.Adds i k o ∧ addsAll as r ks os = true then f (i :: r) else 0).sum =
        if a.Adds i k o then (Burn.source (Burn.tslides (as.map (·.pad.1)) (as.map (·.stride)) (as.map (·.dilation)) (as.map (·.outPad)))
          (as.map (·.input)) os ks).elim 0 (fun r => f (i :: r)) else 0 := by
      intro i
      by_cases h : a.Adds i k o
      · simp only [h, true_and, if_true]
        exact ih _
      · simp [h]
    simp only [inner]
    generalize hq : (Burn.source (Burn.tslides (as.map (·.pad.1)) (as.map (·.stride)) (as.map (·.dilation)) (as.map (·.outPad)))
          (as.map (·.input)) os ks) = q
    generalize ht : (o : Int) + a.pad.1 - k * a.dilation = t
    have hadd : ∀ i, a.Adds i k o ↔ (i : Int) * a.stride = t := by
      intro i
      unfold TAxis.Adds
      rw [← ht]
      constructor
      · intro h
        have : ((i * a.stride + k * a.dilation : Nat) : Int) = (o + a.pad.1 : Nat) := by rw [h]
        push_cast at this
        omega
      · intro h
        have : ((i * a.stride + k * a.dilation : Nat) : Int) = (o + a.pad.1 : Nat) := by
          push_cast
          omega
        exact_mod_cast this
    by_cases c : t < 0 ∨ t % a.stride ≠ 0 ∨ a.input ≤ (t / a.stride).toNat
    · rw [if_pos c]
      refine (List.sum_eq_zero ?_).trans rfl
      intro v hv
      obtain ⟨i, hi, rfl⟩ := List.mem_map.1 hv
      have hi := List.mem_range.1 hi
      rw [if_neg]
      rw [hadd]
      intro e
      rw [← e] at c
      have hs' : (a.stride : Int) ≠ 0 := by omega
      rw [Int.mul_emod_left, Int.mul_ediv_cancel _ hs'] at c
      have : (0 : Int) ≤ i * a.stride := by positivity
      simp only [Int.toNat_natCast] at c
      omega
    · rw [if_neg c]
      have hs' : (a.stride : Int) ≠ 0 := by omega
      have hdiv : (a.stride : Int) * (t / a.stride) = t := Int.mul_ediv_cancel' (Int.dvd_of_emod_eq_zero (by omega))
      have h0 : 0 ≤ t / a.stride := Int.ediv_nonneg (by omega) (by omega)
      rw [sum_range_single (n := (t / a.stride).toNat) (by omega)]
      · rw [if_pos]
        · cases q <;> rfl
        · rw [hadd, Int.toNat_of_nonneg h0, Int.mul_comm]
          exact hdiv
      · intro m hm
        rw [if_neg]
        rw [hadd]
        intro e
        apply hm
        rw [← e, Int.mul_ediv_cancel _ hs', Int.toNat_natCast]

omit [Inhabited α] in
theorem sum_swap [AddCommMonoid α] {β γ : Type} (l : List β) (m : List γ) (f : β → γ → α) :
    (l.map fun b => (m.map fun c => f b c).sum).sum = (m.map fun c => (l.map fun b => f b c).sum).sum := by
  induction l with
  | nil => simp
  | cons b l ih =>
    simp only [List.map_cons, List.sum_cons, ih]
    rw [← List.sum_map_add]

/-- A module for transposed convolution. -/
theorem convTransposeModule_spec [AddCommMonoid α] [Mul α] {as : List TAxis} {groups n cg mg : Nat} {x w : Tensor α} {b : Option (Tensor α)}
    (hp : ∀ a ∈ as, a.pad.1 = a.pad.2) (hk : ∀ a ∈ as, 0 < a.kernel ∧ 0 < a.stride ∧ 0 < a.input)
    (hl : ∀ a ∈ as, 0 ≤ transposedLength a.input a.pad.1 a.pad.2 a.kernel a.stride a.dilation a.outPad)
    (hg : 0 < groups) (hx : x.shape = n :: groups * cg :: as.map (·.input))
    (hw : w.shape = groups * cg :: mg :: as.map (·.kernel)) (hb : ∀ t, b = some t → t.shape = [groups * mg]) :
    ∃ y outs, Burn.convTransposeModule (groups * cg) (mg * groups) (as.map (·.kernel))
      (Burn.tslides (as.map (·.pad.1)) (as.map (·.stride)) (as.map (·.dilation)) (as.map (·.outPad))) groups x w b = some y ∧
      ConvTransposeT as groups n cg mg outs x w b y := by
  obtain ⟨outs, h1, h2⟩ := tlengths_spec hp hk hl
  have h3 : outs.length = as.length := h2.length_eq.symm
  unfold Burn.convTransposeModule
  rw [if_neg]
  · rw [hx]
    dsimp only
    rw [if_neg (by simp), h1]
    refine ⟨_, outs, rfl, h2, by rw [Nat.mul_comm groups mg]; rfl, fun i g j o hi hgr hj ho => ?_⟩
    have hm : g * mg + j < mg * groups := by
      have := Nat.mul_le_mul_right mg (Nat.succ_le_of_lt hgr)
      rw [Nat.succ_mul] at this
      rw [Nat.mul_comm mg]
      omega
    refine (Tensor.get_ofFn (by exact ⟨hi, hm, ho⟩)).trans ?_
    dsimp only
    have hmg : mg * groups / groups = mg := Nat.mul_div_cancel _ hg
    have hcg : groups * cg / groups = cg := Nat.mul_div_cancel_left _ hg
    have hd : (g * mg + j) / mg = g := by
      rw [Nat.add_comm, Nat.add_mul_div_right _ _ (by omega), Nat.div_eq_of_lt hj, Nat.zero_add]
    have hmod : (g * mg + j) % mg = j := by
      rw [Nat.add_comm, Nat.add_mul_mod_self_right, Nat.mod_eq_of_lt hj]
    rw [hmg, hcg, hd, hmod]
    congr 2
    refine List.map_congr_left fun c _ => ?_
    rw [sum_swap]
    congr 1
    refine List.map_congr_left fun k hk' => ?_
    rw [sum_source (fun a ha => (hk a ha).2.1) (by rw [ho.length, h3]) (by rw [(mem_indices.1 hk').length, List.length_map])
      (fun r => x.get (i :: (g * cg + c) :: r) * w.get ((g * cg + c) :: j :: k))]
    generalize Burn.source _ _ o k = q
    cases q <;> rfl
  · rw [hw, Nat.mul_div_cancel _ hg]
    simp only [Nat.mul_mod_left, Nat.mul_mod_right, ne_eq, not_true_eq_false, false_or, not_or, not_exists, not_and]
    exact ⟨by omega, fun t ht h => h (by rw [hb t ht, Nat.mul_comm])⟩

end OnnxIR
