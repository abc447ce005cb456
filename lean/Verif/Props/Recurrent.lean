import Verif.Model.Recurrent
import Verif.Lemmas.Box

/-!
# C64: LSTM, GRU and RNN
-/

namespace OnnxIR

open Gen

variable {α : Type} [Inhabited α]

/-! ### Stored weights -/

theorem squeeze_front {a b : Nat} {f : List Nat → α} (ha : a ≠ 1) (hb : b ≠ 1) :
    Burn.squeezeOnes (Tensor.ofFn [1, a, b] f) 2 = some (Tensor.ofFn [a, b] fun i => f (0 :: i)) := by
  have hf : (Tensor.ofFn [1, a, b] f).shape.filter (· ≠ 1) = [a, b] := by simp [Tensor.ofFn, ha, hb]
  unfold Burn.squeezeOnes
  rw [hf, if_pos (show [a, b].length = 2 from rfl)]
  refine reshape_ofFn (by simp [prodShape]) fun i hi => ⟨0 :: i, ⟨by omega, hi⟩, by simp [flatIdx], rfl⟩

theorem squeeze_front_one {a : Nat} {f : List Nat → α} (ha : a ≠ 1) :
    Burn.squeezeOnes (Tensor.ofFn [1, a] f) 1 = some (Tensor.ofFn [a] fun i => f (0 :: i)) := by
  have hf : (Tensor.ofFn [1, a] f).shape.filter (· ≠ 1) = [a] := by simp [Tensor.ofFn, ha]
  unfold Burn.squeezeOnes
  rw [hf, if_pos (show [a].length = 1 from rfl)]
  refine reshape_ofFn (by simp [prodShape]) fun i hi => ⟨0 :: i, ⟨by omega, hi⟩, by simp [flatIdx], rfl⟩

theorem box3 {T : Tensor α} {D a b d : Nat} (h : T.shape = [D, a, b]) (hd : d < D) :
    Burn.sliceBox T [(d, d + 1), (0, a), (0, b)] = some (Tensor.ofFn [1, a, b] fun i => T.get [d, i.getD 1 0, i.getD 2 0]) := by
  rw [sliceBox_ofFn (by simp [h])]
  · congr 1
    have e : ([(d, d + 1), (0, a), (0, b)].map fun r : Nat × Nat => r.2 - r.1) = [1, a, b] := by simp
    rw [e]
    refine Tensor.ofFn_congr fun i hi => ?_
    obtain ⟨x, y, z, rfl, hx, hy, hz⟩ := inRange3 hi
    have : x = 0 := by omega
    simp [this]
  · intro k hk hs
    simp only [h]
    match k, hk with
    | 0, _ => exact ⟨Nat.le_succ _, hd⟩
    | 1, _ => exact ⟨Nat.zero_le _, Nat.le_refl _⟩
    | 2, _ => exact ⟨Nat.zero_le _, Nat.le_refl _⟩

theorem box2 {T : Tensor α} {D a d n : Nat} (h : T.shape = [D, a]) (hd : d + n ≤ D) :
    Burn.sliceBox T [(d, d + n), (0, a)] = some (Tensor.ofFn [n, a] fun i => T.get [d + i.getD 0 0, i.getD 1 0]) := by
  rw [sliceBox_ofFn (by simp [h])]
  · congr 1
    have e : ([(d, d + n), (0, a)].map fun r : Nat × Nat => r.2 - r.1) = [n, a] := by simp
    rw [e]
    refine Tensor.ofFn_congr fun i hi => ?_
    obtain ⟨x, y, rfl, hx, hy⟩ := inRange2 hi
    simp
  · intro k hk hs
    simp only [h]
    match k, hk with
    | 0, _ => exact ⟨Nat.le_add_right _ _, hd⟩
    | 1, _ => exact ⟨Nat.zero_le _, Nat.le_refl _⟩

theorem box1 {T : Tensor α} {D d n : Nat} (h : T.shape = [D]) (hd : d + n ≤ D) :
    Burn.sliceBox T [(d, d + n)] = some (Tensor.ofFn [n] fun i => T.get [d + i.getD 0 0]) := by
  rw [sliceBox_ofFn (by simp [h])]
  · congr 1
    have e : ([(d, d + n)].map fun r : Nat × Nat => r.2 - r.1) = [n] := by simp
    rw [e]
    refine Tensor.ofFn_congr fun i hi => ?_
    obtain ⟨x, rfl, hx⟩ := inRange1 hi
    simp
  · intro k hk hs
    simp only [h]
    match k, hk with
    | 0, _ => exact ⟨Nat.le_add_right _ _, hd⟩

/-- The weights of one direction, when neither size is 1. -/
theorem dirWeights_eq {G H I D d : Nat} {W R : Tensor α} {B : Option (Tensor α)} (hW : W.shape = [D, G * H, I])
    (hR : R.shape = [D, G * H, H]) (hB : ∀ b ∈ B, b.shape = [D, 2 * G * H]) (hd : d < D) (hI : I ≠ 1) (hH : H ≠ 1) :
    dirWeights G H I W R B d = some (Tensor.ofFn [G * H, I] fun i => W.get [d, i.getD 0 0, i.getD 1 0],
      Tensor.ofFn [G * H, H] fun i => R.get [d, i.getD 0 0, i.getD 1 0],
      B.map fun b => Tensor.ofFn [2 * G * H] fun i => b.get [d, i.getD 0 0]) := by
  have hGH : G * H ≠ 1 := fun e => hH (Nat.eq_one_of_mul_eq_one_left e)
  have h2 : 2 * G * H ≠ 1 := fun e => hH (Nat.eq_one_of_mul_eq_one_left e)
  unfold dirWeights
  rw [box3 hW hd, box3 hR hd, Option.bind_some, Option.bind_some, squeeze_front hGH hI, squeeze_front hGH hH]
  match B, hB with
  | none, _ => rfl
  | some b, hB =>
    have hb : b.shape = [D, 2 * G * H] := hB b rfl
    simp only [Option.bind_eq_bind, Option.bind_some]
    rw [box2 hb (by omega), Option.bind_some, squeeze_front_one h2]
    simp

/-- The parameters that end up in the module for gate `g`. -/
def gateOf [Add α] [Zero α] (combine : Bool) (G H I : Nat) (W R : Tensor α) (B : Option (Tensor α)) (d g : Nat) : Burn.Gate α where
  inp := ⟨Tensor.ofFn [I, H] fun i => W.get [d, g * H + i.getD 1 0, i.getD 0 0],
    B.map fun b => Tensor.ofFn [H] fun i => if combine then b.get [d, g * H + i.getD 0 0] + b.get [d, G * H + g * H + i.getD 0 0]
      else b.get [d, g * H + i.getD 0 0]⟩
  hid := ⟨Tensor.ofFn [H, H] fun i => R.get [d, g * H + i.getD 1 0, i.getD 0 0],
    B.map fun b => Tensor.ofFn [H] fun i => if combine then 0 else b.get [d, G * H + g * H + i.getD 0 0]⟩

/-- The stored tensors of a gate by path. -/
def gateList (g : Burn.Gate α) (path : String) : List (Snapshot α) :=
  match g.inp.bias, g.hid.bias with
  | some wb, some rb => [(path ++ ".input_transform.weight", g.inp.weight), (path ++ ".input_transform.bias", wb),
      (path ++ ".hidden_transform.weight", g.hid.weight), (path ++ ".hidden_transform.bias", rb)]
  | _, _ => [(path ++ ".input_transform.weight", g.inp.weight), (path ++ ".hidden_transform.weight", g.hid.weight)]

theorem gate_bound {G H g : Nat} (hg : g < G) : g * H + H ≤ G * H := by
  have := Nat.mul_le_mul_right H (show g + 1 ≤ G from hg)
  rwa [Nat.add_mul, Nat.one_mul] at this

theorem gateSnapshots_eq [Add α] [Zero α] {combine : Bool} {G H I d g : Nat} {W R : Tensor α} {B : Option (Tensor α)}
    (path : String) (hg : g < G) :
    gateSnapshots combine G H I (Tensor.ofFn [G * H, I] fun i => W.get [d, i.getD 0 0, i.getD 1 0])
      (Tensor.ofFn [G * H, H] fun i => R.get [d, i.getD 0 0, i.getD 1 0])
      (B.map fun b => Tensor.ofFn [2 * G * H] fun i => b.get [d, i.getD 0 0]) path g =
    some (gateList (gateOf combine G H I W R B d g) path) := by
  have hb := gate_bound (H := H) hg
  have hw : ∀ {J : Nat} {T : Tensor α}, (Burn.sliceBox (Tensor.ofFn [G * H, J] fun i => T.get [d, i.getD 0 0, i.getD 1 0])
      [(g * H, g * H + H), (0, J)]).bind (Burn.swapDims · 0 1) =
      some (Tensor.ofFn [J, H] fun i => T.get [d, g * H + i.getD 1 0, i.getD 0 0]) := by
    intro J T
    rw [box2 (D := G * H) rfl hb, Option.bind_some, swapDims_two]
    congr 1
    refine Tensor.ofFn_congr fun i hi => ?_
    obtain ⟨x, y, rfl, hx, hy⟩ := inRange2 hi
    exact Tensor.get_ofFn (s := [G * H, J]) (i := [g * H + y, x]) ⟨by omega, hx, trivial⟩
  unfold gateSnapshots
  rw [hw, hw]
  match B with
  | none => rfl
  | some b =>
    have hbias : ∀ {p : Nat}, p + H ≤ 2 * G * H → Burn.sliceBox (Tensor.ofFn [2 * G * H] fun i => b.get [d, i.getD 0 0])
        [(p, p + H)] = some (Tensor.ofFn [H] fun i => b.get [d, p + i.getD 0 0]) := by
      intro p hp
      rw [box1 (D := 2 * G * H) rfl hp]
      congr 1
      refine Tensor.ofFn_congr fun i hi => ?_
      obtain ⟨x, rfl, hx⟩ := inRange1 hi
      exact Tensor.get_ofFn (s := [2 * G * H]) (i := [p + x]) ⟨by omega, trivial⟩
    have e2 : 2 * G * H = G * H + G * H := by rw [Nat.mul_assoc]; omega
    simp only [Option.map_some, Option.bind_eq_bind, Option.bind_some]
    rw [hbias (by omega), hbias (by omega)]
    simp only [Option.bind_some]
    cases combine
    · rfl
    · simp only [if_true]
      have : (Tensor.ofFn (Tensor.ofFn [H] fun i => b.get [d, g * H + i.getD 0 0]).shape fun i =>
          (Tensor.ofFn [H] fun i => b.get [d, g * H + i.getD 0 0]).get i +
            (Tensor.ofFn [H] fun i => b.get [d, G * H + g * H + i.getD 0 0]).get i) =
          Tensor.ofFn [H] fun i => b.get [d, g * H + i.getD 0 0] + b.get [d, G * H + g * H + i.getD 0 0] := by
        refine Tensor.ofFn_congr fun i hi => ?_
        have hi : InRange [H] i := hi
        rw [Tensor.get_ofFn hi, Tensor.get_ofFn hi]
      have hz : Burn.zip (· + ·) (Tensor.ofFn [H] fun i => b.get [d, g * H + i.getD 0 0])
          (Tensor.ofFn [H] fun i => b.get [d, G * H + g * H + i.getD 0 0]) =
          some (Tensor.ofFn [H] fun i => b.get [d, g * H + i.getD 0 0] + b.get [d, G * H + g * H + i.getD 0 0]) := by
        rw [← this]
        exact burn_zip_same rfl
      rw [hz]
      rfl

/-- All stored tensors. -/
theorem snapshots_eq [Add α] [Zero α] {combine : Bool} {G H I : Nat} {W R : Tensor α} {B : Option (Tensor α)} {dir : RecDir}
    {names : List (String × Nat)} (hn : ∀ n ∈ names, n.2 < G) (hW : W.shape = [dir.count, G * H, I])
    (hR : R.shape = [dir.count, G * H, H]) (hB : ∀ b ∈ B, b.shape = [dir.count, 2 * G * H]) (hI : I ≠ 1) (hH : H ≠ 1) :
    snapshots combine names G H I W R B dir = some ((prefixes dir).zipIdx.map fun p =>
      (names.map fun n => gateList (gateOf combine G H I W R B p.2 n.2) (p.1 ++ n.1)).flatten).flatten := by
  unfold snapshots
  have hlen : (prefixes dir).length = dir.count := by cases dir <;> rfl
  have hm : ∀ p ∈ (prefixes dir).zipIdx, (do
      let (w, r, b) ← dirWeights G H I W R B p.2
      let gs ← names.mapM fun (n, g) => gateSnapshots combine G H I w r b (p.1 ++ n) g
      pure gs.flatten : Option (List (Snapshot α))) =
      some (names.map fun n => gateList (gateOf combine G H I W R B p.2 n.2) (p.1 ++ n.1)).flatten := by
    intro p hp
    have hd : p.2 < dir.count := by
      have := List.mem_zipIdx hp
      omega
    rw [dirWeights_eq hW hR hB hd hI hH]
    simp only [Option.bind_eq_bind, Option.bind_some]
    rw [mapM_some (f := fun n : String × Nat => gateSnapshots combine G H I _ _ _ (p.1 ++ n.1) n.2)
      (fun n hn' => gateSnapshots_eq _ (hn n hn'))]
    rfl
  exact congrArg (Option.bind · fun parts => some parts.flatten) (mapM_some hm)

/-- The directions of a node. -/
theorem dir_cases {dir : RecDir} {d : Nat} (hd : d < dir.count) : d = 0 ∨ dir = .bidirectional ∧ d = 1 := by
  cases dir <;> simp [RecDir.count] at hd <;> simp <;> omega

theorem lstm_load [Add α] [Zero α] (H I : Nat) (W R : Tensor α) (B : Option (Tensor α)) (dir : RecDir) {d : Nat} (hd : d < dir.count) :
    let snaps := ((prefixes dir).zipIdx.map fun p =>
      (lstmNames.map fun n => gateList (gateOf true 4 H I W R B p.2 n.2) (p.1 ++ n.1)).flatten).flatten
    loadGate B.isSome snaps (Burn.cellPath dir d ++ "input_gate") = some (gateOf true 4 H I W R B d 0) ∧
    loadGate B.isSome snaps (Burn.cellPath dir d ++ "forget_gate") = some (gateOf true 4 H I W R B d 2) ∧
    loadGate B.isSome snaps (Burn.cellPath dir d ++ "output_gate") = some (gateOf true 4 H I W R B d 1) ∧
    loadGate B.isSome snaps (Burn.cellPath dir d ++ "cell_gate") = some (gateOf true 4 H I W R B d 3) := by
  intro snaps
  obtain rfl | ⟨rfl, rfl⟩ := dir_cases hd
  · cases B <;> cases dir <;> exact ⟨rfl, rfl, rfl, rfl⟩
  · cases B <;> exact ⟨rfl, rfl, rfl, rfl⟩

theorem gru_load [Add α] [Zero α] (H I : Nat) (W R : Tensor α) (B : Option (Tensor α)) (dir : RecDir) {d : Nat} (hd : d < dir.count) :
    let snaps := ((prefixes dir).zipIdx.map fun p =>
      (gruNames.map fun n => gateList (gateOf false 3 H I W R B p.2 n.2) (p.1 ++ n.1)).flatten).flatten
    loadGate B.isSome snaps (Burn.cellPath dir d ++ "update_gate") = some (gateOf false 3 H I W R B d 0) ∧
    loadGate B.isSome snaps (Burn.cellPath dir d ++ "reset_gate") = some (gateOf false 3 H I W R B d 1) ∧
    loadGate B.isSome snaps (Burn.cellPath dir d ++ "new_gate") = some (gateOf false 3 H I W R B d 2) := by
  intro snaps
  obtain rfl | ⟨rfl, rfl⟩ := dir_cases hd
  · cases B <;> cases dir <;> exact ⟨rfl, rfl, rfl⟩
  · cases B <;> exact ⟨rfl, rfl, rfl⟩

theorem rnn_load [Add α] [Zero α] (H I : Nat) (W R : Tensor α) (B : Option (Tensor α)) (dir : RecDir) {d : Nat} (hd : d < dir.count) :
    loadGate B.isSome ((prefixes dir).zipIdx.map fun p =>
      (rnnNames.map fun n => gateList (gateOf true 1 H I W R B p.2 n.2) (p.1 ++ n.1)).flatten).flatten (Burn.cellPath dir d ++ "gate") =
      some (gateOf true 1 H I W R B d 0) := by
  obtain rfl | ⟨rfl, rfl⟩ := dir_cases hd
  · cases B <;> cases dir <;> rfl
  · cases B <;> rfl

/-! ### One step -/

theorem sumTo_congr [AddMonoid α] {n : Nat} {f g : Nat → α} (h : ∀ m, m < n → f m = g m) : sumTo n f = sumTo n g := by
  unfold sumTo
  rw [List.map_congr_left fun m hm => h m (List.mem_range.1 hm)]

section Ring

variable [CommRing α] [LinearOrder α]

theorem inp_run {combine : Bool} {G H I d g j : Nat} {W R : Tensor α} {B : Option (Tensor α)} {x : Nat → α} (hj : j < H) :
    (gateOf combine G H I W R B d g).inp.run I x j = (Onnx.gates G H W R B d).x I g j x +
      ((Onnx.gates G H W R B d).wb g j + if combine then (Onnx.gates G H W R B d).rb g j else 0) := by
  unfold Burn.Linear.run Onnx.Gates.x
  congr 1
  · refine sumTo_congr fun m hm => ?_
    congr 1
    exact Tensor.get_ofFn (s := [I, H]) (i := [m, j]) ⟨hm, hj, trivial⟩
  · cases B with
    | none => cases combine <;> simp [gateOf, Onnx.gates]
    | some b =>
      refine (Tensor.get_ofFn (s := [H]) (i := [j]) ⟨hj, trivial⟩).trans ?_
      cases combine <;> simp [Onnx.gates]

theorem hid_run {combine : Bool} {G H I d g j : Nat} {W R : Tensor α} {B : Option (Tensor α)} {h h' : Nat → α} (hj : j < H)
    (hh : ∀ m, m < H → h m = h' m) :
    (gateOf combine G H I W R B d g).hid.run H h j = (Onnx.gates G H W R B d).h H g j h' +
      if combine then 0 else (Onnx.gates G H W R B d).rb g j := by
  unfold Burn.Linear.run Onnx.Gates.h
  congr 1
  · refine sumTo_congr fun m hm => ?_
    rw [hh m hm]
    congr 1
    exact Tensor.get_ofFn (s := [H, H]) (i := [m, j]) ⟨hm, hj, trivial⟩
  · cases B with
    | none => cases combine <;> simp [gateOf, Onnx.gates]
    | some b =>
      refine (Tensor.get_ofFn (s := [H]) (i := [j]) ⟨hj, trivial⟩).trans ?_
      cases combine <;> simp [Onnx.gates]

theorem gate_run {combine : Bool} {G H I d g j : Nat} {W R : Tensor α} {B : Option (Tensor α)} {x h h' : Nat → α} (hj : j < H)
    (hh : ∀ m, m < H → h m = h' m) :
    (gateOf combine G H I W R B d g).run I H x h j = (Onnx.gates G H W R B d).x I g j x + (Onnx.gates G H W R B d).h H g j h' +
      (Onnx.gates G H W R B d).wb g j + (Onnx.gates G H W R B d).rb g j := by
  unfold Burn.Gate.run
  rw [inp_run hj, hid_run hj hh]
  cases combine <;> simp <;> ring

/-- Two states that agree on the units that exist. -/
def SameUnits (H : Nat) (s t : (Nat → α) × (Nat → α)) : Prop := ∀ j, j < H → s.1 j = t.1 j ∧ s.2 j = t.2 j

theorem lstm_step {f g h : α → α} {couple : Bool} {H I d : Nat} {W R : Tensor α} {B : Option (Tensor α)} {x : Nat → α}
    {s t : (Nat → α) × (Nat → α)} (hs : SameUnits H s t) :
    SameUnits H (Burn.lstmStep f g h none couple I H (gateOf true 4 H I W R B d 0) (gateOf true 4 H I W R B d 2)
      (gateOf true 4 H I W R B d 1) (gateOf true 4 H I W R B d 3) x s)
      (Onnx.lstmStep f g h none couple I H (Onnx.gates 4 H W R B d) x t) := by
  intro j hj
  have hh : ∀ m, m < H → s.1 m = t.1 m := fun m hm => (hs m hm).1
  unfold Burn.lstmStep Onnx.lstmStep
  simp only [clipTo, gate_run hj hh, (hs j hj).2, and_self]

theorem gru_step {f g : α → α} {lin : Bool} {H I d : Nat} {W R : Tensor α} {B : Option (Tensor α)} {x : Nat → α}
    {s t : Nat → α} (hs : ∀ j, j < H → s j = t j) :
    ∀ j, j < H → Burn.gruStep f g lin I H (gateOf false 3 H I W R B d 0) (gateOf false 3 H I W R B d 1)
      (gateOf false 3 H I W R B d 2) x s j = Onnx.gruStep f g none lin I H (Onnx.gates 3 H W R B d) x t j := by
  intro j hj
  unfold Burn.gruStep Onnx.gruStep
  simp only [clipTo]
  have hr : ∀ m, m < H → f ((gateOf false 3 H I W R B d 1).run I H x s m) * s m =
      f ((Onnx.gates 3 H W R B d).x I 1 m x + (Onnx.gates 3 H W R B d).h H 1 m t + (Onnx.gates 3 H W R B d).wb 1 m +
        (Onnx.gates 3 H W R B d).rb 1 m) * t m := by
    intro m hm
    rw [gate_run hm hs, hs m hm]
  rw [gate_run hj hs, gate_run hj hs, inp_run hj, hid_run hj hs, hid_run hj hr, hs j hj]
  cases lin
  · simp only [Bool.false_eq_true, if_false, add_zero]
    rw [mul_comm (g _), show ∀ p q r c : α, p + q + (r + c) = p + r + c + q from fun p q r c => by ring]
  · simp only [Bool.false_eq_true, if_false, if_true, add_zero]
    rw [mul_comm (g _), add_right_comm ((Onnx.gates 3 H W R B d).x I 2 j x)]

theorem rnn_step {f : α → α} {H I d : Nat} {W R : Tensor α} {B : Option (Tensor α)} {x : Nat → α}
    {s t : Nat → α} (hs : ∀ j, j < H → s j = t j) :
    ∀ j, j < H → Burn.rnnStep f none I H (gateOf true 1 H I W R B d 0) x s j =
      Onnx.rnnStep f none I H (Onnx.gates 1 H W R B d) x t j := by
  intro j hj
  unfold Burn.rnnStep Onnx.rnnStep
  simp only [clipTo, gate_run hj hs]

/-- Steps that keep a relation keep it all the way. -/
theorem after_rel {σ τ : Type} {P : σ → τ → Prop} {f : Nat → σ → σ} {g : Nat → τ → τ} {s : σ} {t : τ} (h0 : P s t)
    (h : ∀ k s t, P s t → P (f k s) (g k t)) (k : Nat) : P (after f s k) (after g t k) := by
  induction k with
  | zero => exact h0
  | succ k ih => exact h k _ _ ih

end Ring

/-! ### Layouts -/

theorem unsqueeze_one_of_three {a b c : Nat} {f : List Nat → α} :
    Burn.unsqueezeDims (Tensor.ofFn [a, b, c] f) [1] 4 =
      some (Tensor.ofFn [a, 1, b, c] fun i => f [i.getD 0 0, i.getD 2 0, i.getD 3 0]) := by
  have e : Burn.unsqueezeDims (Tensor.ofFn [a, b, c] f) [1] 4 = Burn.reshape (Tensor.ofFn [a, b, c] f) [a, 1, b, c] := rfl
  rw [e]
  refine reshape_ofFn (by simp [prodShape]) fun i hi => ?_
  obtain ⟨x, y, z, u, rfl, hx, hy, hz, hu⟩ := inRange4 hi
  exact ⟨[x, z, u], ⟨hx, hz, hu, trivial⟩, by simp [flatIdx, prodShape]; omega, rfl⟩

theorem unsqueeze_two_of_three {a b c : Nat} {f : List Nat → α} :
    Burn.unsqueezeDims (Tensor.ofFn [a, b, c] f) [2] 4 =
      some (Tensor.ofFn [a, b, 1, c] fun i => f [i.getD 0 0, i.getD 1 0, i.getD 3 0]) := by
  have e : Burn.unsqueezeDims (Tensor.ofFn [a, b, c] f) [2] 4 = Burn.reshape (Tensor.ofFn [a, b, c] f) [a, b, 1, c] := rfl
  rw [e]
  refine reshape_ofFn (by simp [prodShape]) fun i hi => ?_
  obtain ⟨x, y, z, u, rfl, hx, hy, hz, hu⟩ := inRange4 hi
  exact ⟨[x, y, u], ⟨hx, hy, hu, trivial⟩, by simp [flatIdx, prodShape]; omega, rfl⟩

theorem unsqueeze_zero_of_two {a b : Nat} {f : List Nat → α} :
    Burn.unsqueezeDims (Tensor.ofFn [a, b] f) [0] 3 =
      some (Tensor.ofFn [1, a, b] fun i => f [i.getD 1 0, i.getD 2 0]) := by
  have e : Burn.unsqueezeDims (Tensor.ofFn [a, b] f) [0] 3 = Burn.reshape (Tensor.ofFn [a, b] f) [1, a, b] := rfl
  rw [e]
  refine reshape_ofFn (by simp [prodShape]) fun i hi => ?_
  obtain ⟨x, y, z, rfl, hx, hy, hz⟩ := inRange3 hi
  exact ⟨[y, z], ⟨hy, hz, trivial⟩, by simp [flatIdx, prodShape, show x = 0 by omega], rfl⟩

theorem split_last {a b H : Nat} {f : List Nat → α} :
    Burn.reshape (Tensor.ofFn [a, b, 2 * H] f) [a, b, 2, H] =
      some (Tensor.ofFn [a, b, 2, H] fun i => f [i.getD 0 0, i.getD 1 0, i.getD 2 0 * H + i.getD 3 0]) := by
  refine reshape_ofFn (by simp [prodShape]) fun i hi => ?_
  obtain ⟨x, y, z, u, rfl, hx, hy, hz, hu⟩ := inRange4 hi
  refine ⟨[x, y, z * H + u], ⟨hx, hy, ?_, trivial⟩, by simp [flatIdx, prodShape, Nat.add_mul, Nat.mul_assoc], rfl⟩
  have := gate_bound (H := H) hz
  omega

theorem div_unit {z u H : Nat} (hu : u < H) : (z * H + u) / H = z ∧ (z * H + u) % H = u := by
  have hH : 0 < H := by omega
  constructor
  · rw [Nat.add_comm, Nat.add_mul_div_right _ _ hH, Nat.div_eq_of_lt hu, Nat.zero_add]
  · rw [Nat.add_comm, Nat.add_mul_mod_self_right, Nat.mod_eq_of_lt hu]

/-- Output Y has ONNX's layout: for sequences first, and for two directions also for batches first. -/
theorem yOutput_eq [CommRing α] [LinearOrder α] {dir : RecDir} {layout : Bool} {S N H : Nat} {hid hid' : Nat → Nat → Nat → Nat → α}
    (hl : layout = false ∨ dir = .bidirectional)
    (h : ∀ d b k j, d < dir.count → b < N → j < H → hid d b k j = hid' d b k j) :
    yOutput dir layout H (Burn.sequence layout dir S N H hid) = some (Onnx.allStates layout dir S N H hid') := by
  have one : ∀ dir : RecDir, dir.count = 1 → (∀ b k j, b < N → j < H → hid 0 b k j = hid' 0 b k j) →
      Burn.unsqueezeDims (Burn.sequence false dir S N H hid) [1] 4 = some (Onnx.allStates false dir S N H hid') := by
    intro dir hc h
    simp only [Burn.sequence, Onnx.allStates, Bool.false_eq_true, if_false, hc, Nat.one_mul]
    rw [unsqueeze_one_of_three]
    congr 1
    refine Tensor.ofFn_congr fun i hi => ?_
    obtain ⟨x, y, z, u, rfl, hx, hy, hz, hu⟩ := inRange4 hi
    obtain rfl : y = 0 := by omega
    have e : u / H = 0 ∧ u % H = u := by simpa using div_unit (z := 0) hu
    simp only [List.getD_cons_zero, List.getD_cons_succ, e.1, e.2]
    exact h _ _ _ hz hu
  cases dir
  · obtain rfl : layout = false := by simpa using hl
    exact one _ rfl fun b k j hb hj => h 0 b k j (by simp [RecDir.count]) hb hj
  · obtain rfl : layout = false := by simpa using hl
    exact one _ rfl fun b k j hb hj => h 0 b k j (by simp [RecDir.count]) hb hj
  · cases layout
    · simp only [Burn.sequence, Onnx.allStates, Bool.false_eq_true, if_false, RecDir.count]
      show (Burn.reshape (Tensor.ofFn [S, N, 2 * H] _) [S, N, 2, H]).bind (Burn.swapDims · 1 2) = _
      rw [split_last, Option.bind_some, swapDims_four]
      congr 1
      refine Tensor.ofFn_congr fun i hi => ?_
      obtain ⟨x, y, z, u, rfl, hx, hy, hz, hu⟩ := inRange4 hi
      have e := div_unit (z := y) hu
      simp only [List.getD_cons_zero, List.getD_cons_succ, e.1, e.2]
      exact h _ _ _ _ hy hz hu
    · simp only [Burn.sequence, Onnx.allStates, if_true, RecDir.count]
      show Burn.reshape (Tensor.ofFn [N, S, 2 * H] _) [N, S, 2, H] = _
      rw [split_last]
      congr 1
      refine Tensor.ofFn_congr fun i hi => ?_
      obtain ⟨x, y, z, u, rfl, hx, hy, hz, hu⟩ := inRange4 hi
      have e := div_unit (z := z) hu
      simp only [List.getD_cons_zero, List.getD_cons_succ, e.1, e.2]
      exact h _ _ _ _ hz hx hu

theorem stateOutput_eq [CommRing α] [LinearOrder α] {dir : RecDir} {S N H : Nat} {st st' : Nat → Nat → Nat → Nat → α}
    (h : ∀ d b k j, d < dir.count → b < N → j < H → st d b k j = st' d b k j) :
    stateOutput dir (Burn.finalState dir S N H st) = some (Onnx.lastState false dir S N H st') := by
  have one : ∀ {f : List Nat → α}, (∀ b j, b < N → j < H → st 0 b S j = f [0, b, j]) →
      Burn.unsqueezeDims (Tensor.ofFn [N, H] fun i => st 0 (i.getD 0 0) S (i.getD 1 0)) [0] 3 = some (Tensor.ofFn [1, N, H] f) := by
    intro f h
    rw [unsqueeze_zero_of_two]
    congr 1
    refine Tensor.ofFn_congr fun i hi => ?_
    obtain ⟨x, y, z, rfl, hx, hy, hz⟩ := inRange3 hi
    obtain rfl : x = 0 := by omega
    exact h _ _ hy hz
  cases dir
  · exact one fun b j hb hj => h 0 b S j (by simp [RecDir.count]) hb hj
  · exact one fun b j hb hj => h 0 b S j (by simp [RecDir.count]) hb hj
  · refine congrArg some (Tensor.ofFn_congr fun i hi => ?_)
    obtain ⟨x, y, z, rfl, hx, hy, hz⟩ := inRange3 hi
    exact h _ _ _ _ hx hy hz

/-- Handing an initial state to the module. -/
theorem stateInput_eq [CommRing α] [LinearOrder α] {dir : RecDir} {N H : Nat} {T : Tensor α} (hT : T.shape = [dir.count, N, H]) :
    ∃ u, stateInput dir T = some u ∧ u.shape = Burn.stateShape dir N H ∧
      ∀ d b j, d < dir.count → b < N → j < H → Burn.stateAt dir (some u) d b j = T.get [d, b, j] := by
  have one : T.shape = [1, N, H] → ∃ u, Burn.squeezeDim T 0 = some u ∧ u.shape = [N, H] ∧
      ∀ d b j, d < 1 → b < N → j < H → u.get [b, j] = T.get [d, b, j] := by
    intro hT
    have e : Burn.squeezeDim T 0 = Burn.reshape T [N, H] := by
      unfold Burn.squeezeDim
      rw [hT]
      rfl
    obtain ⟨u, hu⟩ := Option.isSome_iff_exists.1 (Burn.reshape_isSome (t := T) (s := [N, H]).2 (by simp [hT, prodShape]))
    refine ⟨u, e.trans hu, (Burn.reshape_get (i := []) hu).1, fun d b j hd _ _ => ?_⟩
    obtain rfl : d = 0 := by omega
    exact Burn.reshape_get_eq hu (by simp [hT, flatIdx, prodShape])
  cases dir
  · exact one hT
  · exact one hT
  · exact ⟨T, rfl, hT, fun _ _ _ _ _ _ => rfl⟩

/-! ### The theorems -/

/-- The node of the given inputs. -/
def nodeOf (a : Onnx.RecIn α) (acts : Option (List RecAct)) (alpha beta : List α) (clip : Option α) (flag : Bool) : RecNode α where
  dir := a.dir
  layout := a.layout
  I := a.I
  H := a.H
  acts := acts
  alpha := alpha
  beta := beta
  clip := clip
  flag := flag
  W := some a.W
  R := some a.R
  B := a.B.map some

/-- The activation functions that Burn's modules have. -/
def moduleActs : List RecAct := [.sigmoid, .tanh, .relu, .hardSigmoid, .leakyRelu, .softplus]

theorem burnAct_some (act : RecAct → Option α → Option α → α → α) {a : RecAct} (h : a ∈ moduleActs) :
    burnAct act a = some (act a none none) := by
  simp only [moduleActs, List.mem_cons, List.not_mem_nil, or_false] at h
  rcases h with rfl | rfl | rfl | rfl | rfl | rfl <;> rfl

theorem activation_plain (act : RecAct → Option α → Option α → α → α) {l : List RecAct} {k : Nat} {a : RecAct} (h : l[k]? = some a) :
    Onnx.activation act l [] [] k = act a none none := by
  unfold Onnx.activation
  rw [h]
  simp

/-- `per` activation functions for each direction, the same for all directions. -/
def SameActs (per : Nat) (dir : RecDir) (l : List RecAct) : Prop :=
  l.length = per * dir.count ∧ (dir = .bidirectional → ∀ k, k < per → l[per + k]? = l[k]?)

theorem lstmActs_eq {dir : RecDir} {acts : Option (List RecAct)}
    (h : SameActs 3 dir (Onnx.allActs [.sigmoid, .tanh, .tanh] dir acts)) :
    ∃ f g k, Infer.lstmActs dir acts = some (f, g, k) ∧ ∀ d, d < dir.count →
      let l := Onnx.allActs [.sigmoid, .tanh, .tanh] dir acts
      l[3 * d]? = some f ∧ l[3 * d + 1]? = some g ∧ l[3 * d + 2]? = some k := by
  have dflt : Onnx.allActs [.sigmoid, .tanh, .tanh] dir (some []) = Onnx.allActs [.sigmoid, .tanh, .tanh] dir none := rfl
  have hd : ∃ f g k, some (RecAct.sigmoid, RecAct.tanh, RecAct.tanh) = some (f, g, k) ∧ ∀ d, d < dir.count →
      let l := Onnx.allActs [.sigmoid, .tanh, .tanh] dir none
      l[3 * d]? = some f ∧ l[3 * d + 1]? = some g ∧ l[3 * d + 2]? = some k := by
    refine ⟨_, _, _, rfl, fun d hd => ?_⟩
    obtain rfl | ⟨rfl, rfl⟩ := dir_cases hd
    · cases dir <;> exact ⟨rfl, rfl, rfl⟩
    · exact ⟨rfl, rfl, rfl⟩
  match acts with
  | none => exact hd
  | some [] => exact hd
  | some (f :: rest) =>
    obtain ⟨hl, hs⟩ := h
    simp only [Onnx.allActs] at hl hs ⊢
    cases dir
    · obtain ⟨g, k, rfl⟩ : ∃ g k, rest = [g, k] := by
        match rest, hl with
        | [g, k], _ => exact ⟨g, k, rfl⟩
      refine ⟨f, g, k, rfl, fun d hd => ?_⟩
      obtain rfl : d = 0 := by simp [RecDir.count] at hd; omega
      exact ⟨rfl, rfl, rfl⟩
    · obtain ⟨g, k, rfl⟩ : ∃ g k, rest = [g, k] := by
        match rest, hl with
        | [g, k], _ => exact ⟨g, k, rfl⟩
      refine ⟨f, g, k, rfl, fun d hd => ?_⟩
      obtain rfl : d = 0 := by simp [RecDir.count] at hd; omega
      exact ⟨rfl, rfl, rfl⟩
    · obtain ⟨g, k, f2, g2, k2, rfl⟩ : ∃ g k f2 g2 k2, rest = [g, k, f2, g2, k2] := by
        match rest, hl with
        | [g, k, f2, g2, k2], _ => exact ⟨g, k, f2, g2, k2, rfl⟩
      have h0 := hs rfl 0 (by omega)
      have h1 := hs rfl 1 (by omega)
      have h2 := hs rfl 2 (by omega)
      simp at h0 h1 h2
      subst h0 h1 h2
      refine ⟨f2, g2, k2, by simp [Infer.lstmActs], fun d hd => ?_⟩
      obtain rfl | ⟨_, rfl⟩ := dir_cases hd
      · exact ⟨rfl, rfl, rfl⟩
      · exact ⟨rfl, rfl, rfl⟩

theorem gate_fits [CommRing α] {combine : Bool} {G H I d g : Nat} {W R : Tensor α} {B : Option (Tensor α)} :
    (gateOf combine G H I W R B d g).fits I H B.isSome = true := by
  cases B <;> simp [Burn.Gate.fits, gateOf, Tensor.ofFn]

theorem constants_nodeOf [CommRing α] [LinearOrder α] (a : Onnx.RecIn α) (acts : Option (List RecAct)) (alpha beta : List α) (clip : Option α) (flag : Bool) :
    constants (nodeOf a acts alpha beta clip flag) = some (a.W, a.R, a.B) := by
  unfold constants nodeOf
  cases a.B <;> rfl

theorem seqSizes_eq [CommRing α] [LinearOrder α] {a : Onnx.RecIn α} {G : Nat} (h : a.Ok G) (hS : 0 < a.S) (hN : 0 < a.N) (hI : 0 < a.I) :
    Burn.seqSizes a.layout a.I a.X.shape = some (a.S, a.N) := by
  rw [h.1]
  cases a.layout <;> simp [Burn.seqSizes, hS, hN, hI]

/-- The functions of the three slots of LSTM. -/
def lstmFs (act : RecAct → Option α → Option α → α → α) (dir : RecDir) (acts : Option (List RecAct)) (alpha beta : List α) (d k : Nat) : α → α :=
  Onnx.activation act (Onnx.allActs [.sigmoid, .tanh, .tanh] dir acts) alpha beta (3 * d + k)

theorem burn_lstm_eq [CommRing α] [LinearOrder α] {a : Onnx.RecIn α} {fs : Nat → Nat → α → α} {f g h : α → α} {couple : Bool}
    {gs : Nat → Burn.Gate α × Burn.Gate α × Burn.Gate α × Burn.Gate α} {state : Option (Tensor α × Tensor α)} (hok : a.Ok 4)
    (hS : 0 < a.S) (hN : 0 < a.N) (hI : 0 < a.I)
    (hf : ∀ d, d < a.dir.count → fs d 0 = f ∧ fs d 1 = g ∧ fs d 2 = h)
    (hgs : ∀ d, d < a.dir.count → gs d = (gateOf true 4 a.H a.I a.W a.R a.B d 0, gateOf true 4 a.H a.I a.W a.R a.B d 2,
      gateOf true 4 a.H a.I a.W a.R a.B d 1, gateOf true 4 a.H a.I a.W a.R a.B d 3))
    (hst : ∀ st ∈ state, st.1.shape = Burn.stateShape a.dir a.N a.H ∧ st.2.shape = Burn.stateShape a.dir a.N a.H)
    (hin : ∀ d b j, d < a.dir.count → b < a.N → j < a.H →
      Burn.stateAt a.dir (state.map (·.1)) d b j = Onnx.initialAt a.layout a.h0 d b j ∧
      Burn.stateAt a.dir (state.map (·.2)) d b j = Onnx.initialAt a.layout a.c0 d b j)
    (hl : a.layout = false ∨ a.dir = .bidirectional) :
    ∃ seq hid cell, Burn.lstm f g h none couple a.layout a.B.isSome a.dir a.I a.H gs a.X state = some (seq, hid, cell) ∧
      yOutput a.dir a.layout a.H seq = some (Onnx.lstmT a fs none couple).1 ∧
      stateOutput a.dir hid = some (Onnx.lastState false a.dir a.S a.N a.H fun d b k j => (Onnx.lstmAt a fs none couple d b k).1 j) ∧
      stateOutput a.dir cell = some (Onnx.lastState false a.dir a.S a.N a.H fun d b k j => (Onnx.lstmAt a fs none couple d b k).2 j) := by
  unfold Burn.lstm
  rw [seqSizes_eq hok hS hN hI, Option.bind_some]
  simp only
  have hfit : ∀ d ∈ List.range a.dir.count, (gs d).1.fits a.I a.H a.B.isSome ∧ (gs d).2.1.fits a.I a.H a.B.isSome ∧
      (gs d).2.2.1.fits a.I a.H a.B.isSome ∧ (gs d).2.2.2.fits a.I a.H a.B.isSome := by
    intro d hd
    rw [hgs d (List.mem_range.1 hd)]
    exact ⟨gate_fits, gate_fits, gate_fits, gate_fits⟩
  have key : ∀ d b, d < a.dir.count → b < a.N → ∀ k, SameUnits a.H (after (fun k => Burn.lstmStep f g h none couple a.I a.H
      (gs d).1 (gs d).2.1 (gs d).2.2.1 (gs d).2.2.2
      (fun m => a.X.get (if a.layout then [b, visit (a.dir.rev d) a.S k, m] else [visit (a.dir.rev d) a.S k, b, m])))
      (Burn.stateAt a.dir (state.map (·.1)) d b, Burn.stateAt a.dir (state.map (·.2)) d b) k)
      (Onnx.lstmAt a fs none couple d b k) := by
    intro d b hd hb k
    refine after_rel (P := SameUnits a.H) (fun j hj => hin d b j hd hb hj) (fun k s t hs => ?_) k
    rw [hgs d hd, (hf d hd).1, (hf d hd).2.1, (hf d hd).2.2]
    exact lstm_step hs
  rw [if_pos ⟨hfit, hst⟩]
  refine ⟨_, _, _, rfl, ?_, ?_, ?_⟩
  · exact yOutput_eq hl fun d b k j hd hb hj => (key d b hd hb k j hj).1
  · exact stateOutput_eq fun d b k j hd hb hj => (key d b hd hb k j hj).1
  · exact stateOutput_eq fun d b k j hd hb hj => (key d b hd hb k j hj).2

theorem getD_map_below {β : Type} {n d : Nat} {f : Nat → β} {x : β} (h : d < n) : ((List.range n).map f).getD d x = f d := by
  simp [List.getD_eq_getElem?_getD, h]

/-- The initial state handed to the module holds ONNX's numbers. -/
theorem hiddenState_eq [CommRing α] [LinearOrder α] {a : Onnx.RecIn α} {T : Option (Tensor α)} (hl : a.layout = false ∨ T = none)
    (hT : ∀ t ∈ T, t.shape = if a.layout then [a.N, a.dir.count, a.H] else [a.dir.count, a.N, a.H]) :
    ∃ u : Option (Tensor α), hiddenState a.dir T = some u ∧ (∀ t ∈ u, t.shape = Burn.stateShape a.dir a.N a.H) ∧
      ∀ d b j, d < a.dir.count → b < a.N → j < a.H → Burn.stateAt a.dir u d b j = Onnx.initialAt a.layout T d b j := by
  match T, hT with
  | none, _ => exact ⟨none, rfl, by simp, fun d b j _ _ _ => by cases a.dir <;> rfl⟩
  | some t, hT =>
    have hl : a.layout = false := by simpa using hl
    have ht := hT t rfl
    rw [hl] at ht ⊢
    obtain ⟨u, h1, h2, h3⟩ := stateInput_eq (by simpa using ht)
    refine ⟨some u, by simp [hiddenState, h1], by simpa using h2, fun d b j hd hb hj => ?_⟩
    rw [h3 d b j hd hb hj]
    rfl

theorem lstmState_eq [CommRing α] [LinearOrder α] {a : Onnx.RecIn α} (hok : a.Ok 4)
    (hl : a.layout = false ∨ a.h0 = none ∧ a.c0 = none) (hboth : a.h0.isSome = a.c0.isSome) :
    ∃ u, lstmState a.dir a.h0 a.c0 = some u ∧
      (∀ st ∈ u, st.1.shape = Burn.stateShape a.dir a.N a.H ∧ st.2.shape = Burn.stateShape a.dir a.N a.H) ∧
      ∀ d b j, d < a.dir.count → b < a.N → j < a.H →
        Burn.stateAt a.dir (u.map (·.1)) d b j = Onnx.initialAt a.layout a.h0 d b j ∧
        Burn.stateAt a.dir (u.map (·.2)) d b j = Onnx.initialAt a.layout a.c0 d b j := by
  obtain ⟨u, h1, h2, h3⟩ := hiddenState_eq (a := a) (T := a.h0) (hl.imp_right (·.1)) hok.2.2.2.2.1
  obtain ⟨v, k1, k2, k3⟩ := hiddenState_eq (a := a) (T := a.c0) (hl.imp_right (·.2)) hok.2.2.2.2.2
  cases e0 : a.h0 with
  | none =>
    rw [e0] at h1 h3 hboth
    have e1 : a.c0 = none := by simpa using hboth.symm
    rw [e1] at k1 k3
    simp only [hiddenState, Option.some.injEq] at h1 k1
    subst h1 k1
    refine ⟨none, by rw [e1]; rfl, by simp, fun d b j hd hb hj => ?_⟩
    rw [e1]
    exact ⟨h3 d b j hd hb hj, k3 d b j hd hb hj⟩
  | some x =>
    rw [e0] at h1 h3 hboth
    obtain ⟨y, e1⟩ : ∃ y, a.c0 = some y := Option.isSome_iff_exists.1 hboth.symm
    rw [e1] at k1 k3 ⊢
    simp only [hiddenState, Option.map_eq_some_iff] at h1 k1
    obtain ⟨p, hp, rfl⟩ := h1
    obtain ⟨q, hq, rfl⟩ := k1
    refine ⟨some (p, q), by simp [lstmState, hp, hq], ?_, fun d b j hd hb hj => ⟨h3 d b j hd hb hj, k3 d b j hd hb hj⟩⟩
    intro st hst
    cases hst
    exact ⟨h2 p rfl, k2 q rfl⟩

theorem lstmGates_eq [CommRing α] [LinearOrder α] {H I : Nat} {W R : Tensor α} {B : Option (Tensor α)} {dir : RecDir}
    (hW : W.shape = [dir.count, 4 * H, I]) (hR : R.shape = [dir.count, 4 * H, H])
    (hB : ∀ b ∈ B, b.shape = [dir.count, 2 * 4 * H]) (hI : I ≠ 1) (hH : H ≠ 1) :
    lstmGates H I W R B dir = some ((List.range dir.count).map fun d => (gateOf true 4 H I W R B d 0, gateOf true 4 H I W R B d 2,
      gateOf true 4 H I W R B d 1, gateOf true 4 H I W R B d 3)) := by
  unfold lstmGates
  rw [snapshots_eq (by decide) hW hR hB hI hH, Option.bind_some]
  refine mapM_some fun d hd => ?_
  obtain ⟨l1, l2, l3, l4⟩ := lstm_load H I W R B dir (List.mem_range.1 hd)
  rw [l1, l2, l3, l4]
  rfl

theorem head_range {β : Type} {dir : RecDir} {f : Nat → β} : ((List.range dir.count).map f).head? = some (f 0) := by
  cases dir <;> rfl

/-- The outputs of the code with the module's parameters in place. -/
theorem genLstm_eq [CommRing α] [LinearOrder α] {act : RecAct → Option α → Option α → α → α} {a : Onnx.RecIn α}
    {acts : Option (List RecAct)} {couple : Bool} (hok : a.Ok 4) (hI : 2 ≤ a.I) (hH : 2 ≤ a.H) (hS : 0 < a.S) (hN : 0 < a.N)
    (hl : a.layout = false ∨ a.dir = .bidirectional ∧ a.h0 = none ∧ a.c0 = none) (hboth : a.h0.isSome = a.c0.isSome)
    (hacts : SameActs 3 a.dir (Onnx.allActs [.sigmoid, .tanh, .tanh] a.dir acts))
    (hsup : ∀ x ∈ Onnx.allActs [.sigmoid, .tanh, .tanh] a.dir acts, x ∈ moduleActs) :
    genLstm act (nodeOf a acts [] [] none couple) a.X a.h0 a.c0 = some ((Onnx.lstmT a (lstmFs act a.dir acts [] []) none couple).1,
      Onnx.lastState false a.dir a.S a.N a.H fun d b k j => (Onnx.lstmAt a (lstmFs act a.dir acts [] []) none couple d b k).1 j,
      Onnx.lastState false a.dir a.S a.N a.H fun d b k j => (Onnx.lstmAt a (lstmFs act a.dir acts [] []) none couple d b k).2 j) := by
  obtain ⟨f, g, h, hcfg, hls⟩ := lstmActs_eq hacts
  have h0 := hls 0 (by cases a.dir <;> simp [RecDir.count])
  have hI1 : a.I ≠ 1 := by omega
  have hH1 : a.H ≠ 1 := by omega
  obtain ⟨st, hst1, hst2, hst3⟩ := lstmState_eq hok (hl.imp_right (·.2)) hboth
  obtain ⟨seq, hid, cell, m1, m2, m3, m4⟩ := burn_lstm_eq (fs := lstmFs act a.dir acts [] []) (f := act f none none) (g := act g none none)
    (h := act h none none) (couple := couple)
    (gs := fun d => ((List.range a.dir.count).map fun d => (gateOf true 4 a.H a.I a.W a.R a.B d 0, gateOf true 4 a.H a.I a.W a.R a.B d 2,
      gateOf true 4 a.H a.I a.W a.R a.B d 1, gateOf true 4 a.H a.I a.W a.R a.B d 3)).getD d
        (gateOf true 4 a.H a.I a.W a.R a.B 0 0, gateOf true 4 a.H a.I a.W a.R a.B 0 2,
      gateOf true 4 a.H a.I a.W a.R a.B 0 1, gateOf true 4 a.H a.I a.W a.R a.B 0 3))
    (state := st) hok hS hN (by omega)
    (fun d hd => by
      have hx := hls d hd
      exact ⟨activation_plain act hx.1, activation_plain act hx.2.1, activation_plain act hx.2.2⟩)
    (fun d hd => getD_map_below hd) hst2 hst3 (hl.imp_right (·.1))
  unfold genLstm
  rw [show Infer.lstmActs (nodeOf a acts [] [] none couple).dir (nodeOf a acts [] [] none couple).acts = some (f, g, h) from hcfg,
    Option.bind_some, burnAct_some act (hsup f (List.mem_of_getElem? h0.1)), Option.bind_some,
    burnAct_some act (hsup g (List.mem_of_getElem? h0.2.1)), Option.bind_some,
    burnAct_some act (hsup h (List.mem_of_getElem? h0.2.2)), Option.bind_some, constants_nodeOf, Option.bind_some]
  rw [show lstmGates (nodeOf a acts [] [] none couple).H (nodeOf a acts [] [] none couple).I a.W a.R a.B
    (nodeOf a acts [] [] none couple).dir = _ from lstmGates_eq hok.2.1 hok.2.2.1 hok.2.2.2.1 hI1 hH1, Option.bind_some,
    head_range, Option.bind_some, show lstmState (nodeOf a acts [] [] none couple).dir a.h0 a.c0 = some st from hst1, Option.bind_some]
  refine (congrArg (Option.bind · _) m1).trans ?_
  refine (congrArg (Option.bind · _) m2).trans ?_
  refine (congrArg (Option.bind · _) m3).trans ?_
  rw [Option.bind_some]
  exact congrArg (Option.map _) m4

/-! ### GRU and RNN -/

theorem after_rel_lt {σ τ : Type} {P : σ → τ → Prop} {f : Nat → σ → σ} {g : Nat → τ → τ} {s : σ} {t : τ} {n : Nat} (h0 : P s t)
    (h : ∀ k s t, k < n → P s t → P (f k s) (g k t)) (k : Nat) (hk : k ≤ n) : P (after f s k) (after g t k) := by
  induction k with
  | zero => exact h0
  | succ k ih => exact h k _ _ (by omega) (ih (by omega))

/-- Hidden states written from a step function. -/
def hiddenAt [Zero α] (a : Onnx.RecIn α) (step : Nat → (Nat → α) → (Nat → α) → Nat → α) (d b k : Nat) : Nat → α :=
  after (fun k => step d (Onnx.inputAt a.layout a.X (visit (a.dir.rev d) a.S k) b)) (Onnx.initialAt a.layout a.h0 d b) k

theorem burn_recurrent_eq [CommRing α] [LinearOrder α] {a : Onnx.RecIn α} {G : Nat} {step step' : Nat → (Nat → α) → (Nat → α) → Nat → α}
    {fits : Bool} {state : Option (Tensor α)} (hok : a.Ok G) (hS : 0 < a.S) (hN : 0 < a.N) (hI : 0 < a.I) (hfits : fits = true)
    (hstep : ∀ d, d < a.dir.count → ∀ x s t, (∀ j, j < a.H → s j = t j) → ∀ j, j < a.H → step d x s j = step' d x t j)
    (hst : ∀ st ∈ state, st.shape = Burn.stateShape a.dir a.N a.H)
    (hin : ∀ d b j, d < a.dir.count → b < a.N → j < a.H → Burn.stateAt a.dir state d b j = Onnx.initialAt a.layout a.h0 d b j)
    (hl : a.layout = false ∨ a.dir = .bidirectional) :
    ∃ seq hid, Burn.recurrent step a.layout a.dir a.I a.H fits a.X state = some (seq, hid) ∧
      yOutput a.dir a.layout a.H seq = some (Onnx.allStates a.layout a.dir a.S a.N a.H (hiddenAt a step')) ∧
      stateOutput a.dir hid = some (Onnx.lastState false a.dir a.S a.N a.H (hiddenAt a step')) := by
  unfold Burn.recurrent
  rw [seqSizes_eq hok hS hN hI, Option.bind_some]
  simp only
  have key : ∀ d b, d < a.dir.count → b < a.N → ∀ k j, j < a.H → after (fun k => step d
      (fun m => a.X.get (if a.layout then [b, visit (a.dir.rev d) a.S k, m] else [visit (a.dir.rev d) a.S k, b, m])))
      (Burn.stateAt a.dir state d b) k j = hiddenAt a step' d b k j := by
    intro d b hd hb k
    exact after_rel (P := fun s t : Nat → α => ∀ j, j < a.H → s j = t j)
      (g := fun k => step' d (Onnx.inputAt a.layout a.X (visit (a.dir.rev d) a.S k) b)) (fun j hj => hin d b j hd hb hj)
      (fun k s t hs => hstep d hd _ s t hs) k
  rw [if_pos ⟨hfits, hst⟩]
  refine ⟨_, _, rfl, ?_, ?_⟩
  · exact yOutput_eq hl fun d b k j hd hb hj => key d b hd hb k j hj
  · exact stateOutput_eq fun d b k j hd hb hj => key d b hd hb k j hj

theorem rnnActs_eq {dir : RecDir} {acts : Option (List RecAct)} (h : SameActs 1 dir (Onnx.allActs [.tanh] dir acts)) :
    ∃ f, Infer.rnnActs dir acts = some f ∧ ∀ d, d < dir.count → (Onnx.allActs [.tanh] dir acts)[1 * d]? = some f := by
  have hd : ∃ f, some RecAct.tanh = some f ∧ ∀ d, d < dir.count → (Onnx.allActs [.tanh] dir none)[1 * d]? = some f := by
    refine ⟨_, rfl, fun d hd => ?_⟩
    obtain rfl | ⟨rfl, rfl⟩ := dir_cases hd
    · cases dir <;> rfl
    · rfl
  match acts with
  | none => exact hd
  | some [] => exact hd
  | some (f :: rest) =>
    obtain ⟨hl, hs⟩ := h
    simp only [Onnx.allActs] at hl hs ⊢
    cases dir
    · obtain rfl : rest = [] := by
        match rest, hl with
        | [], _ => rfl
      refine ⟨f, rfl, fun d hd => ?_⟩
      obtain rfl : d = 0 := by simp [RecDir.count] at hd; omega
      rfl
    · obtain rfl : rest = [] := by
        match rest, hl with
        | [], _ => rfl
      refine ⟨f, rfl, fun d hd => ?_⟩
      obtain rfl : d = 0 := by simp [RecDir.count] at hd; omega
      rfl
    · obtain ⟨g, rfl⟩ : ∃ g, rest = [g] := by
        match rest, hl with
        | [g], _ => exact ⟨g, rfl⟩
      have h0 := hs rfl 0 (by omega)
      simp at h0
      subst h0
      refine ⟨g, by simp [Infer.rnnActs], fun d hd => ?_⟩
      obtain rfl | ⟨_, rfl⟩ := dir_cases hd <;> rfl

theorem gruActs_eq {dir : RecDir} {acts : Option (List RecAct)}
    (h : Onnx.allActs [.sigmoid, .tanh] dir acts = Onnx.allActs [.sigmoid, .tanh] dir none) :
    Infer.gruActs dir acts = some (.sigmoid, .tanh) := by
  match acts with
  | none => rfl
  | some [] => rfl
  | some (f :: rest) =>
    simp only [Onnx.allActs] at h
    rw [h]
    cases dir <;> rfl

theorem rnnGates_eq [CommRing α] [LinearOrder α] {H I : Nat} {W R : Tensor α} {B : Option (Tensor α)} {dir : RecDir}
    (hW : W.shape = [dir.count, 1 * H, I]) (hR : R.shape = [dir.count, 1 * H, H])
    (hB : ∀ b ∈ B, b.shape = [dir.count, 2 * 1 * H]) (hI : I ≠ 1) (hH : H ≠ 1) :
    rnnGates H I W R B dir = some ((List.range dir.count).map fun d => gateOf true 1 H I W R B d 0) := by
  unfold rnnGates
  rw [snapshots_eq (by decide) hW hR hB hI hH, Option.bind_some]
  exact mapM_some fun d hd => rnn_load H I W R B dir (List.mem_range.1 hd)

theorem gruGates_eq [CommRing α] [LinearOrder α] {H I : Nat} {W R : Tensor α} {B : Option (Tensor α)} {dir : RecDir}
    (hW : W.shape = [dir.count, 3 * H, I]) (hR : R.shape = [dir.count, 3 * H, H])
    (hB : ∀ b ∈ B, b.shape = [dir.count, 2 * 3 * H]) (hI : I ≠ 1) (hH : H ≠ 1) :
    gruGates H I W R B dir = some ((List.range dir.count).map fun d => (gateOf false 3 H I W R B d 0, gateOf false 3 H I W R B d 1,
      gateOf false 3 H I W R B d 2)) := by
  unfold gruGates
  rw [snapshots_eq (by decide) hW hR hB hI hH, Option.bind_some]
  refine mapM_some fun d hd => ?_
  obtain ⟨l1, l2, l3⟩ := gru_load H I W R B dir (List.mem_range.1 hd)
  rw [l1, l2, l3]
  rfl

/-- The function of the slot of RNN. -/
def rnnFs (act : RecAct → Option α → Option α → α → α) (dir : RecDir) (acts : Option (List RecAct)) (alpha beta : List α) (d k : Nat) : α → α :=
  Onnx.activation act (Onnx.allActs [.tanh] dir acts) alpha beta (1 * d + k)

/-- The functions of the slots of GRU. -/
def gruFs (act : RecAct → Option α → Option α → α → α) (dir : RecDir) (acts : Option (List RecAct)) (alpha beta : List α) (d k : Nat) : α → α :=
  Onnx.activation act (Onnx.allActs [.sigmoid, .tanh] dir acts) alpha beta (2 * d + k)

theorem genRnn_eq [CommRing α] [LinearOrder α] {act : RecAct → Option α → Option α → α → α} {a : Onnx.RecIn α}
    {acts : Option (List RecAct)} {flag : Bool} (hok : a.Ok 1) (hI : 2 ≤ a.I) (hH : 2 ≤ a.H) (hS : 0 < a.S) (hN : 0 < a.N)
    (hl : a.layout = false ∨ a.dir = .bidirectional ∧ a.h0 = none)
    (hacts : SameActs 1 a.dir (Onnx.allActs [.tanh] a.dir acts)) (hsup : ∀ x ∈ Onnx.allActs [.tanh] a.dir acts, x ∈ moduleActs) :
    genRnn act (nodeOf a acts [] [] none flag) a.X a.h0 = some ((Onnx.rnnT a (rnnFs act a.dir acts [] []) none).1,
      Onnx.lastState false a.dir a.S a.N a.H (Onnx.rnnAt a (rnnFs act a.dir acts [] []) none)) := by
  obtain ⟨f, hcfg, hls⟩ := rnnActs_eq hacts
  have h0 := hls 0 (by cases a.dir <;> simp [RecDir.count])
  have hI1 : a.I ≠ 1 := by omega
  have hH1 : a.H ≠ 1 := by omega
  obtain ⟨st, hst1, hst2, hst3⟩ := hiddenState_eq (a := a) (T := a.h0) (hl.imp_right (·.2)) hok.2.2.2.2.1
  obtain ⟨seq, hid, m1, m2, m3⟩ := burn_recurrent_eq (state := st)
    (step := fun d => Burn.rnnStep (act f none none) none a.I a.H (((List.range a.dir.count).map fun d => gateOf true 1 a.H a.I a.W a.R a.B d 0).getD d
        (gateOf true 1 a.H a.I a.W a.R a.B 0 0)))
    (step' := fun d => Onnx.rnnStep (rnnFs act a.dir acts [] [] d 0) none a.I a.H (Onnx.gates 1 a.H a.W a.R a.B d))
    (fits := (List.range a.dir.count).all fun d => (((List.range a.dir.count).map fun d => gateOf true 1 a.H a.I a.W a.R a.B d 0).getD d
        (gateOf true 1 a.H a.I a.W a.R a.B 0 0)).fits a.I a.H a.B.isSome) hok hS hN (by omega)
    (by
      rw [List.all_eq_true]
      intro d hd
      rw [getD_map_below (List.mem_range.1 hd)]
      exact gate_fits)
    (fun d hd x s t hs => by
      have e : rnnFs act a.dir acts [] [] d 0 = act f none none := activation_plain act (hls d hd)
      rw [getD_map_below hd, e]
      exact rnn_step hs)
    hst2 hst3 (hl.imp_right (·.1))
  unfold genRnn
  rw [show Infer.rnnActs (nodeOf a acts [] [] none flag).dir (nodeOf a acts [] [] none flag).acts = some f from hcfg,
    Option.bind_some, burnAct_some act (hsup f (List.mem_of_getElem? h0)), Option.bind_some, constants_nodeOf, Option.bind_some]
  rw [show rnnGates (nodeOf a acts [] [] none flag).H (nodeOf a acts [] [] none flag).I a.W a.R a.B
    (nodeOf a acts [] [] none flag).dir = _ from rnnGates_eq hok.2.1 hok.2.2.1 hok.2.2.2.1 hI1 hH1, Option.bind_some,
    head_range, Option.bind_some, show hiddenState (nodeOf a acts [] [] none flag).dir a.h0 = some st from hst1, Option.bind_some]
  refine (congrArg (Option.bind · _) m1).trans ?_
  refine (congrArg (Option.bind · _) m2).trans ?_
  rw [Option.bind_some]
  exact congrArg (Option.map _) m3

theorem flip_three {a b c : Nat} {f : List Nat → α} :
    Burn.flip (Tensor.ofFn [a, b, c] f) 1 = some (Tensor.ofFn [a, b, c] fun i => f [i.getD 0 0, b - 1 - i.getD 1 0, i.getD 2 0]) := by
  unfold Burn.flip
  rw [if_pos (by simp [Tensor.ofFn])]
  congr 1
  refine Tensor.ofFn_congr (s := [a, b, c]) fun i hi => ?_
  obtain ⟨x, y, z, rfl, hx, hy, hz⟩ := inRange3 hi
  exact Tensor.get_ofFn (s := [a, b, c]) (i := [x, b - 1 - y, z]) ⟨hx, by omega, hz, trivial⟩

/-- The frame around GRU's module in one direction: the module sees the sequence in the order of the direction, and its
hidden states go back to their places. -/
theorem gruOne_eq [CommRing α] [LinearOrder α] {rev layout : Bool} {S N I H : Nat} {X : Tensor α} {run : Tensor α → Option (Tensor α)}
    {hid : Nat → Nat → Nat → α} (hX : X.shape = if layout then [N, S, I] else [S, N, I]) (hS : 0 < S)
    (hrun : run (Tensor.ofFn [N, S, I] fun i => Onnx.inputAt layout X (visit rev S (i.getD 1 0)) (i.getD 0 0) (i.getD 2 0)) =
      some (Tensor.ofFn [N, S, H] fun i => hid (i.getD 0 0) (i.getD 1 0 + 1) (i.getD 2 0))) :
    gruOne rev layout run X = some (Onnx.allStates layout (if rev then .reverse else .forward) S N H (fun _ => hid),
      Onnx.lastState false .forward S N H (fun _ => hid)) := by
  have e1 : (if layout then some X else Burn.swapDims X 0 1) =
      some (Tensor.ofFn [N, S, I] fun i => Onnx.inputAt layout X (i.getD 1 0) (i.getD 0 0) (i.getD 2 0)) := by
    cases layout
    · have hX : X.shape = [S, N, I] := hX
      simp only [Bool.false_eq_true, if_false]
      conv => lhs; rw [← Tensor.ofFn_get X, hX]
      rw [swapDims_three]
      rfl
    · have hX : X.shape = [N, S, I] := hX
      simp only [if_true]
      conv => lhs; rw [← Tensor.ofFn_get X, hX]
      congr 1
      refine Tensor.ofFn_congr fun i hi => ?_
      obtain ⟨x, y, z, rfl, hx, hy, hz⟩ := inRange3 hi
      rfl
  have e2 : (if rev then Burn.flip (Tensor.ofFn [N, S, I] fun i => Onnx.inputAt layout X (i.getD 1 0) (i.getD 0 0) (i.getD 2 0)) 1
      else some (Tensor.ofFn [N, S, I] fun i => Onnx.inputAt layout X (i.getD 1 0) (i.getD 0 0) (i.getD 2 0))) =
      some (Tensor.ofFn [N, S, I] fun i => Onnx.inputAt layout X (visit rev S (i.getD 1 0)) (i.getD 0 0) (i.getD 2 0)) := by
    cases rev
    · rfl
    · simp only [if_true]
      rw [flip_three]
      rfl
  have e3 : (if rev then Burn.flip (Tensor.ofFn [N, S, H] fun i => hid (i.getD 0 0) (i.getD 1 0 + 1) (i.getD 2 0)) 1
      else some (Tensor.ofFn [N, S, H] fun i => hid (i.getD 0 0) (i.getD 1 0 + 1) (i.getD 2 0))) =
      some (Tensor.ofFn [N, S, H] fun i => hid (i.getD 0 0) (stepsAt rev S (i.getD 1 0)) (i.getD 2 0)) := by
    cases rev
    · rfl
    · simp only [if_true]
      rw [flip_three]
      congr 1
      refine Tensor.ofFn_congr fun i hi => ?_
      obtain ⟨x, y, z, rfl, hx, hy, hz⟩ := inRange3 hi
      have : S - 1 - y + 1 = S - y := by omega
      simp [stepsAt, this]
  have hc : (if rev then RecDir.reverse else .forward).count = 1 := by cases rev <;> rfl
  have hr : ∀ d, (if rev then RecDir.reverse else .forward).rev d = rev := by intro d; cases rev <;> rfl
  have e4 : (if layout then Burn.unsqueezeDims (Tensor.ofFn [N, S, H] fun i => hid (i.getD 0 0) (stepsAt rev S (i.getD 1 0)) (i.getD 2 0)) [2] 4
      else (Burn.swapDims (Tensor.ofFn [N, S, H] fun i => hid (i.getD 0 0) (stepsAt rev S (i.getD 1 0)) (i.getD 2 0)) 0 1).bind
        (Burn.unsqueezeDims · [1] 4)) =
      some (Onnx.allStates layout (if rev then .reverse else .forward) S N H (fun _ => hid)) := by
    cases layout
    · simp only [Bool.false_eq_true, if_false, Onnx.allStates, hc, hr]
      rw [swapDims_three, Option.bind_some, unsqueeze_one_of_three]
      rfl
    · simp only [if_true, Onnx.allStates, hc, hr]
      rw [unsqueeze_two_of_three]
      rfl
  have e5 : Burn.sliceBox (Tensor.ofFn [N, S, H] fun i => hid (i.getD 0 0) (stepsAt rev S (i.getD 1 0)) (i.getD 2 0))
      [(0, N), (if rev then (0, 1) else (S - 1, S)), (0, H)] = some (Tensor.ofFn [N, 1, H] fun i => hid (i.getD 0 0) S (i.getD 2 0)) := by
    rw [sliceBox_ofFn (by simp [Tensor.ofFn])]
    · congr 1
      have hsh : [(0, N), (if rev then (0, 1) else (S - 1, S)), (0, H)].map (fun r : Nat × Nat => r.2 - r.1) = [N, 1, H] := by
        cases rev <;> simp
        omega
      rw [hsh]
      refine Tensor.ofFn_congr fun i hi => ?_
      obtain ⟨x, y, z, rfl, hx, hy, hz⟩ := inRange3 hi
      obtain rfl : y = 0 := by omega
      cases rev
      · refine (Tensor.get_ofFn (s := [N, S, H]) (i := [0 + x, S - 1 + 0, 0 + z]) ⟨by omega, by omega, by omega, trivial⟩).trans ?_
        have : S - 1 + 0 + 1 = S := by omega
        simp [stepsAt, show S - 1 + 1 = S by omega]
      · refine (Tensor.get_ofFn (s := [N, S, H]) (i := [0 + x, 0 + 0, 0 + z]) ⟨by omega, by omega, by omega, trivial⟩).trans ?_
        simp [stepsAt]
    · intro k hk hs
      match k, hk with
      | 0, _ => exact ⟨Nat.zero_le _, Nat.le_refl _⟩
      | 1, _ =>
        cases rev
        · exact ⟨Nat.sub_le _ _, Nat.le_refl _⟩
        · exact ⟨Nat.zero_le _, hS⟩
      | 2, _ => exact ⟨Nat.zero_le _, Nat.le_refl _⟩
  have e6 : Burn.squeezeDim (Tensor.ofFn [N, 1, H] fun i => hid (i.getD 0 0) S (i.getD 2 0)) 1 =
      some (Tensor.ofFn [N, H] fun i => hid (i.getD 0 0) S (i.getD 1 0)) := by
    have e : Burn.squeezeDim (Tensor.ofFn [N, 1, H] fun i => hid (i.getD 0 0) S (i.getD 2 0)) 1 =
        Burn.reshape (Tensor.ofFn [N, 1, H] fun i => hid (i.getD 0 0) S (i.getD 2 0)) [N, H] := rfl
    rw [e]
    refine reshape_ofFn (by simp [prodShape]) fun i hi => ?_
    obtain ⟨x, y, rfl, hx, hy⟩ := inRange2 hi
    exact ⟨[x, 0, y], ⟨hx, by omega, hy, trivial⟩, by simp [flatIdx, prodShape], rfl⟩
  unfold gruOne
  rw [e1, Option.bind_some, e2, Option.bind_some, hrun, Option.bind_some, e3, Option.bind_some, e4, Option.bind_some]
  have hsh : (Tensor.ofFn [N, S, H] fun i => hid (i.getD 0 0) (stepsAt rev S (i.getD 1 0)) (i.getD 2 0)).shape = [N, S, H] := rfl
  simp only [hsh]
  rw [if_neg (by omega), e5, Option.bind_some, e6, Option.bind_some, unsqueeze_zero_of_two]
  rfl

theorem gruStep_congr [CommRing α] [LinearOrder α] {f g : α → α} {clip : Option α} {lin : Bool} {I H : Nat} {w : Onnx.Gates α}
    {x y h : Nat → α} {j : Nat} (hx : ∀ m, m < I → x m = y m) :
    Onnx.gruStep f g clip lin I H w x h j = Onnx.gruStep f g clip lin I H w y h j := by
  have e : ∀ k j, w.x I k j x = w.x I k j y := fun k j => sumTo_congr fun m hm => by rw [hx m hm]
  unfold Onnx.gruStep
  simp only [e]

/-- The gates of all directions of GRU. -/
def gruGateList [CommRing α] [LinearOrder α] (a : Onnx.RecIn α) : List (Burn.Gate α × Burn.Gate α × Burn.Gate α) :=
  (List.range a.dir.count).map fun d => (gateOf false 3 a.H a.I a.W a.R a.B d 0, gateOf false 3 a.H a.I a.W a.R a.B d 1,
    gateOf false 3 a.H a.I a.W a.R a.B d 2)

/-- The hidden states of a module that reads the sequence forwards, after its input was turned round. -/
theorem burn_gru_one [CommRing α] [LinearOrder α] {a : Onnx.RecIn α} {f g : α → α} {lin : Bool} {state : Option (Tensor α)}
    {fs : Nat → Nat → α → α} (hS : 0 < a.S) (hN : 0 < a.N) (hI : 0 < a.I) (hH : 0 < a.H) (hd : a.dir ≠ .bidirectional)
    (hf : fs 0 0 = f ∧ fs 0 1 = g)
    (hst : ∀ st ∈ state, st.shape = Burn.stateShape a.dir a.N a.H)
    (hin : ∀ d b j, d < a.dir.count → b < a.N → j < a.H → Burn.stateAt a.dir state d b j = Onnx.initialAt a.layout a.h0 d b j)
    {x0 : Burn.Gate α × Burn.Gate α × Burn.Gate α} :
    (Burn.gru f g lin true a.B.isSome .forward a.I a.H (fun d => (gruGateList a).getD d x0)
      (Tensor.ofFn [a.N, a.S, a.I] fun i => Onnx.inputAt a.layout a.X (visit (decide (a.dir = .reverse)) a.S (i.getD 1 0)) (i.getD 0 0) (i.getD 2 0))
      state).map (·.1) = some (Tensor.ofFn [a.N, a.S, a.H] fun i => Onnx.gruAt a fs none lin 0 (i.getD 0 0) (i.getD 1 0 + 1) (i.getD 2 0)) := by
  have hc : a.dir.count = 1 := by revert hd; cases a.dir <;> simp [RecDir.count]
  have hg : (gruGateList a).getD 0 x0 = (gateOf false 3 a.H a.I a.W a.R a.B 0 0, gateOf false 3 a.H a.I a.W a.R a.B 0 1,
      gateOf false 3 a.H a.I a.W a.R a.B 0 2) := by
    unfold gruGateList
    exact getD_map_below (by omega)
  have hss : Burn.stateShape .forward a.N a.H = Burn.stateShape a.dir a.N a.H := by revert hd; cases a.dir <;> simp [Burn.stateShape]
  have hsa : ∀ d b j, Burn.stateAt .forward state d b j = Burn.stateAt a.dir state d b j := by
    intro d b j
    revert hd; cases a.dir <;> simp [Burn.stateAt]
  have hrv : a.dir.rev 0 = decide (a.dir = .reverse) := by revert hd; cases a.dir <;> simp [RecDir.rev]
  have hfit : ((List.range RecDir.forward.count).all fun d => ((gruGateList a).getD d x0).1.fits a.I a.H a.B.isSome &&
      ((gruGateList a).getD d x0).2.1.fits a.I a.H a.B.isSome && ((gruGateList a).getD d x0).2.2.fits a.I a.H a.B.isSome) = true := by
    rw [List.all_eq_true]
    intro d hd
    obtain rfl : d = 0 := by simp [RecDir.count] at hd; exact hd
    rw [hg]
    simp only [Bool.and_eq_true]
    exact ⟨⟨gate_fits, gate_fits⟩, gate_fits⟩
  unfold Burn.gru Burn.recurrent
  have hsq : Burn.seqSizes true a.I (Tensor.ofFn [a.N, a.S, a.I] fun i => Onnx.inputAt a.layout a.X
      (visit (decide (a.dir = .reverse)) a.S (i.getD 1 0)) (i.getD 0 0) (i.getD 2 0)).shape = some (a.S, a.N) := by
    simp [Burn.seqSizes, Tensor.ofFn, hS, hN, hI]
  rw [hsq, Option.bind_some]
  simp only
  rw [if_pos ⟨hfit, by rw [hss]; exact hst⟩, Option.map_some]
  congr 1
  unfold Burn.sequence
  simp only [if_true, RecDir.count, Nat.one_mul]
  refine Tensor.ofFn_congr fun i hi => ?_
  obtain ⟨b, t, j, rfl, hb, ht, hj⟩ := inRange3 hi
  simp only [List.getD_cons_zero, List.getD_cons_succ, Nat.div_eq_of_lt hj, Nat.mod_eq_of_lt hj, RecDir.rev, stepsAt, Bool.false_eq_true, if_false]
  unfold Onnx.gruAt
  refine after_rel_lt (n := a.S) (P := fun s t : Nat → α => ∀ j, j < a.H → s j = t j)
      (fun j hj => (hsa 0 b j).trans (hin 0 b j (by omega) hb hj)) (fun k s t' hk hs => ?_) (t + 1) (by omega) j hj
  have hx : (fun m => (Tensor.ofFn [a.N, a.S, a.I] fun i => Onnx.inputAt a.layout a.X
      (visit (decide (a.dir = .reverse)) a.S (i.getD 1 0)) (i.getD 0 0) (i.getD 2 0)).get [b, visit false a.S k, m]) = (fun m =>
      (Tensor.ofFn [a.N, a.S, a.I] fun i => Onnx.inputAt a.layout a.X
      (visit (decide (a.dir = .reverse)) a.S (i.getD 1 0)) (i.getD 0 0) (i.getD 2 0)).get [b, k, m]) := rfl
  rw [hx, hg, hrv, hf.1, hf.2]
  intro j hj
  rw [gru_step hs j hj]
  refine gruStep_congr (fun m hm => ?_)
  exact Tensor.get_ofFn (s := [a.N, a.S, a.I]) (i := [b, k, m]) ⟨hb, hk, hm, trivial⟩

theorem genGru_eq [CommRing α] [LinearOrder α] {act : RecAct → Option α → Option α → α → α} {a : Onnx.RecIn α}
    {acts : Option (List RecAct)} {lin : Bool} (hok : a.Ok 3) (hI : 2 ≤ a.I) (hH : 2 ≤ a.H) (hS : 0 < a.S) (hN : 0 < a.N)
    (hl : a.layout = false ∨ a.h0 = none)
    (hacts : Onnx.allActs [.sigmoid, .tanh] a.dir acts = Onnx.allActs [.sigmoid, .tanh] a.dir none) :
    genGru act (nodeOf a acts [] [] none lin) a.X a.h0 = some ((Onnx.gruT a (gruFs act a.dir acts [] []) none lin).1,
      Onnx.lastState false a.dir a.S a.N a.H (Onnx.gruAt a (gruFs act a.dir acts [] []) none lin)) := by
  have hI1 : a.I ≠ 1 := by omega
  have hH1 : a.H ≠ 1 := by omega
  have hfs : ∀ d, d < a.dir.count → gruFs act a.dir acts [] [] d 0 = act .sigmoid none none ∧
      gruFs act a.dir acts [] [] d 1 = act .tanh none none := by
    intro d hd
    unfold gruFs
    rw [hacts]
    obtain rfl | ⟨hb, rfl⟩ := dir_cases hd
    · constructor <;> refine activation_plain act ?_ <;> cases a.dir <;> rfl
    · rw [hb]
      exact ⟨activation_plain act rfl, activation_plain act rfl⟩
  obtain ⟨st, hst1, hst2, hst3⟩ := hiddenState_eq (a := a) (T := a.h0) hl hok.2.2.2.2.1
  unfold genGru
  rw [show Infer.gruActs (nodeOf a acts [] [] none lin).dir (nodeOf a acts [] [] none lin).acts = some (.sigmoid, .tanh) from gruActs_eq hacts,
    Option.bind_some, if_neg (by simp [nodeOf, Infer.recClip]), constants_nodeOf, Option.bind_some]
  rw [show gruGates (nodeOf a acts [] [] none lin).H (nodeOf a acts [] [] none lin).I a.W a.R a.B
    (nodeOf a acts [] [] none lin).dir = some (gruGateList a) from gruGates_eq hok.2.1 hok.2.2.1 hok.2.2.2.1 hI1 hH1, Option.bind_some]
  unfold gruGateList
  rw [head_range, Option.bind_some, show hiddenState (nodeOf a acts [] [] none lin).dir a.h0 = some st from hst1, Option.bind_some]
  by_cases hb : a.dir = .bidirectional
  · obtain ⟨seq, hid, m1, m2, m3⟩ := burn_recurrent_eq (state := st)
      (step := fun d => Burn.gruStep (act .sigmoid none none) (act .tanh none none) lin a.I a.H ((gruGateList a).getD d
          (gateOf false 3 a.H a.I a.W a.R a.B 0 0, gateOf false 3 a.H a.I a.W a.R a.B 0 1, gateOf false 3 a.H a.I a.W a.R a.B 0 2)).1
          ((gruGateList a).getD d (gateOf false 3 a.H a.I a.W a.R a.B 0 0, gateOf false 3 a.H a.I a.W a.R a.B 0 1,
            gateOf false 3 a.H a.I a.W a.R a.B 0 2)).2.1
          ((gruGateList a).getD d (gateOf false 3 a.H a.I a.W a.R a.B 0 0, gateOf false 3 a.H a.I a.W a.R a.B 0 1,
            gateOf false 3 a.H a.I a.W a.R a.B 0 2)).2.2)
      (step' := fun d => Onnx.gruStep (gruFs act a.dir acts [] [] d 0) (gruFs act a.dir acts [] [] d 1) none lin a.I a.H
        (Onnx.gates 3 a.H a.W a.R a.B d))
      (fits := (List.range a.dir.count).all fun d => ((gruGateList a).getD d (gateOf false 3 a.H a.I a.W a.R a.B 0 0,
          gateOf false 3 a.H a.I a.W a.R a.B 0 1, gateOf false 3 a.H a.I a.W a.R a.B 0 2)).1.fits a.I a.H a.B.isSome &&
        ((gruGateList a).getD d (gateOf false 3 a.H a.I a.W a.R a.B 0 0, gateOf false 3 a.H a.I a.W a.R a.B 0 1,
          gateOf false 3 a.H a.I a.W a.R a.B 0 2)).2.1.fits a.I a.H a.B.isSome &&
        ((gruGateList a).getD d (gateOf false 3 a.H a.I a.W a.R a.B 0 0, gateOf false 3 a.H a.I a.W a.R a.B 0 1,
          gateOf false 3 a.H a.I a.W a.R a.B 0 2)).2.2.fits a.I a.H a.B.isSome) hok hS hN (by omega)
      (by
        rw [List.all_eq_true]
        intro d hd
        unfold gruGateList
        rw [getD_map_below (List.mem_range.1 hd)]
        simp only [Bool.and_eq_true]
        exact ⟨⟨gate_fits, gate_fits⟩, gate_fits⟩)
      (fun d hd x s t hs => by
        unfold gruGateList
        rw [getD_map_below hd, (hfs d hd).1, (hfs d hd).2]
        exact gru_step hs)
      hst2 hst3 (Or.inr hb)
    simp only [show (nodeOf a acts [] [] none lin).dir = .bidirectional from hb]
    rw [hb] at m1 m2 m3
    refine (congrArg (Option.bind · _) m1).trans ?_
    refine (congrArg (Option.map _) m2).trans ?_
    have m3 : some hid = some _ := m3
    rw [Option.map_some, Option.some.inj m3, ← hb]
    rfl
  · have hone := gruOne_eq (rev := decide (a.dir = .reverse)) (layout := a.layout) (H := a.H) hok.1 hS
      (run := fun input => (Burn.gru (act .sigmoid none none) (act .tanh none none) lin true a.B.isSome .forward a.I a.H
        (fun d => (gruGateList a).getD d (gateOf false 3 a.H a.I a.W a.R a.B 0 0, gateOf false 3 a.H a.I a.W a.R a.B 0 1,
          gateOf false 3 a.H a.I a.W a.R a.B 0 2)) input st).map (·.1))
      (hid := Onnx.gruAt a (gruFs act a.dir acts [] []) none lin 0)
      (burn_gru_one (lin := lin) (fs := gruFs act a.dir acts [] []) hS hN (by omega) (by omega) hb (hfs 0 (by cases a.dir <;> simp [RecDir.count])) hst2 hst3
        (x0 := (gateOf false 3 a.H a.I a.W a.R a.B 0 0, gateOf false 3 a.H a.I a.W a.R a.B 0 1, gateOf false 3 a.H a.I a.W a.R a.B 0 2)))
    have hdir : (if decide (a.dir = .reverse) = true then RecDir.reverse else .forward) = a.dir := by
      revert hb
      cases a.dir <;> simp
    have hc : a.dir.count = 1 := by
      revert hb
      cases a.dir <;> simp [RecDir.count]
    have e1 : Onnx.allStates a.layout a.dir a.S a.N a.H (fun _ => Onnx.gruAt a (gruFs act a.dir acts [] []) none lin 0) =
        (Onnx.gruT a (gruFs act a.dir acts [] []) none lin).1 := by
      unfold Onnx.gruT Onnx.allStates
      cases a.layout
      · simp only [Bool.false_eq_true, if_false, hc]
        refine Tensor.ofFn_congr fun i hi => ?_
        obtain ⟨x, y, z, w, rfl, hx, hy, hz, hw⟩ := inRange4 hi
        obtain rfl : y = 0 := by omega
        rfl
      · simp only [if_true, hc]
        refine Tensor.ofFn_congr fun i hi => ?_
        obtain ⟨x, y, z, w, rfl, hx, hy, hz, hw⟩ := inRange4 hi
        obtain rfl : z = 0 := by omega
        rfl
    have e2 : Onnx.lastState false .forward a.S a.N a.H (fun _ => Onnx.gruAt a (gruFs act a.dir acts [] []) none lin 0) =
        Onnx.lastState false a.dir a.S a.N a.H (Onnx.gruAt a (gruFs act a.dir acts [] []) none lin) := by
      unfold Onnx.lastState
      simp only [Bool.false_eq_true, if_false, hc]
      refine Tensor.ofFn_congr (s := [1, a.N, a.H]) fun i hi => ?_
      obtain ⟨x, y, z, rfl, hx, hy, hz⟩ := inRange3 hi
      obtain rfl : x = 0 := by omega
      rfl
    rw [hdir, e1, e2] at hone
    match hd : a.dir, hb with
    | .forward, _ =>
      simp only [show (nodeOf a acts [] [] none lin).dir = .forward from hd]
      rw [hd] at hone
      rw [← hone]
      simp only [gruGateList, hd]
      rfl
    | .reverse, _ =>
      simp only [show (nodeOf a acts [] [] none lin).dir = .reverse from hd]
      rw [hd] at hone
      rw [← hone]
      simp only [gruGateList, hd]
      rfl

end OnnxIR
