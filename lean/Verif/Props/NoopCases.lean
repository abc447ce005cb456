import Verif.Props.Noop
import Verif.Lemmas.Check
import Verif.Model.OpRules3

/-!
# C54: a graph that meets the hypotheses, and nodes wrongly taken for no-ops
-/

namespace OnnxIR

namespace NoopCase

/-- Values: a tensor of integers and its element type. -/
abbrev NV := DType × Tensor Int

/-- Elements of such values. -/
def nvView : ElemView NV DType Int where
  shape := fun v => v.2.shape
  kind := Prod.fst
  kindOf := id
  elem := fun v i => v.2.get i
  ext := fun x y hk hs he => Prod.ext hk (Tensor.eq_of_get hs he)

/-- Integer vectors. -/
def nvTensors : TensorView NV where
  shape := fun v => v.2.shape
  i64s := fun v => some v.2.data
  scalarI64 := fun v => v.2.data.head?
  mkI64 := fun _ l => (.i64, ⟨[l.length], l, by simp [prodShape]⟩)

/-- The same elements in another shape. -/
def refill (v : NV) (s : List Nat) : Option NV :=
  if h : prodShape v.2.shape = prodShape s then some (v.1, v.2.withShape s h) else none

/-- `Expand`. -/
def expandTo (v : NV) (target : List Nat) : Option NV :=
  (bcast v.2.shape target).map fun s => (v.1, Tensor.ofFn s fun i => v.2.get (proj v.2.shape i))

/-- `Transpose`. -/
def transposeBy (v : NV) (perm : List Nat) : Option NV :=
  if perm.Nodup ∧ (∀ a ∈ perm, a < v.2.shape.length) ∧ ∀ a ∈ List.range v.2.shape.length, a ∈ perm then
    some (v.1, v.2.transpose perm)
  else none

/-- `Transpose` with its attribute. -/
def runTranspose (at' : List (String × AttrVal NV)) (v : NV) : Option NV :=
  match attrGet at' "perm" with
  | none => transposeBy v (List.range v.2.shape.length).reverse
  | some (.i64s ps) => if ps.map (fun p => Int.ofNat p.toNat) = ps then transposeBy v (ps.map Int.toNat) else none
  | some _ => none

/-- `Flatten`. -/
def runFlatten (at' : List (String × AttrVal NV)) (v : NV) : Option NV :=
  (attrI64 at' "axis").bind fun a => (Onnx.flatten (a.getD 1) v.2.shape).bind (refill v)

/-- `Reshape` to a target without 0 and −1. -/
def runReshape (at' : List (String × AttrVal NV)) (v : NV) (rest : List (Option NV)) : Option NV :=
  match Onnx.reshapeTarget nvTensors at' rest with
  | none => none
  | some t => if t.all (0 < ·) then refill v (t.map Int.toNat) else none

/-- A meaning for some of the operators. A `Dropout` in training mode (it has a third input) doubles the values; one
named `masked` also returns the mask. -/
def nvSem : Sem NV := fun nm op at' xs =>
  match op, xs with
  | .identity, some x :: _ => some [x]
  | .other "Dropout", some x :: rest =>
    let y := if rest[1]? = some none ∨ rest[1]? = none then x else (x.1, x.2.map (2 * ·))
    some (if nm = "masked" then [y, (.bool, x.2.map fun _ => 1)] else [y])
  | .transpose, some x :: _ => (runTranspose at' x).map ([·])
  | .other "Flatten", some x :: _ => (runFlatten at' x).map ([·])
  | .reshape, some x :: rest => (runReshape at' x rest).map ([·])
  | .other "Expand", some x :: some t :: _ => (expandTo x (t.2.data.map Int.toNat)).map ([·])
  | .cast, some x :: _ =>
    match attrGet at' "to" with
    | some (.i64 7) => some [(.i64, x.2)]
    | some (.i64 2) => some [if x.1 = .u8 then x else (.u8, x.2.map (· % 256))]
    | _ => none
  | .add, [some x, some y] => (Tensor.zipBcast (· + ·) x.2 y.2).map fun t => [(x.1, t)]
  | _, _ => none

/-- Training mode. -/
def nvTraining (_ : List (String × AttrVal NV)) (rest : List (Option NV)) : Prop :=
  ¬ (rest[1]? = some none ∨ rest[1]? = none)

theorem refill_some {v w : NV} {s : List Nat} (h : refill v s = some w) :
    nvView.shape w = s ∧ prodShape s = prodShape (nvView.shape v) ∧ Onnx.SameData nvView v w := by
  unfold refill at h
  split at h
  · next hp =>
    cases h
    refine ⟨rfl, hp.symm, rfl, fun i j hi hj hij => ?_⟩
    simp only [nvView, Tensor.get, Tensor.withShape]
    simp only [nvView, Tensor.withShape] at hij
    rw [hij]
  · cases h

theorem reshapeDims_self {az : Bool} {s : List Nat} : ∀ {t : List Int} {k : Nat}, t.all (0 < ·) = true →
    Onnx.ReshapeDims az s k t (t.map Int.toNat)
  | [], _, _ => trivial
  | v :: vs, k, h => by
    simp only [List.all_cons, Bool.and_eq_true, decide_eq_true_eq] at h
    refine ⟨.inr (.inr ⟨by omega, fun h0 => by omega⟩), reshapeDims_self h.2⟩

/-- This meaning obeys ONNX. -/
theorem nvSem_ok : NoopSem nvSem nvView nvTensors nvTraining where
  identity := fun nm at' x rest ys h => by simp only [nvSem, Option.some.injEq] at h; exact h.symm
  dropout := by
    intro nm at' x rest ys h ht
    simp only [nvTraining, Decidable.not_not] at ht
    simp only [nvSem, if_pos ht, Option.some.injEq] at h
    subst h
    split <;> rfl
  split := fun nm at' x rest ys h => by cases h
  concat := fun nm at' xs ys h => by cases xs <;> cases h
  transpose := by
    intro nm at' x rest ys h
    simp only [nvSem] at h
    obtain ⟨y, hy, rfl⟩ := Option.map_eq_some_iff.1 h
    have key : ∀ perm, transposeBy x perm = some y → Onnx.Transposed nvView perm x y := by
      intro perm h
      unfold transposeBy at h
      split at h
      · next hp =>
        cases h
        refine ⟨⟨hp.1, fun a => ⟨hp.2.1 a, fun ha => hp.2.2 a (List.mem_range.2 ha)⟩⟩, rfl, rfl, fun i hi => ?_⟩
        exact Tensor.get_ofFn hi
      · cases h
    unfold runTranspose at hy
    split at hy
    · next h0 => exact ⟨_, y, rfl, key _ hy, by rw [h0]; rfl⟩
    · next ps h0 =>
      split at hy
      · next hps =>
        refine ⟨_, y, rfl, key _ hy, ?_⟩
        rw [h0]
        simpa [Function.comp_def] using hps.symm
      · cases hy
    · cases hy
  flatten := by
    intro nm at' x rest ys h
    simp only [nvSem] at h
    obtain ⟨y, hy, rfl⟩ := Option.map_eq_some_iff.1 h
    obtain ⟨a, ha, hy⟩ := Option.bind_eq_some_iff.1 hy
    obtain ⟨s, hs, hy⟩ := Option.bind_eq_some_iff.1 hy
    obtain ⟨h1, -, h3⟩ := refill_some hy
    exact ⟨a, y, rfl, ha, by rw [h1]; exact hs, h3⟩
  reshape := by
    intro nm at' x rest ys h
    simp only [nvSem] at h
    obtain ⟨y, hy, rfl⟩ := Option.map_eq_some_iff.1 h
    unfold runReshape at hy
    split at hy
    · cases hy
    · next t ht =>
      split at hy
      · next hall =>
        obtain ⟨h1, h2, h3⟩ := refill_some hy
        refine ⟨t, y, rfl, ht, ⟨?_, by rw [h1]; exact reshapeDims_self hall, by rw [h1]; exact h2⟩, h3⟩
        rw [List.count_eq_zero_of_not_mem]
        · omega
        · intro hm
          have := List.all_eq_true.1 hall _ hm
          simp at this
      · cases hy
  expand := by
    intro nm at' x rest ys h
    simp only [nvSem] at h
    cases rest with
    | nil => cases h
    | cons t rest =>
      cases t with
      | none => cases h
      | some t =>
        obtain ⟨y, hy, rfl⟩ := Option.map_eq_some_iff.1 h
        obtain ⟨s, hs, rfl⟩ := Option.map_eq_some_iff.1 hy
        exact ⟨_, _, rfl, hs, rfl, fun i hi => Tensor.get_ofFn hi⟩
  cast := by
    intro nm at' x rest ys h
    simp only [nvSem] at h
    split at h
    · cases h; exact ⟨_, rfl, rfl, fun _ i _ => rfl⟩
    · cases h
      refine ⟨_, rfl, by split <;> rfl, fun hk i _ => ?_⟩
      split
      · rfl
      · next hne => rw [if_neg hne] at hk; exact absurd hk.symm hne
    · cases h
  gather := fun nm at' x rest ys h => by cases h
  pad := fun nm at' x rest ys h => by cases h

/-! ## A graph in which every node but the last is dropped -/

/-- An `i64` vector or matrix. -/
def nv (s : List Nat) (l : List Int) (h : l.length = prodShape s) : NV := (.i64, ⟨s, l, h⟩)

/-- The type of an `i64` tensor. -/
def nvTy (p : PShape) : ArgType := .tensor ⟨.i64, p.length, some p⟩

/-- A value computed earlier. -/
def nvArg (x : String) (p : PShape) : Arg NV := ⟨x, nvTy p, .dynamic⟩

/-- `z = x + Cast (Dropout (Expand (Reshape (Flatten (Transpose x)) tgt) [2, 3]))`; the first dimension is unknown
until `Expand`, and the target of `Reshape` is an input. -/
def dropNodes : List (Node NV) :=
  [⟨.transpose, "t", [nvArg "x" [none, some 3]], [nvArg "t1" [none, some 3]], [("perm", .i64s [0, 1])]⟩,
   ⟨.other "Flatten", "f", [nvArg "t1" [none, some 3]], [nvArg "f1" [none, some 3]], [("axis", .i64 (-1))]⟩,
   ⟨.reshape, "r", [nvArg "f1" [none, some 3], nvArg "tgt" [some 2]], [nvArg "r1" [none, some 3]], []⟩,
   ⟨.other "Expand", "e", [nvArg "r1" [some 2, some 3], ⟨"", nvTy [some 2], .static (nv [2] [2, 3] rfl)⟩],
     [nvArg "e1" [some 2, some 3]], []⟩,
   ⟨.other "Dropout", "d", [nvArg "e1" [some 2, some 3]], [nvArg "d1" [some 2, some 3]], []⟩,
   ⟨.cast, "c", [nvArg "d1" [some 2, some 3]], [nvArg "c1" [some 2, some 3]], [("to", .i64 7)]⟩,
   ⟨.add, "a", [nvArg "x" [none, some 3], nvArg "c1" [some 2, some 3]], [nvArg "z" [some 2, some 3]], []⟩]

/-- The inputs. -/
def dropEnv : Env NV := fun s =>
  if s = "x" then some (nv [2, 3] [1, 2, 3, 4, 5, 6] rfl) else if s = "tgt" then some (nv [2] [2, 3] rfl) else none

def dropOuts : List (Arg NV) := [nvArg "z" [some 2, some 3]]

abbrev dropTest : Node NV → Bool := droppedNoop nvTensors (fun _ => none) true

/-- The annotations of one step are right, as a check. -/
def fitsStepB (e1 : Env NV) (n : Node NV) (e2 : Env NV) : Bool :=
  (n.inputs.all fun a => match evalArg e1 a with
    | some (some v) => admitsB a.ty v.2.shape && v.1 == a.ty.elem
    | _ => true) &&
  (n.outputs.all fun o => match e2 o.name with
    | some v => admitsB o.ty v.2.shape && v.1 == o.ty.elem
    | none => true)

theorem typedElems_of_check {env : Env NV} {nodes : List (Node NV)}
    (h : checkRun nvSem fitsStepB env nodes = true) : TypedElems nvSem nvView env nodes := by
  intro p n q e1 e2 hn h1 h2
  have := checkRun_sound h p n q e1 e2 hn h1 h2
  simp only [fitsStepB, Bool.and_eq_true, List.all_eq_true] at this
  constructor
  · intro a ha v hv
    have h3 := this.1 a ha
    rw [hv] at h3
    simp only [Bool.and_eq_true, beq_iff_eq] at h3
    exact ⟨admitsB_sound h3.1, h3.2⟩
  · intro o ho v hv
    have h3 := this.2 o ho
    rw [hv] at h3
    simp only [Bool.and_eq_true, beq_iff_eq] at h3
    exact ⟨admitsB_sound h3.1, h3.2⟩

/-- The first input is not empty and there is no third one. -/
def roomB (e1 : Env NV) (n : Node NV) (_ : Env NV) : Bool :=
  match evalArgs e1 n.inputs with
  | some (some x :: rest) => decide (0 < prodShape x.2.shape) && rest[1]?.isNone
  | _ => true

/-- The rewirings, in some order. -/
def dropOrder : List (String × String) :=
  [("c1", "d1"), ("t1", "x"), ("e1", "r1"), ("f1", "t1"), ("d1", "e1"), ("r1", "f1")]

/-- Every hypothesis of `C54_elimination_preserves_outputs_partial` (hence of `C54_noop_returns_input_partial`) is
met; six of the seven nodes are dropped. -/
example : evalGraph nvSem dropEnv (applyNoop (planNoop dropTest [] dropNodes) dropOrder dropNodes dropOuts).1
      (applyNoop (planNoop dropTest [] dropNodes) dropOrder dropNodes dropOuts).2 =
        some [some (nv [2, 3] [2, 4, 6, 8, 10, 12] rfl)] ∧
    (applyNoop (planNoop dropTest [] dropNodes) dropOrder dropNodes dropOuts).1.map Node.inNames = [["x", "x"]] := by
  have hroom : checkRun nvSem roomB dropEnv dropNodes = true := by decide +kernel
  have hplan : (planNoop dropTest [] dropNodes).rewire = [("c1", "d1"), ("d1", "e1"), ("e1", "r1"), ("r1", "f1"),
      ("f1", "t1"), ("t1", "x")] := by decide +kernel
  refine ⟨C54_elimination_preserves_outputs_partial (training := nvTraining) nvSem_ok
    (ssa_of_check (by decide +kernel)) (wf_of_check (by decide +kernel)) ?_ ?_ ?_ ?_
    (typedElems_of_check (by decide +kernel)) ?_ ?_ ?_ (by decide +kernel), by decide +kernel⟩
  · intro n hn a ha v hv
    simp only [dropNodes, List.mem_cons, List.not_mem_nil, or_false] at hn
    rcases hn with rfl | rfl | rfl | rfl | rfl | rfl | rfl <;>
      (simp only [List.mem_cons, List.not_mem_nil, or_false] at ha) <;>
      first
        | (subst ha; cases hv)
        | (rcases ha with rfl | rfl <;> first | rfl | cases hv)
  · intro a ha
    simp only [dropOuts, List.mem_cons, List.not_mem_nil, or_false] at ha
    subst ha
    exact ⟨wfArg_of_check rfl, fun v hv => by cases hv⟩
  · decide +kernel
  · intro p q e _ _ x v w h; cases h
  · intro n hn hd
    simp only [dropNodes, List.mem_cons, List.not_mem_nil, or_false] at hn
    refine ⟨?_, ?_⟩
    · intro p q e e2 x rest hpq hp hst hx
      have hchk := checkRun_sound hroom p _ q e e2 hpq hp hst
      simp only [roomB, hx, Bool.and_eq_true, decide_eq_true_eq, Option.isNone_iff_eq_none] at hchk
      rcases hn with rfl | rfl | rfl | rfl | rfl | rfl | rfl
      · trivial
      · trivial
      · intro a as p' hi hp'
        cases hi
        cases hp'
        exact .inr ⟨hchk.1, .inl (by decide)⟩
      · intro a as p' hi hp'
        cases hi
        cases hp'
        decide
      · exact ⟨rfl, fun ht => ht (.inr hchk.2)⟩
      · trivial
      · trivial
    · intro i is hi
      rcases hn with rfl | rfl | rfl | rfl | rfl | rfl | rfl <;> (cases hi; exact .inl rfl)
  · intro orig idx n h; cases h
  · intro k v
    rw [hplan]
    simp only [dropOrder, mapGet, List.mem_cons, Prod.mk.injEq, List.not_mem_nil, or_false]
    constructor
    · rintro (⟨rfl, rfl⟩ | ⟨rfl, rfl⟩ | ⟨rfl, rfl⟩ | ⟨rfl, rfl⟩ | ⟨rfl, rfl⟩ | ⟨rfl, rfl⟩) <;> decide
    · intro h
      repeat' split at h
      all_goals first | (cases h; simp_all) | cases h

/-! ## Wrong decisions -/

/-- A `Dropout` with its mask, and the mask is what the graph returns. -/
def maskNodes : List (Node NV) :=
  [⟨.other "Dropout", "masked", [nvArg "x" [some 2]], [nvArg "y" [some 2], nvArg "m" [some 2]], []⟩]

/-- The mask of a dropped `Dropout` is lost: the graph returned the mask, and afterwards refers to a value that no
node computes. -/
theorem C54_mask_lost : maskNodes.all dropTest = true ∧
    evalGraph nvSem (fun s => if s = "x" then some (nv [2] [7, 8] rfl) else none) maskNodes
      [nvArg "m" [some 2]] = some [some (.bool, ⟨[2], [1, 1], rfl⟩)] ∧
    evalGraph nvSem (fun s => if s = "x" then some (nv [2] [7, 8] rfl) else none)
      (applyNoop (planNoop dropTest [] maskNodes) [("y", "x")] maskNodes [nvArg "m" [some 2]]).1
      (applyNoop (planNoop dropTest [] maskNodes) [("y", "x")] maskNodes [nvArg "m" [some 2]]).2 = none := by
  refine ⟨?_, ?_, ?_⟩ <;> decide +kernel

/-- A `Dropout` whose `training_mode` input is a constant. -/
def trainNodes : List (Node NV) :=
  [⟨.other "Dropout", "d", [nvArg "x" [some 2], ⟨"", .scalarNative .f32, .optional⟩,
    ⟨"", .scalarNative .bool, .static (.bool, ⟨[], [1], rfl⟩)⟩], [nvArg "y" [some 2]], []⟩]

/-- A `Dropout` told to run in training mode is dropped all the same. -/
theorem C54_training_dropped :
    evalGraph nvSem (fun s => if s = "x" then some (nv [2] [7, 8] rfl) else none) trainNodes
      [nvArg "y" [some 2]] = some [some (nv [2] [14, 16] rfl)] ∧
    evalGraph nvSem (fun s => if s = "x" then some (nv [2] [7, 8] rfl) else none)
      (applyNoop (planNoop dropTest [] trainNodes) [("y", "x")] trainNodes [nvArg "y" [some 2]]).1
      (applyNoop (planNoop dropTest [] trainNodes) [("y", "x")] trainNodes [nvArg "y" [some 2]]).2 =
        some [some (nv [2] [7, 8] rfl)] := by
  refine ⟨?_, ?_⟩ <;> decide +kernel

/-- A `Cast` of a `Shape` to `u8`. -/
def shapeCast : List (Node NV) :=
  [⟨.cast, "c", [⟨"s", .shape 1, .dynamic⟩], [⟨"y", .shape 1, .dynamic⟩], [("to", .i64 2)]⟩]

/-- Inference keeps the type of a `Shape` cast to `u8`, so the cast is dropped: 300 should become 44. -/
theorem C54_shape_cast_wrong : Infer.cast .u8 (.shape 1) = some (.shape 1) ∧
    evalGraph nvSem (fun s => if s = "s" then some (nv [1] [300] rfl) else none) shapeCast
      [⟨"y", .shape 1, .dynamic⟩] = some [some (.u8, ⟨[1], [44], rfl⟩)] ∧
    evalGraph nvSem (fun s => if s = "s" then some (nv [1] [300] rfl) else none)
      (applyNoop (planNoop dropTest [] shapeCast) [("y", "s")] shapeCast [⟨"y", .shape 1, .dynamic⟩]).1
      (applyNoop (planNoop dropTest [] shapeCast) [("y", "s")] shapeCast [⟨"y", .shape 1, .dynamic⟩]).2 =
        some [some (nv [1] [300] rfl)] := by
  refine ⟨?_, ?_, ?_⟩ <;> decide +kernel

end NoopCase

end OnnxIR
