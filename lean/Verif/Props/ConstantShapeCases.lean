import Verif.Props.ConstantShape
import Verif.Lemmas.Check

/-!
# C07: a concrete operator semantics, a graph that meets the hypotheses, and the counterexamples
-/

namespace OnnxIR

/-- Integer tensors. -/
abbrev ITensor := Tensor Int

/-- Build a tensor; data of the wrong length gives an empty tensor. -/
def mkITensor (s : List Nat) (l : List Int) : ITensor :=
  if h : l.length = prodShape s then ⟨s, l, h⟩ else ⟨[0], [], rfl⟩

/-- Looking into integer tensors. -/
def itensorView : TensorView ITensor where
  shape := Tensor.shape
  i64s := fun t => some t.data
  scalarI64 := fun t => t.data.head?
  mkI64 := mkITensor

/-- Do the `axes` name each axis at most once? -/
def nodupB : List Int → Bool
  | [] => true
  | a :: as => !as.contains a && nodupB as

theorem nodupB_iff : ∀ {l : List Int}, nodupB l = true → l.Nodup
  | [], _ => List.nodup_nil
  | a :: as, h => by
    simp only [nodupB, Bool.and_eq_true, Bool.not_eq_true'] at h
    rw [List.nodup_cons]
    refine ⟨?_, nodupB_iff h.2⟩
    intro hm
    have : as.contains a = true := by simpa using hm
    rw [h.1] at this; cases this

/-- `Shape`. -/
def shapeFn (attrs : List (String × AttrVal ITensor)) : List (Option ITensor) → Option (List ITensor)
  | [some x] =>
    match attrI64 attrs "start", attrI64 attrs "end" with
    | some st, some en =>
      let l := onnxShape (st.getD 0) en x.shape
      some [mkITensor [l.length] l]
    | _, _ => none
  | _ => none

/-- `Gather` on vectors. -/
def gatherFn : List (Option ITensor) → Option (List ITensor)
  | [some d, some idx] => (collect (onnxGather1 d.data) idx.data).map fun ds => [mkITensor idx.shape ds]
  | _ => none

/-- `Slice` on vectors. -/
def sliceFn : List (Option ITensor) → Option (List ITensor)
  | some d :: some st :: some en :: rest =>
    match optionalI64s itensorView rest[0]? ((List.range st.data.length).map Int.ofNat),
        optionalI64s itensorView rest[1]? (List.replicate st.data.length 1) with
    | some axes, some steps =>
      if en.data.length = st.data.length ∧ axes.length = st.data.length ∧
          steps.length = st.data.length ∧ nodupB axes = true then
        match st.data, en.data, steps with
        | [s], [e], [t] => some [mkITensor [(onnxSlice1 d.data s e t).length] (onnxSlice1 d.data s e t)]
        | _, _, _ => none
      else none
    | _, _ => none
  | _ => none

/-- `Constant`, `Shape`, `Gather` and `Slice` on integer tensors; everything else fails. -/
def shapeOpsSem : Sem ITensor := fun _ ty attrs xs =>
  match ty with
  | .constant => match xs with
    | [some v] => some [v]
    | _ => none
  | .shape => shapeFn attrs xs
  | .gather => gatherFn xs
  | .slice => sliceFn xs
  | _ => none

theorem mkITensor_vec (l : List Int) : (mkITensor [l.length] l).data = l ∧
    (mkITensor [l.length] l).shape = [l.length] := by
  have : l.length = prodShape [l.length] := by simp [prodShape]
  constructor <;> simp [mkITensor, this.symm]

theorem shapeOpsSem_ok : ShapeSem shapeOpsSem itensorView where
  constOp := fun _ _ => rfl
  shape_mk := by
    intro s l h
    simp [itensorView, mkITensor, h]
  size := by
    intro v is h
    simp [itensorView] at h ⊢
    rw [← h, v.size]
  scalar := by
    intro v i is h1 h2
    simp [itensorView] at h1 h2
    rw [← h2]; exact h1
  shapeOp := by
    intro nm attrs xs ys h
    simp only [shapeOpsSem] at h
    unfold shapeFn at h
    split at h
    case h_2 => cases h
    next x =>
    split at h
    · next st en hst hen => exact ⟨x, st, en, rfl, hst, hen, by simpa [itensorView] using h.symm⟩
    · cases h
  gatherOp := by
    intro nm attrs l xs ys _ h
    simp only [shapeOpsSem] at h
    unfold gatherFn at h
    split at h
    case h_2 => cases h
    next d idx hxs =>
    simp only [List.cons.injEq, Option.some.injEq] at hxs
    obtain ⟨rfl, rfl⟩ := hxs
    obtain ⟨ds, hds, rfl⟩ := Option.map_eq_some_iff.1 h
    refine ⟨idx, idx.data, ds, rfl, rfl, ?_, rfl⟩
    simp only [itensorView] at hds
    rw [(mkITensor_vec l).1] at hds; exact hds
  sliceOp := by
    intro nm attrs l xs ys h
    simp only [shapeOpsSem] at h
    unfold sliceFn at h
    split at h
    case h_2 => cases h
    next d st en rest hxs =>
    simp only [List.cons.injEq, Option.some.injEq] at hxs
    obtain ⟨rfl, rfl⟩ := hxs
    split at h
    case h_2 => cases h
    next axes steps hax hst =>
    split at h
    case isFalse => cases h
    next hc =>
    split at h
    case h_2 => cases h
    next s e t h1 h2 =>
    refine ⟨st, en, rest, st.data, en.data, axes, [t], rfl, rfl, rfl, hc.1, hax, ?_, hc.2.1,
      hc.2.2.1, nodupB_iff hc.2.2.2, ?_⟩
    · exact hst
    · intro s' e' t' hs he ht _
      rw [h1] at hs; cases hs
      rw [h2] at he; cases he
      cases ht
      simp only [itensorView] at h
      rw [(mkITensor_vec l).1] at h
      simpa [itensorView] using h.symm

/-! ## A graph that meets the hypotheses -/

/-- A vector constant. -/
def ivec (l : List Int) : ITensor := mkITensor [l.length] l

/-- An argument with a type. -/
def typed (name : String) (ty : ArgType) : Arg ITensor := ⟨name, ty, .dynamic⟩

/-- A `2x3x4` tensor type. -/
def t234 : ArgType := .tensor ⟨.f32, 3, some [some 2, some 3, some 4]⟩

/-- `Shape(x)`, then the last dimension by `Gather` and the first two by `Slice`. -/
def shapeNodes (shapeAttrs : List (String × AttrVal ITensor)) (idx : Int)
    (st en step : Int) : List (Node ITensor) :=
  [ ⟨.shape, "shape1", [typed "x" t234], [typed "s" (.shape 3)], shapeAttrs⟩,
    ⟨.gather, "gather1", [typed "s" (.shape 3), ⟨"", .scalarNative .i64, .static (mkITensor [] [idx])⟩],
      [typed "d" (.scalarNative .i64)], []⟩,
    ⟨.slice, "slice1",
      [typed "s" (.shape 3), ⟨"", .shape 1, .static (ivec [st])⟩, ⟨"", .shape 1, .static (ivec [en])⟩,
       ⟨"", .shape 1, .static (ivec [0])⟩, ⟨"", .shape 1, .static (ivec [step])⟩],
      [typed "h" (.tensor ⟨.i64, 1, none⟩)], []⟩ ]

/-- A `2x3x4` input. -/
def x234 : ITensor := ⟨[2, 3, 4], List.replicate 24 7, by decide⟩

/-- Only `x` is bound. -/
def x234Env : Env ITensor := fun y => if y = "x" then some x234 else none

/-- No constant is known by name. -/
def noTable : String → Option ITensor := fun _ => none

/-- The graph outputs. -/
def shapeOuts : List (Arg ITensor) := [typed "d" (.scalarNative .i64), typed "h" (.shape 2)]

/-- The cases the theorem covers, as a check on this graph: start `-3` counted from the back, the
last dimension, a step of 2. All hypotheses of `C07_constant_shape_preserves_outputs_partial`
hold, and both nodes are folded: the last dimension is 4, and every other one of the dimensions is
`[2, 4]`. -/
example :
    let nodes := shapeNodes [("start", .i64 (-3))] (-1) 0 3 2
    ShapeSem shapeOpsSem itensorView ∧ SSA x234Env nodes ∧ WfNames nodes ∧
    TableOk shapeOpsSem x234Env nodes noTable ∧ TypedRun shapeOpsSem itensorView x234Env nodes ∧
    FoldableShapes shapeOpsSem itensorView x234Env nodes ∧
    (∃ ns os c, simplifyConstantShape itensorView noTable nodes shapeOuts = some (ns, os, c) ∧
      ns.map Node.ty = [.shape, .constant, .constant]) ∧
    evalGraph shapeOpsSem x234Env nodes shapeOuts =
      some [some (mkITensor [] [4]), some (ivec [2, 4])] := by
  intro nodes
  refine ⟨shapeOpsSem_ok, ssa_of_check (by decide +kernel), wf_of_check (by decide +kernel), ?_,
    typedRun_of_check (by decide +kernel), ⟨?_, ?_, ?_⟩, ?_, by decide +kernel⟩
  · intro p q e _ _ x v w h _; cases h
  · have : nodes.all (fun s => attrGet s.attrs "end" == none) = true := by decide +kernel
    intro g _ _ s hs _ _
    simpa using List.all_eq_true.1 this s hs
  · intro s hs _ e he
    have : nodes.all (fun s => attrI64 s.attrs "end" == some none) = true := by decide +kernel
    have := List.all_eq_true.1 this s hs
    simp at this
    rw [this] at he; cases he
  · intro p n q e1 hn hty h1 a ha v hv ts hts t ht
    have hnm : n ∈ nodes := by rw [hn]; simp
    simp only [nodes, shapeNodes, List.mem_cons, List.not_mem_nil, or_false] at hnm
    rcases hnm with rfl | rfl | rfl
    · cases hty
    · cases hty
    · simp at ha
      subst ha
      simp [evalArg] at hv
      subst hv
      simp [itensorView] at hts
      subst hts
      have : t = 2 := by simpa [ivec, mkITensor, prodShape] using ht
      omega
  · exact ⟨_, _, _, rfl, by decide +kernel⟩

/-! ## Where the code is wrong -/

/-- **The `end` attribute of `Shape` is ignored by the `Gather` folding.** The last of the first
two dimensions of a `2x3x4` tensor is 3; the simplified graph returns 4. -/
theorem C07_gather_ignores_end :
    let nodes := (shapeNodes [("end", .i64 2)] (-1) 0 1 1).take 2
    let outs := [typed "d" (.scalarNative .i64)]
    evalGraph shapeOpsSem x234Env nodes outs = some [some (mkITensor [] [3])] ∧
    ((simplifyConstantShape itensorView noTable nodes outs).bind fun r =>
      evalGraph shapeOpsSem x234Env r.1 r.2.1) = some [some (mkITensor [] [4])] := by
  refine ⟨by decide +kernel, by decide +kernel⟩

/-- **A negative `Slice` step never reaches the first dimension.** Reversing the dimensions
`[2, 3, 4]` gives `[4, 3, 2]`; the simplified graph returns `[4, 3]`. -/
theorem C07_negative_step_drops_element :
    let nodes := shapeNodes [] 0 (-1) (-4) (-1)
    let outs := [typed "h" (.tensor ⟨.i64, 1, none⟩)]
    evalGraph shapeOpsSem x234Env nodes outs = some [some (ivec [4, 3, 2])] ∧
    ((simplifyConstantShape itensorView noTable nodes outs).bind fun r =>
      evalGraph shapeOpsSem x234Env r.1 r.2.1) = some [some (ivec [4, 3])] := by
  refine ⟨by decide +kernel, by decide +kernel⟩

/-- **A `Slice` start past the end with a negative step makes the importer panic**, although ONNX
clamps it to the last position. -/
theorem C07_negative_step_panics :
    let nodes := shapeNodes [] 0 3 (-4) (-1)
    let outs := [typed "h" (.tensor ⟨.i64, 1, none⟩)]
    evalGraph shapeOpsSem x234Env nodes outs = some [some (ivec [4, 3, 2])] ∧
    (simplifyConstantShape itensorView noTable nodes outs).isNone = true := by
  refine ⟨by decide +kernel, by decide +kernel⟩

/-- **An `end` attribute below minus the rank is read as "to the end"**: ONNX clamps it to 0, so
the shape is empty. -/
theorem C07_end_below_rank :
    let nodes := (shapeNodes [("end", .i64 (-7))] 0 0 3 1).filter fun n => decide (n.ty ≠ .gather)
    let outs := [typed "h" (.tensor ⟨.i64, 1, none⟩)]
    evalGraph shapeOpsSem x234Env nodes outs = some [some (ivec [])] ∧
    ((simplifyConstantShape itensorView noTable nodes outs).bind fun r =>
      evalGraph shapeOpsSem x234Env r.1 r.2.1) = some [some (ivec [2, 3, 4])] := by
  refine ⟨by decide +kernel, by decide +kernel⟩

end OnnxIR
