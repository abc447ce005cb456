import Verif.Props.Pipeline
import Verif.Props.SimplifyGraphCases
import Verif.Props.GraphBuildCases

/-!
# C45, C52: a file that meets the hypotheses, and files whose interface is not kept
-/

namespace OnnxIR

/-- The entries of a map. -/
def mapEntries {β : Type} (m : List (String × β)) : List (String × β) :=
  (m.map Prod.fst).filterMap fun k => (mapGet m k).map fun v => (k, v)

theorem mem_mapEntries {β : Type} {m : List (String × β)} {k : String} {v : β} :
    (k, v) ∈ mapEntries m ↔ mapGet m k = some v := by
  simp only [mapEntries, List.mem_filterMap, Option.map_eq_some_iff, Prod.mk.injEq]
  constructor
  · rintro ⟨k', -, v', h, rfl, rfl⟩; exact h
  · intro h
    exact ⟨k, List.mem_map_of_mem (f := Prod.fst) (mapGet_mem h), v, h, rfl, rfl⟩

theorem numSem_constantOps : ConstantOps (numSem "") where
  embedded := fun v => rfl
  moved := by
    intro attrs v xs h
    have hf := attrGet_filter attrs "value"
    simp only [numSem, nConstant, h, hf]
    cases xs with
    | nil => rfl
    | cons a xs => cases xs <;> simp

/-- `MatMul`, `Gemm` and `Linear` have no meaning here, so nothing is said; `Verif.Props.FusionCases` has a meaning. -/
theorem numSem_linearLaw : LinearLaw (numSem "") (fun _ => false) (fun _ _ => True) (fun _ _ => True) oneBits
    linearAttrs where
  product := fun _ _ _ _ h => by cases h
  biased := fun _ _ _ _ _ _ _ h => by cases h
  gemm := fun _ _ _ _ _ _ h => by cases h
  gemmBiased := fun _ _ _ _ _ _ _ _ h => by cases h
  matMulArity := fun _ _ _ h => by cases h
  addArity := by
    intro attrs xs ys h
    simp only [numSem, nArith] at h
    split at h
    · split at h
      · obtain ⟨z, -, rfl⟩ := Option.map_eq_some_iff.1 h; rfl
      · cases h
    · cases h
  gemmArity := fun _ _ _ h => by cases h

theorem numSem_constantLaw : ConstantLaw fun _ => numSem "" where
  returns := by
    intro nm attrs v ys h
    simp only [numSem, nConstant] at h
    split at h <;> simp_all
  single := by
    intro nm attrs xs ys h
    simp only [numSem, nConstant] at h
    split at h
    · cases h; rfl
    · cases h; rfl
    · cases h

/-- Types of the values, by generated name. -/
def fileTypes (x : String) : Option ArgType :=
  mapGet [("x_0", i64Ty [2, 3]), ("identity1_out1", i64Ty [2, 3]), ("shape1_out1", .shape 2),
    ("constant1_out1", .scalarTensor .i64), ("constant2_out1", .scalarTensor .i64),
    ("gather1_out1", .scalarNative .i64), ("relu1_out1", i64Ty [2, 3]), ("relu2_out1", i64Ty [2, 3]),
    ("add1_out1", i64Ty [2, 3]), ("identity2_out1", i64Ty [2, 3])] x

/-- An importer whose inference keeps the declared types. -/
def fileImporter : Importer Int Int Int Unit where
  matrix := fun _ => false
  declared := fileTypes
  rules := ⟨fun _ => true, fun _ => true, fun n _ => some (n.outputs.map Arg.ty), fun _ => []⟩
  lifted := fun n => if n.ty = .gather then [1] else []
  noop := fun n => n.ty == .identity
  omapOrder := mapEntries
  rewireOrder := mapEntries
  simp := nOps
  simplify := true

/-- Input `x:0` and an input `w` with a default (an initializer). `id = Identity x:0`, `s = Shape id`,
`k = Constant`, `g = Gather s k`, `r2 = Relu (Relu id)`, `y = Identity (r2 + w)`. -/
def fileGraph : GraphProto NVal :=
  { inputs := ["x:0", "w"], inits := [("w", i64T [] [0])], outputs := ["y", "g"]
    nodes :=
      [{ ty := .identity, inputs := ["x:0"], outputs := ["id"], attrs := [] },
       { ty := .shape, inputs := ["id"], outputs := ["s"], attrs := [] },
       { ty := .constant, inputs := [], outputs := ["k"], attrs := [("value", .tensor (i64T [] [0]))] },
       { ty := .gather, inputs := ["s", "k"], outputs := ["g"], attrs := [] },
       { ty := .relu, inputs := ["id"], outputs := ["r1"], attrs := [] },
       { ty := .relu, inputs := ["r1"], outputs := ["r2"], attrs := [] },
       { ty := .add, inputs := ["r2", "w"], outputs := ["z"], attrs := [] },
       { ty := .identity, inputs := ["z"], outputs := ["y"], attrs := [] }] }

/-- The input, under its ONNX name and under its sanitised name. -/
def fileIn (name : String) : Env NVal := fun x =>
  if x = name then some (i64T [2, 3] [-2, -1, 0, 1, 2, 3]) else none

theorem generated_u {x : String} (h : Generated x) : 'u' ∈ x.toList := by
  obtain ⟨t, -, i, k, rfl⟩ := h
  simp [outName]

/-- The checks behind `PhasesOk`. -/
def phasesB (env : Env NVal) (o : Importer Int Int Int Unit) (st : GState NVal) (s : GraphSt Int Int) : Bool :=
  (st.nodes.all fun n => !o.noop n || (n.ty == .identity &&
    match n.inputs with
    | [] => true
    | i :: _ => i.src == .dynamic || i.src == .constant)) &&
  checkRun numSem (typedStepB nview) env s.nodes && (trace 10 s).all fun q => q.1.guardB env q.2

theorem phasesOk_of_check {env : Env NVal} {o : Importer Int Int Int Unit} (ho : o.simp = nOps)
    {st : GState NVal} {s : GraphSt Int Int} (h : phasesB env o st s = true) :
    PhasesOk (fun _ => numSem "") o intFloatSpec nFits env st s := by
  simp only [phasesB, Bool.and_eq_true] at h
  refine ⟨?_, fun _ => ?_, fun _ => ?_⟩
  · intro n hn hnoop
    have h1 := List.all_eq_true.1 h.1.1 n hn
    simp only [hnoop, Bool.not_true, Bool.false_or, Bool.and_eq_true, beq_iff_eq] at h1
    refine ⟨ReturnsFirstInput.inRun ?_ _ _, ?_⟩
    · intro x rest ys hr
      rw [h1.1] at hr
      simp only [numSem] at hr
      split at hr <;> simp_all
    · intro i is hi
      have h2 := h1.2
      rw [hi] at h2
      simpa using h2
  · rw [ho]; exact typedRun_of_check h.1.2
  · rw [ho]
    intro p s' ha
    exact guard_of_check (List.all_eq_true.1 h.2 _ (trace_mem ha))

theorem fileGraph_ok : FileOk fileGraph where
  names := ⟨by decide +kernel, by decide +kernel, by decide +kernel, by decide +kernel, by decide +kernel,
    by decide +kernel, by decide +kernel, by decide +kernel⟩
  nodes := ⟨by decide +kernel, by decide +kernel⟩
  notGenerated := by
    have h : ∀ x ∈ allNames fileGraph, 'u' ∉ x.toList ∧ 'u' ∉ (sanitizeName x).toList := by decide +kernel
    exact fun x hx => ⟨fun hg => (h x hx).1 (generated_u hg), fun hg => (h x hx).2 (generated_u hg)⟩

theorem fileImporter_orders : OrdersOk fileImporter where
  omap := fun m p hp => (mem_mapEntries (k := p.1) (v := p.2)).1 hp
  rewire := fun m k v => mem_mapEntries

/-- All hypotheses of `C52_import_preserves_meaning_partial` hold of this file. Its eight nodes and one initializer
become four nodes: the no-ops and the second `Relu` are gone, `Shape` and `Gather` have become a constant, and the
results stay `[0, 0, 0, 1, 2, 3]` and `2`. -/
example : ∃ nodes ins outs, importModel fileImporter fileGraph = some (nodes, ins, outs) ∧
    nodes.map Node.ty = [.constant, .constant, .relu, .add] ∧ ins.map Arg.name = ["x_0"] ∧
    onnxGraph (numSem "") (fileIn "x:0") fileGraph = some [some (i64T [2, 3] [0, 0, 0, 1, 2, 3]), some (i64T [] [2])] ∧
    evalGraph (fun _ => numSem "") (fileIn "x_0") nodes outs =
      some [some (i64T [2, 3] [0, 0, 0, 1, 2, 3]), some (i64T [] [2])] := by
  obtain ⟨⟨nodes, ins, outs⟩, hm⟩ : ∃ m, importModel fileImporter fileGraph = some m := by
    have : (importModel fileImporter fileGraph).isSome = true := by decide +kernel
    exact Option.isSome_iff_exists.1 this
  have hshape : ((importModel fileImporter fileGraph).map fun m => (m.1.map Node.ty, m.2.1.map Arg.name)) =
      some ([.constant, .constant, .relu, .add], ["x_0"]) := by decide +kernel
  rw [hm] at hshape
  simp only [Option.map_some, Option.some.injEq, Prod.mk.injEq] at hshape
  have hrun : onnxGraph (numSem "") (fileIn "x:0") fileGraph =
      some [some (i64T [2, 3] [0, 0, 0, 1, 2, 3]), some (i64T [] [2])] := by decide +kernel
  refine ⟨nodes, ins, outs, hm, hshape.1, hshape.2, hrun, ?_⟩
  refine C52_import_preserves_meaning_partial (fs := intFloatSpec) (ops := nAttn) (fits := nFits)
    numSem_constantOps numSem_constantLaw fileImporter_orders (fun _ => numSem_simp) numSem_linearLaw fileGraph_ok
    (e := fileIn "x:0") ?_ ?_ ?_ ?_ ?_ hm hrun
  · have hty : ∀ np ∈ fileGraph.nodes, np.ty ≠ .matMul ∧ np.ty ≠ .gemm := by decide +kernel
    exact ⟨fun pre np ad rest w y b hn hb => absurd hb.matMul (hty np (by rw [hn]; simp)).1,
      fun pre np rest hn ht => absurd ht (hty np (by rw [hn]; simp)).2⟩
  · decide +kernel
  · intro x v hv
    simp only [fileIn] at hv
    split at hv
    · next h => subst h; decide +kernel
    · cases hv
  · intro y v hv
    simp only [fileIn] at hv
    split at hv
    · next h => subst h; exact ⟨"x:0", by decide +kernel, by decide +kernel⟩
    · cases hv
  · intro ins st s hfe
    have hall : (frontEnd fileImporter fileGraph).all
        (fun f => phasesB (fileIn "x_0") fileImporter f.2.1 f.2.2) = true := by decide +kernel
    rw [hfe] at hall
    exact phasesOk_of_check rfl hall

/-! ## Interfaces that are not kept -/

/-- The graph input `w` has an initializer, so a caller of the generated function cannot give it a value. -/
theorem C45_default_input_dropped : "w" ∈ fileGraph.inputs ∧
    ((forwardSignature fileImporter fileGraph).map fun s => s.1.map Arg.name) = some ["x_0"] := by
  decide +kernel

/-- A file that lists an output nothing produces. -/
def danglingGraph : GraphProto NVal :=
  { inputs := ["x"], inits := [], outputs := ["nowhere", "y"]
    nodes := [{ ty := .relu, inputs := ["x"], outputs := ["y"], attrs := [] }] }

/-- It is imported without an error, and the generated function has one result: what the file calls its second
output comes first. -/
theorem C45_unknown_output_dropped : danglingGraph.outputs.length = 2 ∧
    ((forwardSignature fileImporter danglingGraph).map fun s => s.2.map Arg.name) = some ["relu1_out1"] := by
  decide +kernel

end OnnxIR
