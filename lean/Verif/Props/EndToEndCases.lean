import Verif.Props.EndToEnd
import Verif.Props.PipelineCases

/-!
# C84: a file that meets the hypotheses
-/

namespace OnnxIR

open Gen Forward

namespace EndToEndExample

/-- `id = Identity x:0`, `z = id + w`, `y = Identity z`, where `w` is an initializer. -/
def file : GraphProto NVal :=
  { inputs := ["x:0"], inits := [("w", i64T [3] [10, 20, 30])], outputs := ["y"]
    nodes :=
      [{ ty := .identity, inputs := ["x:0"], outputs := ["id"], attrs := [] },
       { ty := .add, inputs := ["id", "w"], outputs := ["z"], attrs := [] },
       { ty := .identity, inputs := ["z"], outputs := ["y"], attrs := [] }] }

/-- The type of the input and of the results. -/
def mat : ArgType := .tensor ⟨.i64, 2, some [some 2, some 3]⟩

/-- The type of the initializer. -/
def vec : ArgType := .tensor ⟨.i64, 1, some [some 3]⟩

/-- Types of the values, by generated name. -/
def types (x : String) : Option ArgType :=
  mapGet [("x_0", mat), ("identity1_out1", mat), ("constant1_out1", vec), ("add1_out1", mat), ("identity2_out1", mat)] x

/-- The importer of `Verif.Props.PipelineCases`, with these types. -/
def importer : Importer Int Int Int Unit := { fileImporter with declared := types }

/-- The imported nodes: the no-ops are gone, the initializer is a constant. -/
def nodes : List (Node NVal) :=
  [⟨.constant, "constant1", [⟨"", vec, .static (i64T [3] [10, 20, 30])⟩], [⟨"constant1_out1", vec, .constant⟩], []⟩,
   ⟨.add, "add1", [⟨"x_0", mat, .dynamic⟩, ⟨"constant1_out1", vec, .constant⟩], [⟨"add1_out1", mat, .dynamic⟩], []⟩]

theorem imported : importModel importer file = some (nodes, [⟨"x_0", mat, .dynamic⟩], [⟨"add1_out1", mat, .dynamic⟩]) := by
  decide +kernel

theorem file_ok : FileOk file where
  names := ⟨by decide +kernel, by decide +kernel, by decide +kernel, by decide +kernel, by decide +kernel,
    by decide +kernel, by decide +kernel, by decide +kernel⟩
  nodes := ⟨by decide +kernel, by decide +kernel⟩
  notGenerated := by
    have h : ∀ x ∈ allNames file, 'u' ∉ x.toList ∧ 'u' ∉ (sanitizeName x).toList := by decide +kernel
    exact fun x hx => ⟨fun hg => (h x hx).1 (generated_u hg), fun hg => (h x hx).2 (generated_u hg)⟩

theorem importer_orders : OrdersOk importer where
  omap := fun m p hp => (mem_mapEntries (k := p.1) (v := p.2)).1 hp
  rewire := fun m k v => mem_mapEntries

/-- Elements of type float, of which there are none, are read as integers. -/
noncomputable abbrev real : NVal → OVal := CVal.real (fun i : Int => (i : ℝ)) (fun i : Int => (i : ℝ))

/-- Embedded values only. -/
def store : Store OVal := WholeModelExample.store

/-- The operand. -/
def X : Tensor Int := ⟨[2, 3], [-2, -1, 0, 1, 2, 3], rfl⟩

/-- The constant. -/
def W : Tensor Int := ⟨[3], [10, 20, 30], rfl⟩

/-- The result. -/
def Y : Tensor Int := ⟨[2, 3], [8, 19, 30, 11, 22, 33], rfl⟩

/-- The values after the run. -/
def final : Env NVal :=
  bindAll (bindAll (fileIn "x_0") ["constant1_out1"] [.int .i64 W]) ["add1_out1"] [.int .i64 Y]

theorem run : evalNodes (fun _ => numSem "") (fileIn "x_0") nodes = some final := by
  rfl

theorem typesAgree : TypesAgree (fun x => if x = "constant1_out1" then vec else mat) nodes [⟨"x_0", mat, .dynamic⟩]
    [⟨"add1_out1", mat, .dynamic⟩] where
  outputs := by simp
  results := by simp
  nodeTypes := by simp [nodes, AtRunTime, mat, vec, ArgType.form]
  inTypes := by simp
  outTypes := by simp
  scalars := by simp [mat]

theorem runFits (erf : ℝ → ℝ) (pick : Nat → Int → Option Nat) : RunFits (numSem "") erf pick store 17 real nodes final where
  meaning := by
    intro n hn xs ys hxs hS
    simp only [nodes, List.mem_cons, List.not_mem_nil, or_false] at hn
    rcases hn with rfl | rfl
    · have h1 : xs = [some (.int .i64 W)] := (Option.some.inj hxs).symm
      subst h1
      have h2 : ys = [.int .i64 W] := (Option.some.inj hS).symm
      subst h2
      exact ⟨.constant, by decide, .int W, rfl, rfl⟩
    · have h1 : xs = [some (.int .i64 X), some (.int .i64 W)] := (Option.some.inj hxs).symm
      subst h1
      have h2 : ys = [.int .i64 Y] := (Option.some.inj hS).symm
      subst h2
      exact ⟨.arith .add, by decide, Or.inr ⟨X, W, Y, rfl, rfl, rfl⟩⟩
  annotations := by
    intro n hn
    simp only [nodes, List.mem_cons, List.not_mem_nil, or_false] at hn
    rcases hn with rfl | rfl
    · refine ⟨fun a ha hr => ?_, fun a ha v hv => ?_⟩
      · simp only [List.mem_cons, List.not_mem_nil, or_false] at ha
        subst ha
        simp [AtRunTime] at hr
      · simp only [List.mem_cons, List.not_mem_nil, or_false] at ha
        subst ha
        obtain rfl : v = .int .i64 W := (Option.some.inj hv).symm
        exact ⟨rfl, rfl⟩
    · refine ⟨fun a ha hr v hv => ?_, fun a ha v hv => ?_⟩
      · simp only [List.mem_cons, List.not_mem_nil, or_false] at ha
        rcases ha with rfl | rfl
        · obtain rfl : v = .int .i64 X := (Option.some.inj hv).symm
          exact ⟨rfl, rfl⟩
        · obtain rfl : v = .int .i64 W := (Option.some.inj hv).symm
          exact ⟨rfl, rfl⟩
      · simp only [List.mem_cons, List.not_mem_nil, or_false] at ha
        subst ha
        obtain rfl : v = .int .i64 Y := (Option.some.inj hv).symm
        exact ⟨rfl, rfl⟩
  constants := by
    intro n hn a ha w hw
    simp only [nodes, List.mem_cons, List.not_mem_nil, or_false] at hn
    rcases hn with rfl | rfl
    · simp only [List.mem_cons, List.not_mem_nil, or_false] at ha
      subst ha
      exact ⟨.int .i64 W, rfl, Option.some.inj hw⟩
    · simp only [List.mem_cons, List.not_mem_nil, or_false] at ha
      rcases ha with rfl | rfl <;> cases hw
  guards := by
    intro n hn xs op hxs hop
    simp only [nodes, List.mem_cons, List.not_mem_nil, or_false] at hn
    rcases hn with rfl | rfl
    · obtain rfl : op = .constant := (Option.some.inj hop).symm
      have h1 : xs = [some (.int .i64 W)] := (Option.some.inj hxs).symm
      subst h1
      refine ⟨fun a ha => ?_, fun v hv => ⟨fun h => ?_, fun o ho k hk => ?_⟩⟩
      · simp only [Node.conv, List.map_cons, List.map_nil, List.mem_cons, List.not_mem_nil, or_false] at ha
        subst ha
        exact ⟨_, rfl⟩
      · cases hv; cases h
      · simp only [Node.conv, List.map_cons, List.map_nil, List.mem_cons, List.not_mem_nil, or_false] at ho
        subst ho
        cases hk
    · obtain rfl : op = .arith .add := (Option.some.inj hop).symm
      intro a b hab
      simp only [Node.conv, List.map_cons, List.map_nil, List.cons.injEq, and_true] at hab
      obtain ⟨rfl, rfl⟩ := hab
      refine ⟨Or.inl rfl, Or.inr rfl, trivial, fun h => (by cases h), fun _ _ _ => trivial⟩

/-- All hypotheses of C84 hold of this file: the generated function returns `x + w`. -/
example (erf : ℝ → ℝ) (pick : Nat → Int → Option Nat) : ∃ nodes ins outs f,
    importModel importer file = some (nodes, ins, outs) ∧
    genForward burn.toDevice burn.toNative (fun n => codeOf erf pick store 17 (n.conv real)) nodes ins outs = some f ∧
      ∃ q, Rust.call burn.copy f [.int (.dev X)] = some [q] ∧ Holds mat q (.int Y) := by
  have hrun : onnxGraph (numSem "") (fileIn "x:0") file = some [some (.int .i64 Y)] := by decide +kernel
  have close : (∃ f, genForward burn.toDevice burn.toNative (fun n => codeOf erf pick store 17 (n.conv real)) nodes [⟨"x_0", mat, .dynamic⟩]
      [⟨"add1_out1", mat, .dynamic⟩] = some f ∧ ∃ rs, Rust.call burn.copy f [.int (.dev X)] = some rs ∧ rs.length = file.outputs.length ∧
        ∀ (k : Nat) (q : RustVal), rs[k]? = some q → ∃ a y, ([⟨"add1_out1", mat, .dynamic⟩] : List (Arg NVal))[k]? = some a ∧
          [some (CVal.int .i64 Y : NVal)][k]? = some (some y) ∧ Holds (boundaryType a.ty) q (real y)) →
      ∃ nodes ins outs f, importModel importer file = some (nodes, ins, outs) ∧
        genForward burn.toDevice burn.toNative (fun n => codeOf erf pick store 17 (n.conv real)) nodes ins outs = some f ∧
        ∃ q, Rust.call burn.copy f [.int (.dev X)] = some [q] ∧ Holds mat q (.int Y) := by
    rintro ⟨f, h1, rs, h2, h3, h4⟩
    obtain ⟨q, rfl⟩ := List.length_eq_one_iff.1 (h3.trans rfl)
    obtain ⟨a, y, k1, k2, k3⟩ := h4 0 q rfl
    cases k1; cases k2
    exact ⟨_, _, _, f, imported, h1, q, h2, k3⟩
  refine close (C84_file_to_forward_partial (erf := erf) (pick := pick) (st := store) (opset := 17)
    (fa := fun i : Int => (i : ℝ)) (fb := fun i : Int => (i : ℝ)) (fs := intFloatSpec) (ops := nAttn) (fits := nFits)
    numSem_constantOps numSem_constantLaw importer_orders (fun _ => numSem_simp) numSem_linearLaw file_ok (by decide)
    (e := fileIn "x:0") (f0 := fileIn "x_0") (r := [some (.int .i64 Y)]) (args := [.int (.dev X)]) ?_ ?_ ?_ ?_ ?_ imported hrun
    ⟨fun _ _ => rfl, fun _ => rfl, fun _ => rfl, fun v hv => by cases v with | int t => exact absurd rfl hv | _ => rfl⟩ typesAgree ?_
    (fun fin hfin => by rw [run] at hfin; cases hfin; exact runFits erf pick) ?_ rfl ?_)
  · have hty : ∀ np ∈ file.nodes, np.ty ≠ .matMul ∧ np.ty ≠ .gemm := by decide +kernel
    exact ⟨fun pre np ad rest w y b hn hb => absurd hb.matMul (hty np (by rw [hn]; simp)).1,
      fun pre np rest hn ht => absurd ht (hty np (by rw [hn]; simp)).2⟩
  · decide +kernel
  · intro x v hv
    simp only [fileIn] at hv
    split at hv
    · next h => subst h; decide +kernel
    · cases hv
  · intro y v hv
    simp only [fileIn] at hv
    split at hv
    · next h => subst h; exact ⟨"x:0", by decide +kernel, by decide +kernel⟩
    · cases hv
  · intro ins st s hfe
    have hall : (frontEnd importer file).all (fun f => phasesB (fileIn "x_0") importer f.2.1 f.2.2) = true := by decide +kernel
    rw [hfe] at hall
    exact phasesOk_of_check rfl hall
  · intro n hn
    simp only [nodes, List.mem_cons, List.not_mem_nil, or_false] at hn
    rcases hn with rfl | rfl <;> intro r hr <;> cases hr <;> exact ⟨fun _ => [], by rfl⟩
  · intro n hn op hop
    simp only [nodes, List.mem_cons, List.not_mem_nil, or_false] at hn
    rcases hn with rfl | rfl
    · obtain rfl : op = .constant := (Option.some.inj hop).symm
      intro a ha
      simp only [Node.conv, List.map_cons, List.map_nil, List.mem_cons, List.not_mem_nil, or_false] at ha
      subst ha
      decide
    · obtain rfl : op = .arith .add := (Option.some.inj hop).symm
      intro a ha
      simp only [Node.conv, List.map_cons, List.map_nil, List.mem_cons, List.not_mem_nil, or_false] at ha
      rcases ha with rfl | rfl <;> decide
  · intro k x a q hx ha hq
    have hk : k = 0 := by
      have := (List.getElem?_eq_some_iff.1 hq).1
      simpa using this
    subst hk
    have hreq : requiredInputs file = ["x:0"] := by decide +kernel
    rw [hreq] at hx
    cases hx; cases ha; cases hq
    exact ⟨.int .i64 X, rfl, rfl, rfl, rfl, by decide⟩

end EndToEndExample

end OnnxIR
