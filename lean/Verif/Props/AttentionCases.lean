import Verif.Props.Attention
import Verif.Spec.AttentionSem
import Verif.Lemmas.Check
import Verif.Model.Simplify
import Mathlib.Algebra.Order.Ring.Rat
import Mathlib.Algebra.Field.Rat

/-!
# C10: cases

A graph that meets the hypotheses of `C10_coalesce_attention_preserves_partial`, and graphs outside them whose
results change. Elements are rational numbers; the weight function of softmax is `1 + x + x² / 2` (any function
that is not constant would do).
-/

namespace OnnxIR

variable {V F : Type}

/-! ## Checking `AttnGraph` -/

/-- One-element constants and exact factors only. -/
def factorsB [DecidableEq F] (tv : TensorView V) (sv : ScaleView V F) (cmap : String → Option V) (n : Node V) : Bool :=
  n.inputs.all fun a => match a.value cmap with
    | none => true
    | some c => match sv.scalar c with
      | none => false
      | some s => (prodShape (tv.shape c) == 1) && decide ((tv.shape c).length ≤ 4) &&
        (decide (n.ty ≠ .mul) || decide (sv.ofBits (sv.bits s) = s)) &&
        (decide (n.ty ≠ .div) || decide (sv.ofBits (sv.bits (sv.inv s)) = sv.inv s))

/-- Some node of one of the kinds produces the name. -/
def madeBy (nodes : List (Node V)) (k : NodeType → Bool) (x : String) : Bool :=
  nodes.any fun m => k m.ty && m.outNames.contains x

/-- The run-time conditions. -/
def attnStepB (tv : TensorView V) (nodes : List (Node V)) (e1 : Env V) (n : Node V) (e2 : Env V) : Bool :=
  match n.ty with
  | .matMul =>
    match evalArgs e1 n.inputs with
    | some [some a, some b] => (tv.shape a).take 2 == (tv.shape b).take 2
    | _ => true
  | .add =>
    n.inputs.all fun i =>
      !madeBy nodes (fun t => t = .matMul ∨ t = .mul ∨ t = .div) i.name ||
      match evalArg e1 i with
      | some (some v) => n.outNames.all fun x => match e2 x with
        | some y => tv.shape y == tv.shape v
        | none => true
      | _ => true
  | _ => true

/-- `AttnGraph` as a check. -/
def attnGraphB [DecidableEq F] (S : Sem V) (tv : TensorView V) (sv : ScaleView V F) (cmap : String → Option V) (env : Env V)
    (nodes : List (Node V)) : Bool :=
  (nodes.all fun n => !(n.ty = .mul ∨ n.ty = .div) || factorsB tv sv cmap n) &&
  checkRun S (attnStepB tv nodes) env nodes &&
  nodes.all fun n => match n.inputs with
    | a :: b :: _ => !(n.ty = .matMul) || !madeBy nodes (· = .mul) a.name || !madeBy nodes (· = .mul) b.name
    | _ => true

theorem factorsB_sound [DecidableEq F] {tv : TensorView V} {sv : ScaleView V F} {cmap : String → Option V} {n : Node V}
    (h : factorsB tv sv cmap n = true) :
    ∀ a ∈ n.inputs, ∀ c, a.value cmap = some c → ∃ s, IsFactor tv sv n.ty c s := by
  intro a ha c hc
  have := List.all_eq_true.1 h a ha
  simp only [hc] at this
  split at this
  · cases this
  next s hs =>
  simp only [Bool.and_eq_true, Bool.or_eq_true, beq_iff_eq, decide_eq_true_eq] at this
  obtain ⟨⟨⟨h1, h2⟩, h3⟩, h4⟩ := this
  exact ⟨s, ⟨hs, h1, h2⟩, fun h => h3.resolve_left fun hn => hn h, fun h => h4.resolve_left fun hn => hn h⟩

theorem madeBy_intro {nodes : List (Node V)} {k : NodeType → Bool} {x : String} {m : Node V}
    (hm : m ∈ nodes) (hk : k m.ty = true) (hx : x ∈ m.outNames) : madeBy nodes k x = true := by
  refine List.any_eq_true.2 ⟨m, hm, ?_⟩
  simp [hk, hx]

theorem attnGraph_of_check [DecidableEq F] {S : Sem V} {tv : TensorView V} {sv : ScaleView V F}
    {cmap : String → Option V} {env : Env V} {nodes : List (Node V)}
    (h : attnGraphB S tv sv cmap env nodes = true) : AttnGraph S tv sv cmap env nodes := by
  simp only [attnGraphB, Bool.and_eq_true] at h
  obtain ⟨⟨h1, h2⟩, h3⟩ := h
  have hf : ∀ n ∈ nodes, n.ty = .mul ∨ n.ty = .div → factorsB tv sv cmap n = true := by
    intro n hn ht
    have := List.all_eq_true.1 h1 n hn
    simpa [ht] using this
  refine ⟨?_, ?_, ?_, ?_, ?_⟩
  · intro n hn ht _ _
    exact factorsB_sound (hf n hn ht)
  · intro n hn ht _
    exact factorsB_sound (hf n hn (Or.inl ht))
  · intro p n q e1 e2 a b hn ht _ he1 he2 ha
    have := checkRun_sound h2 p n q e1 e2 hn he1 he2
    simpa [attnStepB, ht, ha] using this
  · intro p n q e1 e2 i v y hn ht _ he1 he2 hy hi hv hm
    have := checkRun_sound h2 p n q e1 e2 hn he1 he2
    simp only [attnStepB, ht, List.all_eq_true, Bool.or_eq_true] at this
    obtain ⟨m, hm, hx, hk⟩ := hm
    have hmade : madeBy nodes (fun t => t = .matMul ∨ t = .mul ∨ t = .div) i.name = true := by
      refine madeBy_intro hm ?_ hx
      rcases hk with hk | ⟨hk | hk, _⟩ <;> simp [hk]
    have := this i hi
    rw [hmade, hv] at this
    obtain ⟨x, hx, hxy⟩ := hy
    simp only [Bool.not_true, Bool.false_eq_true, false_or, List.all_eq_true] at this
    have := this x hx
    rw [hxy] at this
    simpa using this
  · intro n hn ht _ a b r hin
    have := List.all_eq_true.1 h3 n hn
    simp only [hin, ht] at this
    rintro ⟨⟨m, hm, hmt, hmx⟩, k, hk, hkt, hkx⟩
    have m1 := madeBy_intro (k := (· = .mul)) hm (by simp [hmt]) hmx
    have m2 := madeBy_intro (k := (· = .mul)) hk (by simp [hkt]) hkx
    simp [m1, m2] at this

/-! ## Examples -/

namespace AttnCase

abbrev T := Tensor ℚ

local instance : Inhabited ℚ := ⟨0⟩

/-- A tensor from its elements. -/
def mk (s : List Nat) (d : List ℚ) : T := Tensor.ofFn s fun i => d.getD (flatIdx s i) 0

/-- Scale attributes are read as they are written; `0` stands for one half, `1` for one. -/
def ofBits : Nat → ℚ
  | 0 => 1 / 2
  | 1 => 1
  | 2 => 1 / 4
  | _ => 0

def bits (s : ℚ) : Nat := if s = 1 / 2 then 0 else if s = 1 then 1 else if s = 1 / 4 then 2 else 3

/-- One over the square root of the last dimension of Q. -/
def default (q : T) : ℚ :=
  1 / (((List.range 100).find? fun r => r * r == q.shape.getD 3 1).getD 0 : ℚ)

def wt (x : ℚ) : ℚ := 1 + x + x * x / 2

def S : Sem T := DenseAttn.sem wt ofBits default

def tv : TensorView T := DenseAttn.view

def sv : ScaleView T ℚ := DenseAttn.scaleView bits ofBits

def f4 : ArgType := .tensor ⟨.f32, 4, none⟩

def arg (x : String) : Arg T := ⟨x, f4, .dynamic⟩

def const (s : List Nat) (d : List ℚ) : Arg T :=
  ⟨"", if s.length = 0 then .scalarTensor .f32 else .tensor ⟨.f32, s.length, none⟩, .static (mk s d)⟩

def swapAttr : List (String × AttrVal T) := [("perm", .i64s [0, 1, 3, 2])]

/-- Q is one row of four numbers, K two rows, V two rows of one number. -/
def env : Env T
  | "q" => some (mk [1, 1, 1, 4] [1, 1, 0, 0])
  | "k" => some (mk [1, 1, 2, 4] [1, 1, 5, 5, 1, 0, 7, 7])
  | "v" => some (mk [1, 1, 2, 1] [1, 0])
  | "s" => some (mk [] [1])
  | "m" => some (mk [1, 1, 1, 2] [0, -1])
  | _ => none

theorem laws : AttnSem S tv sv (DenseAttn.ops wt) := DenseAttn.sem_laws wt bits ofBits default

def cmap : String → Option T := fun _ => none

theorem table (nodes : List (Node T)) : TableOk S env nodes cmap := by
  intro p q e _ _ x v w h
  cases h

def kT : Node T := ⟨.transpose, "n1", [arg "k"], [arg "kt"], swapAttr⟩

def softN (x : String) : Node T := ⟨.softmax, "n5", [arg x], [arg "w"], [("axis", .i64 (-1))]⟩

def lastN : Node T := ⟨.matMul, "n6", [arg "w", arg "v"], [arg "o"], []⟩

/-- softmax (Q Kᵀ / 2 + mask) V. -/
def masked : List (Node T) :=
  [kT, ⟨.matMul, "n2", [arg "q", arg "kt"], [arg "s0"], []⟩,
    ⟨.div, "n3", [arg "s0", const [] [2]], [arg "s1"], []⟩,
    ⟨.add, "n4", [arg "m", arg "s1"], [arg "s2"], []⟩, softN "s2", lastN]

/-- The hypotheses of C10 hold of a graph with a mask and a divisor, the pass replaces its last node, and the
graph has a result. -/
example : SSA env masked ∧ WfNames masked ∧ TableOk S env masked cmap ∧ TypedRun S tv env masked ∧
    AttnGraph S tv sv cmap env masked ∧
    (∀ m ∈ coalesceAttention sv cmap masked, m.ty = .attention →
      m ∈ masked ∨ (attrGet m.attrs "scale").isSome) ∧
    (coalesceAttention sv cmap masked).map (·.ty) = [.transpose, .matMul, .div, .add, .softmax, .attention] ∧
    (evalGraph S env masked [arg "o"]).map (·.map (·.map (·.data))) = some [some [4 / 5]] := by
  refine ⟨ssa_of_check (by decide +kernel), wf_of_check (by decide +kernel), table _,
    typedRun_of_check (by decide +kernel), attnGraph_of_check (by decide +kernel), ?_, by decide +kernel,
    by decide +kernel⟩
  have h : (coalesceAttention sv cmap masked).all
    (fun m => (decide (m.ty ≠ .attention)) || (attrGet m.attrs "scale").isSome) = true := by decide +kernel
  intro m hm ht
  have := List.all_eq_true.1 h m hm
  right
  simpa [ht] using this

/-- softmax (Q Kᵀ) V: nothing is scaled. -/
def unscaled : List (Node T) :=
  [kT, ⟨.matMul, "n2", [arg "q", arg "kt"], [arg "s0"], []⟩, softN "s0", lastN]

theorem not_preserves {nodes nodes' : List (Node T)} {outs : List (Arg T)}
    (h : (match evalGraph S env nodes outs with
      | none => false
      | some r => decide (evalGraph S env nodes' outs ≠ some r)) = true) :
    ¬ Preserves S env outs nodes nodes' := by
  intro hp
  cases hr : evalGraph S env nodes outs with
  | none => simp [hr] at h
  | some r =>
    rw [hr] at h
    exact (of_decide_eq_true h) (hp r hr)

/-- **C10, counterexample.** Scores that are not scaled become an Attention node without a scale, which scales
them by one over the square root of the last dimension of Q. -/
theorem C10_unscaled_wrong : SSA env unscaled ∧ WfNames unscaled ∧ TypedRun S tv env unscaled ∧
    AttnGraph S tv sv cmap env unscaled ∧
    (coalesceAttention sv cmap unscaled).map (·.ty) = [.transpose, .matMul, .softmax, .attention] ∧
    ¬ Preserves S env [arg "o"] unscaled (coalesceAttention sv cmap unscaled) := by
  refine ⟨ssa_of_check (by decide +kernel), wf_of_check (by decide +kernel),
    typedRun_of_check (by decide +kernel), attnGraph_of_check (by decide +kernel), by decide +kernel, ?_⟩
  exact not_preserves (by decide +kernel)

/-- The scores are multiplied by a vector, column by column. -/
def vector : List (Node T) :=
  [kT, ⟨.matMul, "n2", [arg "q", arg "kt"], [arg "s0"], []⟩,
    ⟨.mul, "n3", [arg "s0", const [2] [1, 2]], [arg "s1"], []⟩, softN "s1", lastN]

/-- **C10, counterexample.** A constant with several elements is taken for its first element. -/
theorem C10_vector_scale_wrong : SSA env vector ∧ WfNames vector ∧ TypedRun S tv env vector ∧
    (∀ m ∈ coalesceAttention sv cmap vector, m.ty = .attention → (attrGet m.attrs "scale").isSome) ∧
    (coalesceAttention sv cmap vector).map (·.ty) = [.transpose, .matMul, .mul, .softmax, .attention] ∧
    ¬ Preserves S env [arg "o"] vector (coalesceAttention sv cmap vector) := by
  refine ⟨ssa_of_check (by decide +kernel), wf_of_check (by decide +kernel),
    typedRun_of_check (by decide +kernel), ?_, by decide +kernel, not_preserves (by decide +kernel)⟩
  have h : (coalesceAttention sv cmap vector).all
    (fun m => (decide (m.ty ≠ .attention)) || (attrGet m.attrs "scale").isSome) = true := by decide +kernel
  intro m hm ht
  simpa [ht] using List.all_eq_true.1 h m hm

/-- Q and Kᵀ are multiplied by the same factor `c` before the product. -/
def bothScaled (c : Arg T) : List (Node T) :=
  [⟨.transpose, "n0", [arg "q"], [arg "qt"], [("perm", .i64s [0, 1, 2, 3])]⟩, kT,
    ⟨.mul, "n2", [arg "qt", c], [arg "qs"], []⟩, ⟨.mul, "n3", [arg "kt", c], [arg "ks"], []⟩,
    ⟨.matMul, "n4", [arg "qs", arg "ks"], [arg "s0"], []⟩, softN "s0", lastN]

/-- A factor known only at run time. -/
def runtimeScale : Arg T := ⟨"s", .scalarTensor .f32, .dynamic⟩

/-- A constant factor one half. -/
def halfScale : Arg T := ⟨"c", .scalarTensor .f32, .static (mk [] [1 / 2])⟩

/-- **C10, counterexample.** When Q and Kᵀ are multiplied by the same run-time number, the new Attention node
has no scale at all: even after removing the dead nodes the result is another one. -/
theorem C10_runtime_scale_wrong : SSA env (bothScaled runtimeScale) ∧ WfNames (bothScaled runtimeScale) ∧
    TypedRun S tv env (bothScaled runtimeScale) ∧
    (eliminateDeadNodes (coalesceAttention sv cmap (bothScaled runtimeScale)) [arg "o"]).map (·.ty) =
      [.transpose, .transpose, .transpose, .attention] ∧
    (evalGraph S env (eliminateDeadNodes (coalesceAttention sv cmap (bothScaled runtimeScale)) [arg "o"])
      [arg "o"]).isSome ∧
    ¬ Preserves S env [arg "o"] (bothScaled runtimeScale)
      (eliminateDeadNodes (coalesceAttention sv cmap (bothScaled runtimeScale)) [arg "o"]) := by
  refine ⟨ssa_of_check (by decide +kernel), wf_of_check (by decide +kernel),
    typedRun_of_check (by decide +kernel), by decide +kernel, by decide +kernel,
    not_preserves (by decide +kernel)⟩

/-- With a constant factor the result is right, once the dead nodes are gone … -/
example : evalGraph S env (eliminateDeadNodes (coalesceAttention sv cmap (bothScaled halfScale)) [arg "o"])
    [arg "o"] = evalGraph S env (bothScaled halfScale) [arg "o"] ∧
    (evalGraph S env (bothScaled halfScale) [arg "o"]).isSome := by
  decide +kernel

/-- **C10, counterexample.** … but when the scores are also an output of the graph, that output is lost. -/
theorem C10_scores_output_lost :
    (evalGraph S env (bothScaled halfScale) [arg "o", arg "s0"]).isSome ∧
    evalGraph S env (eliminateDeadNodes (coalesceAttention sv cmap (bothScaled halfScale))
      [arg "o", arg "s0"]) [arg "o", arg "s0"] = none := by
  decide +kernel

end AttnCase

end OnnxIR
