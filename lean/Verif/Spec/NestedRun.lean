import Verif.Model.DeadConstants

/-!
# What a graph with subgraphs computes

The meaning of operators is a parameter; a subgraph is a function of its arguments that sees the values of the enclosing graph, and
under their own names the values handed to it.
-/

namespace OnnxIR.Nested

variable {V : Type}

/-- The meaning of the operators: from the values of the inputs and the functions of the subgraphs to the outputs. -/
abbrev OpMeaning (V : Type) :=
  NodeType → String → List (Option V) → List (List V → Option (List V)) → Option (List V)

abbrev Vars (V : Type) := String → Option V

/-- The value of an argument: its own, none, or that of the variable. -/
def valueOf (e : Vars V) (a : Arg V) : Option V :=
  match a.src with
  | .static v => some v
  | .optional => none
  | _ => e a.name

/-- Variables set one after the other; `none` if the numbers differ. -/
def setVars (e : Vars V) : List (Arg V) → List V → Option (Vars V)
  | [], [] => some e
  | a :: as, v :: vs => setVars (fun x => if x = a.name then some v else e x) as vs
  | _, _ => none

/-- The variables a subgraph sees. -/
def handed (e : Vars V) : List String → List (Arg V) → Vars V
  | r :: rs, a :: as => fun x => if x = r then valueOf e a else handed e rs as x
  | _, _ => e

mutual
def run (S : OpMeaning V) : FGraph V → Vars V → List V → Option (List V)
  | .mk ins nodes outs, e, args =>
    (setVars e ins args).bind fun e' => (runNodes S nodes e').bind fun e'' => outs.mapM (valueOf e'')
def runNodes (S : OpMeaning V) : List (FNode V) → Vars V → Option (Vars V)
  | [], e => some e
  | .mk ty name ins outs refs bodies :: ns, e =>
    (S ty name ((ins.take (ins.length - refs.length)).map (valueOf e))
        (functions S bodies (handed e refs (ins.drop (ins.length - refs.length))))).bind fun vs =>
      (setVars e outs vs).bind fun e' => runNodes S ns e'
def functions (S : OpMeaning V) : List (FGraph V) → Vars V → List (List V → Option (List V))
  | [], _ => []
  | g :: gs, e => (fun args => run S g e args) :: functions S gs e
end

/-- An argument that reads a variable. -/
def ReadsVar (a : Arg V) : Prop := a.src = .constant ∨ a.src = .dynamic

/-- Names of values handed to a subgraph that come from one of the variables in `C`. -/
def From (C : String → Prop) : List String → List (Arg V) → String → Prop
  | r :: rs, a :: as => fun x => (x = r ∧ ReadsVar a ∧ C a.name) ∨ From C rs as x
  | _, _ => fun _ => False

mutual
/-- Every argument that reads a variable in `C` is marked as a constant, in the graph and in its subgraphs, and none reads a variable
in `T`. `T` grows by the other names under which values in `C` are handed to subgraphs; formal inputs hide both. -/
def Marked (C T : String → Prop) : FGraph V → Prop
  | .mk ins nodes outs =>
    MarkedNodes (fun x => C x ∧ ∀ a ∈ ins, a.name ≠ x) (fun x => T x ∧ ∀ a ∈ ins, a.name ≠ x) nodes ∧
      ∀ b ∈ outs, ReadsVar b → ¬ (T b.name ∧ ∀ a ∈ ins, a.name ≠ b.name) ∧
        ((C b.name ∧ ∀ a ∈ ins, a.name ≠ b.name) → b.src = .constant ∧ b.name ≠ "")
def MarkedNodes (C T : String → Prop) : List (FNode V) → Prop
  | [] => True
  | .mk _ _ ins _ refs bodies :: ns =>
    (∀ b ∈ ins.take (ins.length - refs.length), ReadsVar b → ¬ T b.name ∧ (C b.name → b.src = .constant ∧ b.name ≠ "")) ∧
      MarkedBodies C (fun x => T x ∨ From (fun y => C y ∨ T y) refs (ins.drop (ins.length - refs.length)) x) bodies ∧
      MarkedNodes C T ns
def MarkedBodies (C T : String → Prop) : List (FGraph V) → Prop
  | [] => True
  | g :: gs => Marked C T g ∧ MarkedBodies C T gs
end

/-- The outputs of the constants of a graph. -/
def Consts (g : FGraph V) (x : String) : Prop := ∃ n ∈ g.nodes, n.ty = .constant ∧ ∃ a ∈ n.outputs, a.name = x

/-- What the importer makes: a constant has one output, which is not an input of the graph, its own input holds the data, and who
reads it is marked. -/
def Proper (g : FGraph V) : Prop :=
  (∀ n ∈ g.nodes, n.ty = .constant → (∃ a, n.outputs = [a]) ∧ n.bodies = [] ∧ n.refs = [] ∧ ∀ a ∈ n.inputs, ¬ ReadsVar a) ∧
    (∀ a ∈ g.inputs, ¬ Consts g a.name) ∧ Marked (Consts g) (fun _ => False) g

mutual
/-- The same of the graph and all graphs in it. -/
def AllProper : FGraph V → Prop
  | .mk ins nodes outs => Proper (.mk ins nodes outs) ∧ AllProperNodes nodes
def AllProperNodes : List (FNode V) → Prop
  | [] => True
  | .mk _ _ _ _ _ bodies :: ns => AllProperBodies bodies ∧ AllProperNodes ns
def AllProperBodies : List (FGraph V) → Prop
  | [] => True
  | g :: gs => AllProper g ∧ AllProperBodies gs
end

/-- Some argument of the graph, or of a graph in it, reads the constant `x`. -/
inductive Uses : FGraph V → String → Prop
  | input {g n a} : n ∈ g.nodes → a ∈ n.inputs → a.src = .constant → Uses g a.name
  | output {g a} : a ∈ g.outputs → a.src = .constant → Uses g a.name
  | nested {g n h x} : n ∈ g.nodes → h ∈ n.bodies → Uses h x → Uses g x

end OnnxIR.Nested
