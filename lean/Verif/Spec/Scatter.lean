import Verif.Spec.GatherND
import Verif.Spec.BurnAxis

/-!
# ScatterElements and ScatterND: ONNX's definitions and Burn's methods
-/

namespace OnnxIR

variable {α : Type} [Inhabited α]

/-- The attribute `reduction`. -/
inductive ScatterRed
  | none | add | mul | max | min
deriving DecidableEq

/-- The arithmetic of an element type, as far as the two operators use it. -/
structure ScatterArith (α : Type) where
  add : α → α → α
  sub : α → α → α
  mul : α → α → α
  max : α → α → α
  min : α → α → α

namespace Onnx

/-- What an update makes of the element it meets. -/
def scatterStep (A : ScatterArith α) : ScatterRed → α → α → α
  | .none, _, u => u
  | .add, x, u => A.add x u
  | .mul, x, u => A.mul x u
  | .max, x, u => A.max x u
  | .min, x, u => A.min x u

/-- The place that update `i` goes to: the coordinate along position `a` is replaced by the index found at `i`. -/
def scatterPlace (a : Nat) (s : List Nat) (I : Tensor Int) (i : List Nat) : Option (List Nat) :=
  (index (s.getD a 0) (I.get i)).map fun j => i.set a j

/-- `Z` is ScatterElements of `X` along position `a`: every element is what the updates that go to it make of it, one after the
other in row-major order. Without reduction no two updates may go to the same place. -/
structure ScatterElementsT (A : ScatterArith α) (red : ScatterRed) (a : Nat) (X : Tensor α) (I : Tensor Int) (U Z : Tensor α) :
    Prop where
  axis : a < X.shape.length
  rank : I.shape.length = X.shape.length
  updates : U.shape = I.shape
  valid : ∀ i, InRange I.shape i → ∃ p, scatterPlace a X.shape I i = some p ∧ InRange X.shape p
  distinct : red = .none → ∀ i j, InRange I.shape i → InRange I.shape j →
    scatterPlace a X.shape I i = scatterPlace a X.shape I j → i = j
  shape : Z.shape = X.shape
  elems : ∀ p, InRange X.shape p → Z.get p =
    (((indices I.shape).filter fun i => scatterPlace a X.shape I i = some p).map U.get).foldl (scatterStep A red) (X.get p)

/-- The place that the index tuple at `il` names in the dimensions `ks`. -/
def tuplePlace (ks : List Nat) (I : Tensor Int) (il : List Nat) : Option (List Nat) :=
  (List.range ks.length).mapM fun j => index (ks.getD j 0) (I.get (il ++ [j]))

/-- `Z` is ScatterND of `X`: the dimensions of `X` are those named by the index tuples, `ks`, and those of a slice, `ss`; there is
an update slice for each index tuple. -/
structure ScatterNDT (A : ScatterArith α) (red : ScatterRed) (ls ks ss : List Nat) (X : Tensor α) (I : Tensor Int)
    (U Z : Tensor α) : Prop where
  data : X.shape = ks ++ ss
  index : I.shape = ls ++ [ks.length]
  updates : U.shape = ls ++ ss
  valid : ∀ il, InRange ls il → (tuplePlace ks I il).isSome
  shape : Z.shape = X.shape
  elems : ∀ ik is, InRange ks ik → InRange ss is → Z.get (ik ++ is) =
    (((indices ls).filter fun il => tuplePlace ks I il = some ik).map fun il => U.get (il ++ is)).foldl (scatterStep A red)
      (X.get (ik ++ is))

end Onnx

namespace Burn

/-- `Tensor::scatter(dim, indices, values, IndexingUpdateOp::Add)`: every value is added at its index with the coordinate along
`dim` replaced by the index given. Burn documents indices whose dimensions are those of the tensor except along `dim`; anything
else counts as a panic here. Indices as for `select`: what a backend makes of negative ones is left open (`pick`). -/
def scatter (A : ScatterArith α) (pick : Nat → Int → Option Nat) (t : Tensor α) (d : Nat) (I : Tensor Int) (v : Tensor α) :
    Option (Tensor α) :=
  let place := fun i => (pick (t.shape.getD d 0) (I.get i)).map fun j => i.set d j
  if d < t.shape.length ∧ I.shape.set d 0 = t.shape.set d 0 ∧ v.shape = I.shape ∧
      ∀ i ∈ indices I.shape, ∃ p ∈ place i, p ∈ indices t.shape then
    some (Tensor.ofFn t.shape fun p =>
      (((indices I.shape).filter fun i => place i = some p).map v.get).foldl A.add (t.get p))
  else none

/-- `Tensor<1>::slice_assign([start..start + n], values)` on the list of elements; panics when the range is empty or not inside,
or the number of values is another one. -/
def sliceAssign (xs : List α) (start n : Nat) (vs : List α) : Option (List α) :=
  if 0 < n ∧ start + n ≤ xs.length ∧ vs.length = n then some (xs.take start ++ vs ++ xs.drop (start + n)) else none

/-- `Tensor<1>::narrow(0, start, n)` on the list of elements. -/
def narrow1 (xs : List α) (start n : Nat) : Option (List α) :=
  if 0 < n ∧ start + n ≤ xs.length then some ((xs.drop start).take n) else none

end Burn

end OnnxIR
