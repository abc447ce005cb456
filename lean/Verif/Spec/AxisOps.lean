import Verif.Spec.BurnAxis
import Verif.Spec.GatherND
import Verif.Spec.Generated

/-!
# Operators along one axis: ArgMax, ArgMin, TopK, Softmax, LogSoftmax, Hardmax

ONNX's definitions and Burn's methods. Numbers are compared by a relation `lt`.
-/

namespace OnnxIR

variable {α : Type} [Inhabited α]

/-- The elements along axis `a` through index `i`. -/
def Tensor.line (X : Tensor α) (a : Nat) (i : List Nat) : List α :=
  (List.range (X.shape.getD a 0)).map fun k => X.get (i.set a k)

namespace Onnx

/-- `k` is the first position of the greatest element. -/
def FirstMax (lt : α → α → Prop) (l : List α) (k : Nat) : Prop :=
  ∃ x, l[k]? = some x ∧ (∀ y ∈ l, ¬ lt x y) ∧ ∀ j : Nat, j < k → ∃ y, l[j]? = some y ∧ lt y x

/-- ArgMax along `a` (ArgMin with the relation turned round), `select_last_index` being zero. -/
structure ArgMaxT (lt : α → α → Prop) (a : Nat) (keepdims : Bool) (X : Tensor α) (Z : Tensor Int) : Prop where
  axis : a < X.shape.length
  nonempty : 0 < X.shape.getD a 0
  shape : Z.shape = if keepdims then X.shape.set a 1 else X.shape.eraseIdx a
  elems : ∀ i, InRange X.shape i →
    ∃ k : Nat, FirstMax lt (X.line a i) k ∧ Z.get (if keepdims then i.set a 0 else i.eraseIdx a) = k

/-- Position `p` of `l` comes before position `q`: a greater element, or the same and further left. -/
def Before (lt : α → α → Prop) (l : List α) (p q : Nat) : Prop :=
  ∃ x y, l[p]? = some x ∧ l[q]? = some y ∧ (lt y x ∨ (¬ lt x y ∧ p < q))

/-- `ps` are the positions of the `k` greatest elements of `l`, in order. -/
structure TopPlaces (lt : α → α → Prop) (l : List α) (k : Nat) (ps : List Nat) : Prop where
  length : ps.length = k
  inside : ∀ p ∈ ps, p < l.length
  order : ps.Pairwise (Before lt l)
  rest : ∀ q < l.length, q ∉ ps → ∀ p ∈ ps, Before lt l p q

/-- TopK of the greatest elements, sorted: values `V` and indices `I`. -/
structure TopKT (lt : α → α → Prop) (a k : Nat) (X V : Tensor α) (I : Tensor Int) : Prop where
  axis : a < X.shape.length
  enough : k ≤ X.shape.getD a 0
  vshape : V.shape = X.shape.set a k
  ishape : I.shape = X.shape.set a k
  elems : ∀ i, InRange (X.shape.set a k) i → ∃ ps, TopPlaces lt (X.line a i) k ps ∧
    ∃ p, ps[i.getD a 0]? = some p ∧ V.get i = X.get (i.set a p) ∧ I.get i = p

/-- The function `f` of lists applied along axis `a`. -/
def alongAxis (f : List α → List α) (a : Nat) (X : Tensor α) : Tensor α :=
  Tensor.ofFn X.shape fun i => (f (X.line a i)).getD (i.getD a 0) default

/-- The function `f` of lists applied to the rows of the matrix that the tensor becomes when the dimensions before `a` are one
and the dimensions from `a` on are the other: what Softmax, LogSoftmax and Hardmax did before operator set 13. -/
def alongFlat (f : List α → List α) (a : Nat) (X : Tensor α) : Tensor α :=
  Tensor.ofFn X.shape fun i =>
    let m := prodShape (X.shape.drop a)
    let row := flatIdx (X.shape.take a) (i.take a)
    (f ((List.range m).map fun c => X.data.getD (row * m + c) default)).getD (flatIdx (X.shape.drop a) (i.drop a)) default

/-- Softmax, LogSoftmax and Hardmax, by operator set; `f` is the function of lists. -/
def alongT (f : List α → List α) (opset a : Nat) (X : Tensor α) : Tensor α :=
  if opset < 13 then alongFlat f a X else alongAxis f a X

/-- Hardmax of a list, with `arg` giving the position of the greatest element. -/
def hardmaxList (zero one : α) (arg : List α → Nat) (l : List α) : List α :=
  (List.range l.length).map fun k => if k = arg l then one else zero

end Onnx

namespace Burn

/-- `Tensor::argmax(dim)`: the axis stays with size one. Which of several equal elements is taken is left open. -/
def argmax (arg : List α → Nat) (t : Tensor α) (d : Nat) : Option (Tensor Int) :=
  if d < t.shape.length then some (Tensor.ofFn (t.shape.set d 1) fun i => (arg (t.line d i) : Int)) else none

/-- `Tensor::topk_with_indices(k, dim)`: the first `k` positions of the descending order. How equal elements are ordered is left
open. -/
def topk (order : List α → List Nat) (t : Tensor α) (k d : Nat) : Option (Tensor α × Tensor Int) :=
  if d < t.shape.length ∧ k ≤ t.shape.getD d 0 then
    some (Tensor.ofFn (t.shape.set d k) fun i => t.get (i.set d ((order (t.line d i)).getD (i.getD d 0) 0)),
      Tensor.ofFn (t.shape.set d k) fun i => ((order (t.line d i)).getD (i.getD d 0) 0 : Nat))
  else none

/-- `Tensor::scatter(dim, indices, values, IndexingUpdateOp::Add)`: every value is added at its index with the coordinate along
`dim` replaced by the index given. Panics on other ranks and on indices outside. -/
def scatterAdd [Add α] (t : Tensor α) (d : Nat) (I : Tensor Int) (v : Tensor α) : Option (Tensor α) :=
  if d < t.shape.length ∧ I.shape = v.shape ∧ (∀ j ∈ indices I.shape, 0 ≤ I.get j ∧ j.set d (I.get j).toNat ∈ indices t.shape) then
    some (Tensor.ofFn t.shape fun i =>
      (((indices I.shape).filter fun j => j.set d (I.get j).toNat = i).map v.get).foldl (· + ·) (t.get i))
  else none

/-- `activation::softmax` and `log_softmax`, with `f` the function of lists. -/
def along (f : List α → List α) (t : Tensor α) (d : Nat) : Option (Tensor α) :=
  if d < t.shape.length then some (Onnx.alongAxis f d t) else none

end Burn

end OnnxIR
