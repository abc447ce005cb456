import Verif.Spec.Eval
import Verif.Spec.Values
import Verif.Spec.Reshape
import Verif.Spec.Transpose
import Verif.Model.ConstantShape

/-!
# What ONNX says the operators compute that an importer may drop

Written from the operator documentation, over values seen as a shape, an element type and an element at every
index. Independent of the no-op test; only attribute lookup is shared with the model.
-/

namespace OnnxIR

/-- Values seen as tensors: `kind` is the element type (`kindOf` that of an annotation), `elem` the element at an
index. A value is determined by the three. -/
structure ElemView (V K E : Type) where
  shape : V → List Nat
  kind : V → K
  kindOf : DType → K
  elem : V → List Nat → E
  ext : ∀ x y, kind x = kind y → shape x = shape y → (∀ i, InRange (shape x) i → elem x i = elem y i) → x = y

variable {V K E : Type}

namespace Onnx

/-- The same elements in the same row-major order. -/
def SameData (ev : ElemView V K E) (x y : V) : Prop :=
  ev.kind y = ev.kind x ∧
  ∀ i j, InRange (ev.shape x) i → InRange (ev.shape y) j →
    flatIdx (ev.shape x) i = flatIdx (ev.shape y) j → ev.elem y j = ev.elem x i

/-- `ys` are the consecutive parts of `x` along dimension `k`, of the given sizes: `Split`, and `Concat` read
backwards. -/
def Parts (ev : ElemView V K E) (k : Nat) (x : V) (sizes : List Nat) (ys : List V) : Prop :=
  ys.length = sizes.length ∧ (ev.shape x)[k]? = some sizes.sum ∧
  ∀ (m : Nat) y c, ys[m]? = some y → sizes[m]? = some c →
    ev.kind y = ev.kind x ∧ ev.shape y = (ev.shape x).set k c ∧
    ∀ i, InRange (ev.shape y) i → ev.elem y i = ev.elem x (i.modify k (· + (sizes.take m).sum))

/-- `Transpose` by the permutation `perm`. -/
def Transposed (ev : ElemView V K E) (perm : List Nat) (x y : V) : Prop :=
  IsPerm (ev.shape x).length perm ∧ ev.kind y = ev.kind x ∧ ev.shape y = permShape (ev.shape x) perm ∧
  ∀ i, InRange (ev.shape y) i → ev.elem y i = ev.elem x (unpermute (ev.shape x).length perm i)

/-- `Expand` to a target shape. -/
def Expanded (ev : ElemView V K E) (target : List Nat) (x y : V) : Prop :=
  bcast (ev.shape x) target = some (ev.shape y) ∧ ev.kind y = ev.kind x ∧
  ∀ i, InRange (ev.shape y) i → ev.elem y i = ev.elem x (proj (ev.shape x) i)

/-- How much is added before (`off = 0`) or after (`off = axes.length`) dimension `k`: the pads list has first the
amounts before each listed axis, then those after. -/
def padAt (axes : List Nat) (pads : List Int) (off k : Nat) : Int :=
  if k ∈ axes then pads.getD (axes.idxOf k + off) 0 else 0

/-- `Pad`, in any mode: dimensions grow (or shrink) by the amounts, and what was in the input keeps its place. -/
def Padded (ev : ElemView V K E) (axes : List Nat) (pads : List Int) (x y : V) : Prop :=
  pads.length = 2 * axes.length ∧ ev.kind y = ev.kind x ∧ (ev.shape y).length = (ev.shape x).length ∧
  (∀ (k : Nat) d e, (ev.shape x)[k]? = some d → (ev.shape y)[k]? = some e →
    (e : Int) = d + padAt axes pads 0 k + padAt axes pads axes.length k) ∧
  ∀ i j : List Nat, InRange (ev.shape x) i → InRange (ev.shape y) j →
    (∀ (k : Nat) a b, i[k]? = some a → j[k]? = some b → (b : Int) = a + padAt axes pads 0 k) →
    ev.elem y j = ev.elem x i

/-- The pads of a `Pad` node: the attribute (`paddings` in opset 1), or from opset 11 on the second input. -/
def padsOf (tv : TensorView V) (attrs : List (String × AttrVal V)) (rest : List (Option V)) : Option (List Int) :=
  match attrGet attrs "pads", attrGet attrs "paddings" with
  | some (.i64s ps), _ => some ps
  | none, some (.i64s ps) => some ps
  | none, none => (rest.head?.join).bind tv.i64s
  | _, _ => none

/-- The target of a `Reshape` node: the second input, or the attribute before opset 5. -/
def reshapeTarget (tv : TensorView V) (attrs : List (String × AttrVal V)) (rest : List (Option V)) :
    Option (List Int) :=
  match rest, attrGet attrs "shape" with
  | some v :: _, _ => tv.i64s v
  | [], some (.i64s t) => some t
  | _, _ => none

/-- The `allowzero` attribute of `Reshape`. -/
def allowzero (attrs : List (String × AttrVal V)) : Bool :=
  match attrGet attrs "allowzero" with
  | some (.i64 v) => v == 1
  | _ => false

end Onnx

/-- The operators that may be dropped obey ONNX. `training` says whether a `Dropout` runs in training mode (by its
attribute or input). -/
structure NoopSem (S : Sem V) (ev : ElemView V K E) (tv : TensorView V)
    (training : List (String × AttrVal V) → List (Option V) → Prop) : Prop where
  identity : ∀ nm at' x rest ys, S nm .identity at' (some x :: rest) = some ys → ys = [x]
  dropout : ∀ nm at' x rest ys, S nm (.other "Dropout") at' (some x :: rest) = some ys →
    ¬ training at' rest → ys.head? = some x
  split : ∀ nm at' x rest ys, S nm (.other "Split") at' (some x :: rest) = some ys →
    ∃ k sizes, Onnx.Parts ev k x sizes ys
  concat : ∀ nm at' xs ys, S nm .concat at' xs = some ys →
    ∃ k sizes vs y, xs = vs.map some ∧ ys = [y] ∧ Onnx.Parts ev k y sizes vs
  transpose : ∀ nm at' x rest ys, S nm .transpose at' (some x :: rest) = some ys →
    ∃ perm y, ys = [y] ∧ Onnx.Transposed ev perm x y ∧
      (match attrGet at' "perm" with
        | none => perm = (List.range (ev.shape x).length).reverse
        | some (.i64s ps) => ps = perm.map Int.ofNat
        | some _ => False)
  flatten : ∀ nm at' x rest ys, S nm (.other "Flatten") at' (some x :: rest) = some ys →
    ∃ a y, ys = [y] ∧ attrI64 at' "axis" = some a ∧ Onnx.flatten (a.getD 1) (ev.shape x) = some (ev.shape y) ∧
      Onnx.SameData ev x y
  reshape : ∀ nm at' x rest ys, S nm .reshape at' (some x :: rest) = some ys →
    ∃ target y, ys = [y] ∧ Onnx.reshapeTarget tv at' rest = some target ∧
      Onnx.Reshape (Onnx.allowzero at') target (ev.shape x) (ev.shape y) ∧ Onnx.SameData ev x y
  expand : ∀ nm at' x rest ys, S nm (.other "Expand") at' (some x :: rest) = some ys →
    ∃ target y, ys = [y] ∧ Onnx.Expanded ev target x y
  /-- A cast keeps the shape; to the element type the input has, it changes nothing. -/
  cast : ∀ nm at' x rest ys, S nm .cast at' (some x :: rest) = some ys →
    ∃ y, ys = [y] ∧ ev.shape y = ev.shape x ∧
      (ev.kind y = ev.kind x → ∀ i, InRange (ev.shape x) i → ev.elem y i = ev.elem x i)
  /-- `Gather` needs a dimension to gather along. -/
  gather : ∀ nm at' x rest ys, S nm .gather at' (some x :: rest) = some ys → ev.shape x ≠ []
  pad : ∀ nm at' x rest ys, S nm (.other "Pad") at' (some x :: rest) = some ys →
    ∃ axes pads y, ys = [y] ∧ Onnx.padsOf tv at' rest = some pads ∧ Onnx.Padded ev axes pads x y

end OnnxIR
