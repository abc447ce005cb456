import Verif.Model.Attention
import Verif.Spec.Eval
import Verif.Spec.Tensor

/-!
# Scaled dot-product attention

What the operators around attention mean, as ONNX says, on values of which only the shape is known. All
operations are partial: `none` means the operator rejects its operands.
-/

namespace OnnxIR

variable {V F : Type}

/-- The mathematical operations: matrix product of the last two dimensions, exchange of the last two
dimensions, multiplication by a number, (broadcasting) sum and softmax along the last dimension. -/
structure AttnOps (V F : Type) where
  mm : V → V → Option V
  swap : V → Option V
  scale : F → V → Option V
  add : V → V → Option V
  soft : V → Option V

/-- A tensor with one element, the number `s`, of rank at most four. -/
def IsScale (tv : TensorView V) (sv : ScaleView V F) (c : V) (s : F) : Prop :=
  sv.scalar c = some s ∧ prodShape (tv.shape c) = 1 ∧ (tv.shape c).length ≤ 4

/-- The number is not changed by rounding to single precision. -/
def ExactScale (sv : ScaleView V F) (s : F) : Prop := sv.ofBits (sv.bits s) = s

/-- A one-element tensor that can multiply (divide) by an exact factor. -/
def IsFactor (tv : TensorView V) (sv : ScaleView V F) (t : NodeType) (c : V) (s : F) : Prop :=
  IsScale tv sv c s ∧ (t = .mul → ExactScale sv s) ∧ (t = .div → ExactScale sv (sv.inv s))

/-- Attention of Q, K and V with a scale factor and a mask: softmax (s · Q Kᵀ + mask) · V, where batch and
head dimensions agree and the mask does not enlarge the scores
(<https://onnx.ai/onnx/operators/onnx__Attention.html>). -/
def IsAttention (tv : TensorView V) (ops : AttnOps V F) (s : F) (q k v : V) (mask : Option V) (o : V) :
    Prop :=
  (tv.shape q).length = 4 ∧ (tv.shape k).length = 4 ∧ (tv.shape v).length = 4 ∧
  ∃ kt a b c w, ops.swap k = some kt ∧ (tv.shape q).take 2 = (tv.shape kt).take 2 ∧
    ops.mm q kt = some a ∧ ops.scale s a = some b ∧
    (match mask with
      | none => c = b
      | some m => ops.add b m = some c ∧ tv.shape c = tv.shape b) ∧
    ops.soft c = some w ∧ (tv.shape w).take 2 = (tv.shape v).take 2 ∧ ops.mm w v = some o

/-- The operators mean what ONNX says. -/
structure AttnSem (S : Sem V) (tv : TensorView V) (sv : ScaleView V F) (ops : AttnOps V F) : Prop where
  matMulOp : ∀ nm attrs xs ys, S nm .matMul attrs xs = some ys →
    ∃ a b y, xs = [some a, some b] ∧ ys = [y] ∧ ops.mm a b = some y
  transposeOp : ∀ nm attrs xs ys, attrGet attrs "perm" = some (.i64s [0, 1, 3, 2]) →
    S nm .transpose attrs xs = some ys → ∃ x y, xs = [some x] ∧ ys = [y] ∧ ops.swap x = some y
  /-- Multiplying a tensor of rank four by a one-element tensor, on either side. -/
  mulOp : ∀ nm attrs xs ys, S nm .mul attrs xs = some ys →
    ∃ a b y, xs = [some a, some b] ∧ ys = [y] ∧
      (∀ s, IsScale tv sv b s → (tv.shape a).length = 4 → ops.scale s a = some y) ∧
      (∀ s, IsScale tv sv a s → (tv.shape b).length = 4 → ops.scale s b = some y)
  divOp : ∀ nm attrs xs ys, S nm .div attrs xs = some ys →
    ∃ a b y, xs = [some a, some b] ∧ ys = [y] ∧
      ∀ s, IsScale tv sv b s → sv.isZero s = false → (tv.shape a).length = 4 →
        ops.scale (sv.inv s) a = some y
  addOp : ∀ nm attrs xs ys, S nm .add attrs xs = some ys →
    ∃ a b y, xs = [some a, some b] ∧ ys = [y] ∧ ops.add a b = some y
  add_comm : ∀ a b, ops.add a b = ops.add b a
  /-- Softmax along the last dimension, which is also its default. -/
  softmaxOp : ∀ nm attrs xs ys, S nm .softmax attrs xs = some ys →
    ∃ x y, xs = [some x] ∧ ys = [y] ∧
      ∀ ax, attrI64 attrs "axis" = some ax → ax.getD (-1) = -1 ∨
        ax.getD (-1) = ((tv.shape x).length : Int) - 1 → ops.soft x = some y
  swap_rank : ∀ x y, ops.swap x = some y → (tv.shape y).length = (tv.shape x).length
  mm_rank : ∀ a b y, ops.mm a b = some y → (tv.shape a).length = 4 → (tv.shape b).length = 4 →
    (tv.shape y).length = 4
  scale_shape : ∀ s x y, ops.scale s x = some y → tv.shape y = tv.shape x
  /-- The matrix product is linear in its first operand. -/
  mm_scale : ∀ s q q' k y, ops.scale s q = some q' → ops.mm q' k = some y →
    ∃ a, ops.mm q k = some a ∧ ops.scale s a = some y
  attentionOp : ∀ nm b q k v o, IsAttention tv ops (sv.ofBits b) q k v none o →
    S nm .attention [("scale", .f32 b)] [some q, some k, some v] = some [o]
  attentionMaskOp : ∀ nm b q k v m o, IsAttention tv ops (sv.ofBits b) q k v (some m) o →
    S nm .attention [("scale", .f32 b)] [some q, some k, some v, some m] = some [o]

/-- Some input of the node is the output of a MatMul. -/
def ReadsProduct (nodes : List (Node V)) (n : Node V) : Prop :=
  ∃ i ∈ n.inputs, ∃ m ∈ nodes, m.ty = .matMul ∧ i.name ∈ m.outNames

/-- The node's output reaches the input of a Softmax through sums, products and quotients only. -/
inductive FeedsSoftmax (nodes : List (Node V)) : Node V → Prop
  | direct {n s : Node V} {a : Arg V} (hs : s ∈ nodes) (ht : s.ty = .softmax) (ha : a ∈ s.inputs)
      (hx : a.name ∈ n.outNames) : FeedsSoftmax nodes n
  | through {n m : Node V} {a : Arg V} (hm : m ∈ nodes)
      (ht : m.ty = .add ∨ m.ty = .mul ∨ m.ty = .div) (ha : a ∈ m.inputs)
      (hx : a.name ∈ n.outNames) (h : FeedsSoftmax nodes m) : FeedsSoftmax nodes n

/-- The graph stays within what an Attention node can express. -/
structure AttnGraph (S : Sem V) (tv : TensorView V) (sv : ScaleView V F) (cmap : String → Option V)
    (env : Env V) (nodes : List (Node V)) : Prop where
  /-- Constants that multiply or divide attention scores have a single element, and the factor is exact. -/
  scoreFactor : ∀ n ∈ nodes, n.ty = .mul ∨ n.ty = .div → FeedsSoftmax nodes n → ReadsProduct nodes n →
    ∀ a ∈ n.inputs, ∀ c, a.value cmap = some c → ∃ s, IsFactor tv sv n.ty c s
  /-- So have constants that multiply a factor of attention scores. -/
  queryFactor : ∀ n ∈ nodes, n.ty = .mul → (∃ m ∈ nodes, m.ty = .matMul ∧ FeedsSoftmax nodes m ∧
      ∃ a ∈ m.inputs, a.name ∈ n.outNames) →
    ∀ a ∈ n.inputs, ∀ c, a.value cmap = some c → ∃ s, IsFactor tv sv n.ty c s
  /-- Matrix products on the way to a Softmax, and those that read one, do not broadcast batch or head
  dimensions. -/
  noBatchBroadcast : ∀ p n q e1 e2 a b, nodes = p ++ n :: q → n.ty = .matMul →
    (FeedsSoftmax nodes n ∨ ∃ s ∈ nodes, s.ty = .softmax ∧ ∃ i ∈ n.inputs, i.name ∈ s.outNames) →
    evalNodes S env p = some e1 → evalNode S e1 n = some e2 → evalArgs e1 n.inputs = some [some a, some b] →
    (tv.shape a).take 2 = (tv.shape b).take 2
  /-- A mask does not enlarge the scores it is added to. -/
  maskFits : ∀ p n q e1 e2 i v y, nodes = p ++ n :: q → n.ty = .add → FeedsSoftmax nodes n →
    evalNodes S env p = some e1 → evalNode S e1 n = some e2 → (∃ x ∈ n.outNames, e2 x = some y) →
    i ∈ n.inputs → evalArg e1 i = some (some v) →
    (∃ m ∈ nodes, i.name ∈ m.outNames ∧
      (m.ty = .matMul ∨ (m.ty = .mul ∨ m.ty = .div) ∧ ReadsProduct nodes m)) →
    tv.shape y = tv.shape v
  /-- Q and Kᵀ are not both scaled by a Mul before they are multiplied. -/
  notBothScaled : ∀ n ∈ nodes, n.ty = .matMul → FeedsSoftmax nodes n → ∀ a b r, n.inputs = a :: b :: r →
    ¬ ((∃ m ∈ nodes, m.ty = .mul ∧ a.name ∈ m.outNames) ∧ ∃ m ∈ nodes, m.ty = .mul ∧ b.name ∈ m.outNames)

end OnnxIR
