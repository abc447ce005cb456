import Verif.Model.Types

/-!
# Which operands are read when a model is imported

By the names that the ONNX specification (/repo/onnx-spec/ops/*.md, sections "Inputs") gives to the operands.
-/

namespace OnnxIR.Onnx

/-- `parameter`: a shape, axis, size, bound or the like, or a trained parameter of a layer. `data`: what the operator works on, the states
of a recurrent layer, the offsets and mask of `DeformConv`. The axes of `Pad` are read but not embedded and count as data. -/
inductive Role
  | data | parameter
deriving DecidableEq, Repr

/-- The operands of the operators some of whose constant operands are embedded, in order. `Linear` stands for a `Gemm` or
`MatMul` with its weight and bias. -/
def operandRoles : NodeType → List (String × Role)
  | .other "BatchNormalization" =>
      [("X", .data), ("scale", .parameter), ("B", .parameter),
        ("input_mean", .parameter), ("input_var", .parameter)]
  | .other "Clip" => [("input", .data), ("min", .parameter), ("max", .parameter)]
  | .other "Col2Im" => [("input", .data), ("image_shape", .parameter), ("block_shape", .parameter)]
  | .other "ConstantOfShape" => [("input", .parameter)]
  | .other "Conv1d" | .other "Conv2d" | .other "Conv3d" => [("X", .data), ("W", .parameter), ("B", .parameter)]
  | .other "ConvTranspose1d" | .other "ConvTranspose2d" | .other "ConvTranspose3d" =>
      [("X", .data), ("W", .parameter),
        ("B", .parameter)]
  | .other "CumSum" => [("x", .data), ("axis", .parameter)]
  | .other "DeformConv" => [("X", .data), ("W", .parameter), ("offset", .data), ("B", .parameter), ("mask", .data)]
  | .other "Dropout" => [("data", .data), ("ratio", .parameter), ("training_mode", .parameter)]
  | .other "Expand" => [("input", .data), ("shape", .parameter)]
  | .other "GroupNormalization" => [("X", .data), ("scale", .parameter), ("bias", .parameter)]
  | .other "GRU" =>
      [("X", .data), ("W", .parameter), ("R", .parameter), ("B", .parameter),
        ("sequence_lens", .data), ("initial_h", .data)]
  | .other "InstanceNormalization" => [("input", .data), ("scale", .parameter), ("B", .parameter)]
  | .other "LayerNormalization" => [("X", .data), ("Scale", .parameter), ("B", .parameter)]
  | .linear => [("input", .data), ("weight", .parameter), ("bias", .parameter)]
  | .other "LSTM" =>
      [("X", .data), ("W", .parameter), ("R", .parameter), ("B", .parameter), ("sequence_lens", .data),
        ("initial_h", .data), ("initial_c", .data), ("P", .parameter)]
  | .other "OneHot" => [("indices", .data), ("depth", .parameter), ("values", .parameter)]
  | .other "Pad" => [("data", .data), ("pads", .parameter), ("constant_value", .parameter), ("axes", .data)]
  | .other "PRelu" => [("X", .data), ("slope", .parameter)]
  | .other "Range" => [("start", .parameter), ("limit", .parameter), ("delta", .parameter)]
  | .other "ReduceMax" | .other "ReduceMin" | .other "ReduceMean" | .other "ReduceProd" | .other "ReduceSum"
  | .other "ReduceSumSquare" | .other "ReduceL1" | .other "ReduceL2" | .other "ReduceLogSum"
  | .other "ReduceLogSumExp" => [("data", .data), ("axes", .parameter)]
  | .reshape => [("data", .data), ("shape", .parameter)]
  | .other "Resize" => [("X", .data), ("roi", .parameter), ("scales", .parameter), ("sizes", .parameter)]
  | .other "RNN" =>
      [("X", .data), ("W", .parameter), ("R", .parameter), ("B", .parameter),
        ("sequence_lens", .data), ("initial_h", .data)]
  | .slice =>
      [("data", .data), ("starts", .parameter), ("ends", .parameter),
        ("axes", .parameter), ("steps", .parameter)]
  | .other "Split" => [("input", .data), ("split", .parameter)]
  | .squeeze => [("data", .data), ("axes", .parameter)]
  | .other "Tile" => [("input", .data), ("repeats", .parameter)]
  | .other "TopK" => [("X", .data), ("K", .parameter)]
  | .other "Trilu" => [("input", .data), ("k", .parameter)]
  | .unsqueeze => [("data", .data), ("axes", .parameter)]
  | _ => []

/-- Operand number `k` is read at import. `Squeeze` and `Unsqueeze` have their axes as an operand from opset 13 on. -/
def ReadAtImport (opset : Nat) (ty : NodeType) (k : Nat) : Prop :=
  (∃ s, (operandRoles ty)[k]? = some (s, .parameter)) ∧ (ty = .squeeze ∨ ty = .unsqueeze → 13 ≤ opset)

end OnnxIR.Onnx
