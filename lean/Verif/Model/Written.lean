import Verif.Model.Naming
import Verif.Model.Ownership
import Verif.Spec.Program

/-!
# The order in which a node's code is written

`NodeCodegen::forward` asks the scope for its inputs (`scope.arg`), which decides on a clone or a move, and then places the
answers in a `quote!`. The order in the written code is not always the order of the questions, and the block may declare
local variables before an operand is mentioned. Model/Ownership.lean writes every mention where it was asked for; here a
node may come with the text of its block.
-/

namespace OnnxIR.Gen

open Rust

/-- One step of a written block, as far as ownership is concerned: the answer to question number `k` taken by value, the
same answer only looked at (`#x.dims()`), `let x = …`, taking the local variable `x` by value, or reading it. -/
inductive Item
  | mention (k : Nat)
  | look (k : Nat)
  | declare (x : String)
  | take (x : String)
  | read (x : String)
deriving DecidableEq, Repr

/-- The answers of the scope to a list of questions (scope.rs:159-173). -/
def answers (p : Nat) (s : Scope) : List Access → Scope × List Take
  | [] => (s, [])
  | .arg x :: as =>
    let r := answers p (useOwned s x p).1 as
    (r.1, (if (useOwned s x p).2 then .clone x else .move x) :: r.2)
  | .peek x :: as =>
    let r := answers p s as
    (r.1, .clone x :: r.2)
  | .raw x :: as =>
    let r := answers p s as
    (r.1, .move x :: r.2)

/-- An answer, written down. -/
def writeTake : Take → Code → Code
  | .clone x, c => .clone x c
  | .move x, c => .move x c

/-- A block, written down. -/
def writeItems (ts : List Take) : List Item → Code
  | [] => .done
  | .mention k :: is =>
    match ts[k]? with
    | some t => writeTake t (writeItems ts is)
    | none => writeItems ts is
  | .look k :: is =>
    match ts[k]? with
    | some (.clone x) => .clone x (writeItems ts is)
    | some (.move x) => .clone x (writeItems ts is)
    | none => writeItems ts is
  | .declare x :: is => .bind x (writeItems ts is)
  | .take x :: is => .move x (writeItems ts is)
  | .read x :: is => .clone x (writeItems ts is)

/-- A block that asks and writes in the same order and has no local variables. -/
def plainItems (n : Nat) : List Item := (List.range n).map .mention

/-- Code of nodes without subgraphs; `text p` is the block of the node at position `p`. -/
def genWritten (text : Nat → List Item) : Prog → Nat → Scope → Code
  | .op _ outs acc r, p, s =>
    .block (writeItems (answers p s acc).2 (text p)) (binds outs (genWritten text r (p + 1) (answers p s acc).1))
  | _, _, _ => .done

/-- graph.rs:503-583 `codegen_forward` with the texts of the nodes. -/
def forwardWritten (text : Nat → List Item) (g : Graph) : Code :=
  binds g.inputs (genWritten text g.prog 0 (buildScope g) ++ movesOf g.scalarOutputs (movesOf g.outputs .done))

/-- crates/burn-onnx/src/burn/node/lstm.rs:364-402: asks for X, initial_h, initial_c; writes
`forward(#input, Some(LstmState::new(#c_input, #h_input)))`. -/
def lstmText : List Item := [.mention 0, .mention 2, .mention 1]

/-- crates/burn-onnx/src/burn/node/where_op.rs:24-69, tensors or shapes: asks for the condition, then Y, then X; writes
`#y_tensor.mask_where(#cond, #x_tensor)` (or `mask_fill`). -/
def whereText : List Item := [.mention 1, .mention 0, .mention 2]

/-- where_op.rs:47-57, scalar X and Y: `let cond = #cond; #y_tensor.expand(cond.dims()).mask_fill(cond, #x_value)`. -/
def whereScalarsText : List Item := [.mention 0, .declare "cond", .mention 1, .read "cond", .take "cond", .mention 2]

/-- where_op.rs:105-122: arrays; `let mut result = #y;`, then the loop over the condition and X. -/
def whereShapesText : List Item := [.mention 1, .declare "result", .mention 0, .mention 2, .take "result"]

/-- crates/burn-onnx/src/burn/node/matmul_integer.rs:12-106: asks for A, B and the zero points of A and of B; writes
`(A - a_zero_point).matmul(B - b_zero_point)`. -/
def matMulIntegerText : List Item := [.mention 0, .mention 2, .mention 1, .mention 3]

/-- crates/burn-onnx/src/burn/node/batch_norm.rs:55-90, parameters computed at run time. -/
def batchNormText : List Item :=
  [.mention 1, .declare "scale", .mention 2, .declare "bias", .mention 3, .declare "mean", .mention 4, .declare "var",
    .mention 0, .take "mean", .take "var", .take "scale", .take "bias"]

/-- crates/burn-onnx/src/burn/node/attention.rs:67-105 and 186-206, rank 3 without mask and cache: `let q = #q; let k = #k;
let v = #v;`, then the dimensions of all three, then each is reshaped and given to the attention function. -/
def attentionText : List Item :=
  [.mention 0, .declare "q", .mention 1, .declare "k", .mention 2, .declare "v", .read "q", .read "k", .read "v",
    .take "q", .declare "q", .take "k", .declare "k", .take "v", .declare "v", .take "q", .take "k", .take "v"]

/-- crates/burn-onnx/src/burn/node/gather.rs:224-230: `let indices = Tensor::from_data([#index], …); Tensor::select(#input,
#dim, indices)` for a scalar index on the device. -/
def gatherScalarText : List Item := [.mention 1, .declare "indices", .mention 0, .take "indices"]

/-- gather.rs:322-330, a shape as index (`#shape_name` is `Copy`). -/
def gatherShapeText : List Item := [.declare "indices", .mention 0, .take "indices"]

/-- crates/burn-onnx/src/burn/node/depth_to_space.rs:13-44 and space_to_depth.rs:12-32: `let [b, c, h, w] =
#input.shape().dims(); #input.reshape(…)`. -/
def depthSpaceText : List Item := [.look 0, .declare "b", .declare "c", .declare "h", .declare "w", .mention 0]

/-- crates/burn-onnx/src/burn/node/scatter_nd.rs:76-107, up to the loop. The last borrow of the indices (line 80) counts as
taking them by value. -/
def scatterNDText : List Item :=
  [.look 0, .declare "data_dims", .look 1, .declare "indices_dims", .mention 1, .declare "indices_data",
    .take "indices_data", .declare "indices_values", .declare "r", .declare "q", .declare "k", .declare "data_strides",
    .declare "num_updates", .declare "slice_size", .declare "total_size", .mention 0, .declare "output_flat", .mention 2,
    .declare "updates_flat", .read "updates_flat", .take "output_flat"]

/-- crates/burn-onnx/src/burn/node/scatter_elements.rs:89-131, up to the loop. -/
def scatterElementsText : List Item :=
  [.look 0, .declare "data_dims", .look 2, .declare "updates_dims", .mention 1, .declare "indices_data",
    .take "indices_data", .declare "indices_values", .declare "r", .declare "dim", .declare "data_strides",
    .declare "idx_strides", .declare "total_data", .declare "total_updates", .mention 0, .declare "output_flat", .mention 2,
    .declare "updates_flat", .read "updates_flat", .take "output_flat"]

/-- crates/burn-onnx/src/burn/node/scatter_elements.rs:45-50, without reduction: `let gathered = #data.clone().gather(#dim,
#indices.clone()); #data.scatter(#dim, #indices, #updates - gathered, …)`. -/
def scatterDiffText : List Item := [.look 0, .look 1, .declare "gathered", .mention 0, .mention 1, .mention 2, .take "gathered"]

/-- crates/burn-onnx/src/burn/node/gathernd.rs:78-128. -/
def gatherNDText : List Item :=
  [.look 0, .declare "data_dims", .look 1, .declare "indices_dims", .mention 1, .declare "indices_data",
    .take "indices_data", .declare "indices_values", .declare "r", .declare "q", .declare "b", .declare "k",
    .declare "data_strides", .declare "batch_count", .declare "lookups_per_batch", .declare "slice_size",
    .declare "total_data_size", .declare "batch_data_stride", .declare "total_slices", .declare "output_size",
    .declare "flat_indices", .mention 0, .declare "data_flat", .declare "indices_tensor", .take "data_flat",
    .take "indices_tensor"]

/-- crates/burn-onnx/src/burn/node/expand.rs:64-82, shape known or native. -/
def expandText : List Item :=
  [.declare "onnx_shape", .look 0, .declare "input_dims", .declare "shape", .mention 0, .take "shape"]

/-- crates/burn-onnx/src/burn/node/resize.rs:168-185: sizes given by a tensor. -/
def resizeText : List Item :=
  [.mention 1, .declare "sizes_data", .declare "sizes_array", .declare "target_height", .declare "target_width", .mention 0]

/-- crates/burn-onnx/src/burn/node/cumsum.rs:139-190: an axis computed at run time, a native number or a shape, under its
name: `let axis = #axis_expr; #input…`. -/
def cumSumText : List Item := [.declare "axis", .mention 0]

/-- crates/burn-onnx/src/burn/node/flatten.rs:22-27, an axis other than 0. -/
def flattenText : List Item := [.look 0, .declare "leading_dim", .mention 0]

/-- crates/burn-onnx/src/burn/node/layer_norm.rs:71-77 and group_norm.rs:65-71, in full precision. -/
def normCastText : List Item := [.look 0, .declare "dtype", .mention 0, .take "dtype"]

/-- crates/burn-onnx/src/burn/node/reduce.rs:234-237 and 264-267: ReduceL2 and ReduceLogSum of floats. -/
def reduceCastText : List Item := [.look 0, .declare "input_dtype", .mention 0, .take "input_dtype"]

/-- reduce.rs:308-338, ReduceLogSumExp of floats. -/
def logSumExpText : List Item :=
  [.look 0, .declare "input_dtype", .look 0, .declare "input_shape", .mention 0, .declare "input_double", .read "input_double",
    .declare "input_max_reduced", .take "input_double", .read "input_max_reduced", .take "input_shape",
    .declare "input_exp_reduced", .take "input_exp_reduced", .declare "exp_sum_reduced", .take "input_max_reduced",
    .take "exp_sum_reduced", .take "input_dtype"]

/-- crates/burn-onnx/src/burn/node/add.rs:54-69 (sub.rs, mul.rs and div.rs alike): a shape and a scalar. -/
def shapeScalarText : List Item := [.mention 0, .declare "result", .mention 1, .declare "__scalar", .take "result"]

/-- add.rs:71-86: a scalar and a shape. -/
def scalarShapeText : List Item := [.mention 1, .declare "result", .mention 0, .declare "__scalar", .take "result"]

/-- crates/burn-onnx/src/burn/node/equal.rs:57-68: a shape and a tensor. -/
def equalShapeText : List Item := [.mention 0, .declare "shape_tensor", .take "shape_tensor", .mention 1]

/-- crates/burn-onnx/src/burn/node/bitshift.rs:30-37 and 50-57: a number shifted by a tensor. -/
def bitShiftText : List Item := [.look 1, .mention 0, .declare "_scalar_tensor", .take "_scalar_tensor", .mention 1]

/-- crates/burn-onnx/src/burn/node/split.rs:31-39: sizes known; not in braces, so the variable stays. -/
def splitText : List Item := [.mention 0, .declare "split_tensors"]

/-- split.rs:45-52: a number of outputs; not in braces. -/
def splitEvenText : List Item :=
  [.look 0, .declare "dim_size", .declare "chunk", .declare "sizes", .take "sizes", .mention 0, .declare "split_tensors"]

/-- crates/burn-onnx/src/burn/node/reshape.rs:240-244: the target is a tensor; not in braces. The tensor with the target is
only looked at. -/
def reshapeTensorText : List Item := [.look 1, .declare "shape_data", .declare "shape_array", .mention 0]

/-- crates/burn-onnx/src/burn/node/slice.rs:178-184, bounds that are tensors; not in braces. -/
def sliceTensorText : List Item :=
  [.look 1, .declare "start_data", .declare "start_vec", .look 2, .declare "end_data", .declare "end_vec", .mention 0]

/-- crates/burn-onnx/src/burn/node/gather.rs:40, 57-62 and 72-79: one element of a shape, the index a scalar on the device; not
in braces. -/
def gatherOfShapeText : List Item := [.mention 1, .declare "__scalar_idx", .look 0, .declare "actual_idx", .look 0]

/-- What the mentions of a block denote: pairs of the operand's number and the value its name has at that place. `e` are the
variables around the block, innermost first; a local variable hides a variable of the graph (its value is left open). -/
def denoted {V : Type} (names : List String) : List Item → List (String × Option V) → List (Nat × Option V)
  | [], _ => []
  | .mention k :: is, e => (k, (names[k]?).bind fun x => (e.lookup x).join) :: denoted names is e
  | .look k :: is, e => (k, (names[k]?).bind fun x => (e.lookup x).join) :: denoted names is e
  | .declare x :: is, e => denoted names is ((x, none) :: e)
  | .take _ :: is, e => denoted names is e
  | .read _ :: is, e => denoted names is e

/-- All texts above. -/
def blockTexts : List (List Item) :=
  [lstmText, whereText, whereScalarsText, whereShapesText, matMulIntegerText, batchNormText, attentionText, gatherScalarText, gatherShapeText,
    depthSpaceText, scatterNDText, scatterElementsText, scatterDiffText, gatherNDText, expandText, resizeText, cumSumText, flattenText,
    normCastText, reduceCastText, logSumExpText, shapeScalarText, scalarShapeText, equalShapeText, bitShiftText]

/-- The texts that are not in braces: their local variables belong to the body of `forward`. -/
def openTexts : List (List Item) := [splitText, splitEvenText, reshapeTensorText, sliceTensorText, gatherOfShapeText]

/-- The local variables of a text, the last one first. -/
def declared : List Item → List String
  | [] => []
  | .declare x :: is => declared is ++ [x]
  | _ :: is => declared is

/-- The code of one node in the body: the names of its operands, its text, whether the text is in braces, and what its
outputs are bound to. -/
structure Stmt (V : Type) where
  names : List String
  text : List Item
  braces : Bool
  results : List (String × V)

/-- The variables after a statement, innermost first. -/
def Stmt.after {V : Type} (b : Stmt V) (e : List (String × Option V)) : List (String × Option V) :=
  b.results.map (fun r => (r.1, some r.2)) ++ ((if b.braces then [] else (declared b.text).map fun x => (x, none)) ++ e)

/-- graph.rs:548-553: what the mentions in the code of all nodes denote. -/
def denotedStmts {V : Type} : List (Stmt V) → List (String × Option V) → List (List (Nat × Option V))
  | [], _ => []
  | b :: bs, e => denoted b.names b.text e :: denotedStmts bs (b.after e)

end OnnxIR.Gen
