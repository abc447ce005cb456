import Verif.Model.Types

/-!
# Traversals of hash maps and hash sets

Rust's `HashMap` and `HashSet` are seeded per process: iterating over one visits its entries in
an arbitrary order. This file models every place where the importer iterates over one and
something is computed from the order: the order is an argument of the function.
-/

namespace OnnxIR

variable {V F : Type}

/-! ## Attribute loops -/

/-- `for (key, value) in node.attrs.iter() { match key.as_str() { … } }`: where it is, whether an
unknown attribute is an error, and its arms as pairs of an attribute name and the local variable
the arm sets (empty: the arm only checks the value). -/
structure AttrLoop where
  place : String
  strict : Bool
  arms : List (String × String)

/-- One pass of an attribute loop over the attributes in the given order. `conv key value` is the
right-hand side of the arm of `key`; `none` is an error returned, or a panic, inside the arm.
Simplification: the text of the error is left out. -/
def runAttrs (l : AttrLoop) (conv : String → AttrVal V → Option F) :
    List (String × AttrVal V) → (String → Option F) → Option (String → Option F)
  | [], env => some env
  | (k, v) :: rest, env =>
    match mapGet l.arms k with
    | none => if l.strict then none else runAttrs l conv rest env
    | some x =>
      match conv k v with
      | none => none
      | some y =>
        if x = "" then runAttrs l conv rest env
        else runAttrs l conv rest (fun z => if z = x then some y else env z)

/-- The loops that return at the first attribute with one of the given names:
crates/onnx-ir/src/node/pad.rs:194-205 (`mode`) and 228-234 (`pads`, `paddings`), squeeze.rs:219-235
and unsqueeze.rs:103-114 (`axes`). -/
def firstAttr (keys : List String) (attrs : List (String × AttrVal V)) : Option (AttrVal V) :=
  (attrs.find? fun p => keys.contains p.1).map Prod.snd

/-- crates/onnx-ir/src/node/pad.rs:228-234. -/
def padAttr (attrs : List (String × AttrVal V)) : Option (AttrVal V) :=
  firstAttr ["pads", "paddings"] attrs

/-- Every attribute loop of crates/onnx-ir/src/node, one line per loop: file, lines, whether an
unknown attribute is an error, and the arms (attribute, local variable it sets; an empty variable
marks an arm that only checks the value or does nothing). Generated from the source. -/
def attrLoops : List AttrLoop :=
  [⟨"argmax.rs:116-147", false,
    [("axis", "axis"), ("keepdims", "keepdims"), ("select_last_index", "")]⟩,
   ⟨"argmin.rs:116-147", false,
    [("axis", "axis"), ("keepdims", "keepdims"), ("select_last_index", "")]⟩,
   ⟨"attention.rs:205-240", true,
    [("is_causal", "is_causal"), ("kv_num_heads", "kv_num_heads"),
     ("q_num_heads", "q_num_heads"), ("qk_matmul_output_mode", "qk_matmul_output_mode"),
     ("scale", "scale"), ("softcap", "softcap"), ("softmax_precision", "softmax_precision")]⟩,
   ⟨"avg_pool1d.rs:80-113", true,
    [("kernel_shape", ""), ("strides", ""), ("pads", ""), ("count_include_pad", ""),
     ("ceil_mode", ""), ("dilations", ""), ("auto_pad", "")]⟩,
   ⟨"avg_pool1d.rs:145-156", false,
    [("kernel_shape", "kernel_shape"), ("strides", "strides"), ("pads", "pads"),
     ("count_include_pad", "count_include_pad"), ("dilations", "dilations"),
     ("ceil_mode", "ceil_mode"), ("auto_pad", "auto_pad")]⟩,
   ⟨"avg_pool2d.rs:78-111", true,
    [("kernel_shape", ""), ("strides", ""), ("pads", ""), ("count_include_pad", ""),
     ("ceil_mode", ""), ("dilations", ""), ("auto_pad", "")]⟩,
   ⟨"avg_pool2d.rs:143-154", false,
    [("kernel_shape", "kernel_shape"), ("strides", "strides"), ("pads", "pads"),
     ("count_include_pad", "count_include_pad"), ("dilations", "dilations"),
     ("ceil_mode", "ceil_mode"), ("auto_pad", "auto_pad")]⟩,
   ⟨"batch_norm.rs:159-167", false,
    [("momentum", "momentum"), ("epsilon", "epsilon"), ("spatial", ""), ("consumed_inputs", ""),
     ("is_test", ""), ("training_mode", "")]⟩,
   ⟨"celu.rs:59-69", true,
    [("alpha", "")]⟩,
   ⟨"celu.rs:77-81", false,
    [("alpha", "alpha")]⟩,
   ⟨"clip.rs:133-145", false,
    [("min", "min_result"), ("max", "max_result")]⟩,
   ⟨"concat.rs:295-300", false,
    [("axis", "axis")]⟩,
   ⟨"conv1d.rs:90-104", true,
    [("kernel_shape", ""), ("strides", ""), ("pads", ""), ("dilations", ""), ("group", ""),
     ("auto_pad", "")]⟩,
   ⟨"conv1d.rs:244-254", false,
    [("kernel_shape", "kernel_shape"), ("strides", "strides"), ("pads", "pads"),
     ("dilations", "dilations"), ("group", "group"), ("auto_pad", "auto_pad")]⟩,
   ⟨"conv2d.rs:90-103", true,
    [("kernel_shape", ""), ("strides", ""), ("pads", ""), ("dilations", ""), ("group", ""),
     ("auto_pad", "")]⟩,
   ⟨"conv2d.rs:267-277", false,
    [("kernel_shape", "kernel_shape"), ("strides", "strides"), ("pads", "pads"),
     ("dilations", "dilations"), ("group", "group"), ("auto_pad", "auto_pad")]⟩,
   ⟨"conv3d.rs:205-224", true,
    [("kernel_shape", "kernel_shape"), ("strides", "strides"), ("pads", "pads"),
     ("dilations", "dilations"), ("group", "group"), ("auto_pad", "auto_pad")]⟩,
   ⟨"conv_transpose1d.rs:84-103", true,
    [("kernel_shape", ""), ("strides", ""), ("pads", ""), ("dilations", ""), ("group", ""),
     ("output_padding", ""), ("auto_pad", "")]⟩,
   ⟨"conv_transpose1d.rs:120-131", false,
    [("kernel_shape", "kernel_shape"), ("strides", "stride"), ("pads", "pads"),
     ("dilations", "dilations"), ("group", "group"), ("output_padding", "output_padding"),
     ("auto_pad", "")]⟩,
   ⟨"conv_transpose2d.rs:85-104", true,
    [("kernel_shape", ""), ("strides", ""), ("pads", ""), ("dilations", ""), ("group", ""),
     ("output_padding", ""), ("auto_pad", "")]⟩,
   ⟨"conv_transpose2d.rs:121-132", false,
    [("kernel_shape", "kernel_shape"), ("strides", "stride"), ("pads", "pads"),
     ("dilations", "dilations"), ("group", "group"), ("output_padding", "output_padding"),
     ("auto_pad", "")]⟩,
   ⟨"conv_transpose3d.rs:94-118", true,
    [("kernel_shape", "kernel_shape"), ("strides", "stride"), ("pads", "pads"),
     ("dilations", "dilations"), ("group", "group"), ("output_padding", "output_padding"),
     ("auto_pad", "")]⟩,
   ⟨"deform_conv.rs:280-290", false,
    [("kernel_shape", "kernel_shape"), ("strides", "strides"), ("pads", "pads"),
     ("dilations", "dilations"), ("group", "group"), ("offset_group", "offset_group")]⟩,
   ⟨"depth_to_space.rs:82-92", true,
    [("blocksize", ""), ("mode", "")]⟩,
   ⟨"depth_to_space.rs:160-174", false,
    [("blocksize", "block_size"), ("mode", "mode")]⟩,
   ⟨"elu.rs:60-70", true,
    [("alpha", "")]⟩,
   ⟨"elu.rs:78-82", false,
    [("alpha", "alpha")]⟩,
   ⟨"eye_like.rs:96-118", true,
    [("dtype", "dtype"), ("k", "k")]⟩,
   ⟨"flatten.rs:140-150", true,
    [("axis", "axis")]⟩,
   ⟨"gather.rs:115-125", true,
    [("axis", "axis")]⟩,
   ⟨"gather.rs:209-214", false,
    [("axis", "axis")]⟩,
   ⟨"gather_elements.rs:111-121", true,
    [("axis", "axis")]⟩,
   ⟨"gathernd.rs:82-92", true,
    [("batch_dims", "batch_dims")]⟩,
   ⟨"gathernd.rs:154-164", true,
    [("batch_dims", "batch_dims")]⟩,
   ⟨"gemm.rs:134-147", true,
    [("alpha", "alpha"), ("beta", "beta"), ("transA", "trans_a"), ("transB", "trans_b")]⟩,
   ⟨"grid_sample.rs:188-215", false,
    [("mode", "mode"), ("padding_mode", "padding_mode"), ("align_corners", "align_corners")]⟩,
   ⟨"group_norm.rs:76-86", true,
    [("epsilon", ""), ("num_groups", ""), ("stash_type", "")]⟩,
   ⟨"group_norm.rs:117-124", false,
    [("epsilon", "epsilon"), ("num_groups", "num_groups"), ("stash_type", "stash_type")]⟩,
   ⟨"hard_sigmoid.rs:65-75", true,
    [("alpha", ""), ("beta", "")]⟩,
   ⟨"hard_sigmoid.rs:88-94", false,
    [("alpha", "alpha"), ("beta", "beta")]⟩,
   ⟨"hardmax.rs:78-82", false,
    [("axis", "axis")]⟩,
   ⟨"instance_norm.rs:84-94", true,
    [("epsilon", "")]⟩,
   ⟨"instance_norm.rs:105-110", false,
    [("epsilon", "epsilon")]⟩,
   ⟨"is_inf.rs:60-70", true,
    [("detect_negative", ""), ("detect_positive", "")]⟩,
   ⟨"is_inf.rs:83-89", false,
    [("detect_negative", "detect_negative"), ("detect_positive", "detect_positive")]⟩,
   ⟨"layer_norm.rs:110-121", true,
    [("axis", "axis"), ("epsilon", ""), ("stash_type", "")]⟩,
   ⟨"layer_norm.rs:143-150", false,
    [("axis", ""), ("epsilon", "epsilon"), ("stash_type", "stash_type")]⟩,
   ⟨"leaky_relu.rs:71-81", true,
    [("alpha", "")]⟩,
   ⟨"leaky_relu.rs:92-97", false,
    [("alpha", "alpha")]⟩,
   ⟨"log_softmax.rs:70-80", true,
    [("axis", "")]⟩,
   ⟨"log_softmax.rs:105-109", false,
    [("axis", "axis")]⟩,
   ⟨"max_pool1d.rs:113-149", true,
    [("kernel_shape", ""), ("strides", ""), ("pads", ""), ("storage_order", ""),
     ("dilations", ""), ("auto_pad", ""), ("ceil_mode", "")]⟩,
   ⟨"max_pool1d.rs:165-176", false,
    [("kernel_shape", "kernel_shape"), ("strides", "stride"), ("pads", "pads"),
     ("dilations", "dilation"), ("ceil_mode", "ceil_mode"), ("auto_pad", "auto_pad"),
     ("storage_order", "")]⟩,
   ⟨"max_pool2d.rs:109-145", true,
    [("kernel_shape", ""), ("strides", ""), ("pads", ""), ("storage_order", ""),
     ("dilations", ""), ("auto_pad", ""), ("ceil_mode", "")]⟩,
   ⟨"max_pool2d.rs:161-172", false,
    [("kernel_shape", "kernel_shape"), ("strides", "strides"), ("pads", "pads"),
     ("dilations", "dilations"), ("ceil_mode", "ceil_mode"), ("auto_pad", "auto_pad"),
     ("storage_order", "")]⟩,
   ⟨"reduce.rs:266-272", false,
    [("axes", "axes"), ("keepdims", "keepdims")]⟩,
   ⟨"reshape.rs:367-372", false,
    [("allowzero", "allowzero")]⟩,
   ⟨"resize.rs:324-381", false,
    [("antialias", ""), ("axes", ""), ("coordinate_transformation_mode", ""),
     ("cubic_coeff_a", ""), ("exclude_outside", ""), ("extrapolation_value", ""),
     ("keep_aspect_ratio_policy", ""), ("mode", ""), ("nearest_mode", "")]⟩,
   ⟨"resize.rs:451-485", false,
    [("mode", "mode"), ("coordinate_transformation_mode", "coordinate_transformation_mode"),
     ("cubic_coeff_a", "cubic_coeff_a"), ("nearest_mode", "nearest_mode"),
     ("exclude_outside", "exclude_outside"), ("extrapolation_value", "extrapolation_value"),
     ("antialias", "antialias")]⟩,
   ⟨"scatter_elements.rs:95-124", true,
    [("axis", "axis"), ("reduction", "reduction")]⟩,
   ⟨"scatter_nd.rs:83-111", true,
    [("reduction", "reduction")]⟩,
   ⟨"selu.rs:67-77", true,
    [("alpha", ""), ("gamma", "")]⟩,
   ⟨"selu.rs:87-93", false,
    [("alpha", "alpha"), ("gamma", "gamma")]⟩,
   ⟨"shape.rs:111-117", false,
    [("start", "start_dim"), ("end", "end_dim")]⟩,
   ⟨"softmax.rs:90-94", false,
    [("axis", "axis")]⟩,
   ⟨"space_to_depth.rs:63-73", true,
    [("blocksize", "")]⟩,
   ⟨"space_to_depth.rs:138-142", false,
    [("blocksize", "block_size")]⟩,
   ⟨"split.rs:195-201", false,
    [("axis", "axis"), ("num_outputs", "num_outputs")]⟩,
   ⟨"swish.rs:56-66", true,
    [("alpha", "")]⟩,
   ⟨"swish.rs:74-78", false,
    [("alpha", "alpha")]⟩,
   ⟨"thresholded_relu.rs:59-69", true,
    [("alpha", "")]⟩,
   ⟨"thresholded_relu.rs:77-81", false,
    [("alpha", "alpha")]⟩,
   ⟨"trilu.rs:99-103", false,
    [("upper", "upper")]⟩]

/-! ## Values captured by subgraphs -/

/-- crates/onnx-ir/src/phases/node_conversion.rs:94-115: the loop over the set of outer
references, in the order `refs`. `resolve` is `GraphState::init_in`
(crates/onnx-ir/src/graph_state.rs), which gives a reference the argument it stands for in the
enclosing graph. State: the inputs of the node and the names recorded so far. -/
def addCaptures (resolve : String → Arg V) :
    List String → List (Arg V) → List String → List (Arg V) × List String
  | [], ins, names => (ins, names)
  | r :: rest, ins, names =>
    if ins.any fun i => i.name == r then addCaptures resolve rest ins names
    else addCaptures resolve rest (ins ++ [resolve r]) (names ++ [r])

/-- crates/onnx-ir/src/phases/node_conversion.rs:117-129: the node's inputs with the captures, the
number of ONNX inputs (`__onnx_input_count`) and the recorded names (`__scope_ref_names`). -/
def captureInputs (resolve : String → Arg V) (ins : List (Arg V)) (refs : List String) :
    List (Arg V) × Nat × List String :=
  let r := addCaptures resolve refs ins []
  (r.1, r.1.length - r.2.length, r.2)

/-- crates/onnx-ir/src/processor.rs:508-545 `build_outer_scope_from_inputs`: what the body of the
node knows about the captured names. -/
def outerScope (c : List (Arg V) × Nat × List String) : List (String × Arg V) :=
  ((c.1.drop c.2.1).zipIdx.map fun p => ((c.2.2[p.2]?).getD p.1.name, p.1)).reverse

/-- crates/burn-onnx/src/burn/node/subgraph_helper.rs:48-92 `generate_outer_scope_bindings`: the
`let` statements in front of the body, as pairs of the bound name and the variable it copies.
`keep` is the test of lines 57-66 (not excluded, used in the body). -/
def scopeBindings (keep : String → Bool) : List String → List (Arg V) → List (String × String)
  | [], _ => []
  | _ :: _, [] => []
  | x :: xs, a :: as =>
    if keep x then
      match a.ty with
      | .shape _ => scopeBindings keep xs as
      | _ => (x, a.name) :: scopeBindings keep xs as
    else scopeBindings keep xs as

/-- The bindings generated for a node whose references are visited in the order `refs`:
crates/burn-onnx/src/burn/node/if_node.rs:120-160, loop_node.rs and scan_node.rs pass the inputs
after the ONNX inputs and the recorded names. -/
def captureBindings (resolve : String → Arg V) (ins : List (Arg V)) (keep : String → Bool)
    (refs : List String) : List (String × String) :=
  let c := captureInputs resolve ins refs
  scopeBindings keep c.2.2 (c.1.drop c.2.1)

/-- What `let x = y.clone(); …` does to the variables in scope: each statement sees the ones
before it. -/
def runLets {α : Type} : List (String × String) → (String → Option α) → (String → Option α)
  | [], env => env
  | (x, y) :: rest, env => runLets rest (fun z => if z = x then env y else env z)

/-! ## Sorted traversals -/

/-- crates/onnx-ir/src/simplify/redundant_nodes.rs:88-92: the attributes of a key of common
subexpression elimination, sorted by name (`sort_by_key` is a stable sort). -/
def sortedAttrs (attrs : List (String × AttrVal V)) : List (String × AttrVal V) :=
  attrs.mergeSort fun a b => decide (a.1 ≤ b.1)

/-- crates/burn-onnx/src/burn/imports.rs:10-24 `register` and `codegen`: the registered imports,
without duplicates, sorted. `order` is the order in which the set is read. -/
def importLines (order : List String) : List String :=
  order.mergeSort fun a b => decide (a ≤ b)

end OnnxIR
