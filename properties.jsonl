{"id": "C01", "title": "Dead-node elimination never changes a model's outputs", "statement": "Importing a model with simplification removes nodes nobody needs. Whenever the original graph computes its outputs on some inputs, the graph left after dead-node elimination computes exactly the same outputs on those inputs.", "quantifier": "every graph in single-assignment form, every operator semantics, every input assignment", "why_tests_cant": "A test fixes one graph; the claim is about every topology, every chain length of dead nodes and every operator meaning.", "anchors": ["crates/onnx-ir/src/simplify/dead_nodes.rs:eliminate_dead_nodes"]}
{"id": "C02", "title": "Dead-node elimination terminates and is complete", "statement": "Dead-node elimination always terminates; when it stops every surviving node has an output consumed by a surviving node or by the graph outputs, running it again changes nothing, and it never reorders nodes.", "quantifier": "every node list and output list (no well-formedness needed)", "why_tests_cant": "Completeness of a fixpoint iteration is a statement about arbitrarily long dead chains.", "anchors": ["crates/onnx-ir/src/simplify/dead_nodes.rs:eliminate_dead_nodes"]}
{"id": "C03", "title": "Merging duplicate nodes never changes outputs", "statement": "Common-subexpression elimination redirects consumers of a duplicate node to the first equal node. For every graph the outputs before and after are equal.", "quantifier": "every single-assignment graph, every operator semantics, every input", "why_tests_cant": "Needs all graphs and all operators, including nondeterministic ones (Dropout, RandomNormal, Bernoulli), where equal text does not mean equal value.", "anchors": ["crates/onnx-ir/src/simplify/redundant_nodes.rs:eliminate_redundant_nodes", "crates/onnx-ir/src/simplify/redundant_nodes.rs:node_key"]}
{"id": "C04", "title": "Idempotent-operator elimination never changes outputs", "statement": "Removing the second of two nested Relu/Ceil/Floor/Round/Sign/Abs nodes leaves all outputs of the graph unchanged.", "quantifier": "every single-assignment graph and every semantics in which those six operators are idempotent", "why_tests_cant": "Chains of any length; consumers anywhere in the graph; graph outputs.", "anchors": ["crates/onnx-ir/src/simplify/idempotent.rs:eliminate_idempotent_ops"]}
{"id": "C05", "title": "Identity-element elimination never changes outputs", "statement": "Removing x+0, 0+x, x-0, x*1, 1*x, x/1, x^1 leaves every output of the graph unchanged, shape included.", "quantifier": "every single-assignment graph, every tensor shape of x and of the constant", "why_tests_cant": "Broadcasting: the constant may have any rank and any number of elements, so the result may have a different shape from x.", "anchors": ["crates/onnx-ir/src/simplify/identity_element.rs:eliminate_identity_elements"]}
{"id": "C06", "title": "Permute-via-shape-information rewriting never changes outputs", "statement": "Replacing Reshape(x, Concat of gathered dims of x) by Transpose(x, perm) leaves the output tensor unchanged.", "quantifier": "every shape, every permutation, every tensor contents", "why_tests_cant": "Tests that only compare shapes pass; the claim is about element order for every shape.", "anchors": ["crates/onnx-ir/src/simplify/permute_reshape.rs:simplify_permute_reshape"]}
{"id": "C07", "title": "Constant-shape folding computes what ONNX computes", "statement": "When a Gather or Slice of a Shape node is replaced by a constant, the constant equals the value ONNX assigns to the original nodes for every input tensor compatible with the known static shape.", "quantifier": "every static shape, every Shape start/end, every gather index, every slice start/end/step", "why_tests_cant": "Index normalisation has boundary cases in five integer parameters; only a proof covers them all.", "anchors": ["crates/onnx-ir/src/simplify/constant_shape.rs:simplify_constant_shape"]}
{"id": "C08", "title": "Constant folding computes what the operator computes", "statement": "When an arithmetic or shape node with constant inputs is replaced by a constant, the constant is the value of the ONNX operator (with multidirectional broadcasting and the integer width of the dtype), and folding never aborts the import.", "quantifier": "every pair of constant tensors of every shape and every 64/32-bit value", "why_tests_cant": "Overflow, division by zero and broadcasting corner cases range over 2^128 pairs and all shapes.", "anchors": ["crates/onnx-ir/src/simplify/constant_fold.rs:fold_constants"]}
{"id": "C09", "title": "The simplification pipeline as a whole preserves outputs", "statement": "Running all simplification passes in the order used by the importer, up to ten rounds with early exit, gives a graph that computes the same outputs as the input graph.", "quantifier": "every single-assignment graph, every input, every number of rounds", "why_tests_cant": "Passes enable one another; the composition has to preserve the invariants every pass relies on.", "anchors": ["crates/onnx-ir/src/simplify/mod.rs:simplify_graph"]}
{"id": "C10", "title": "Attention coalescing preserves the computed function", "statement": "Replacing MatMul/scale/mask/Softmax/MatMul by one Attention node leaves the output unchanged, whatever scaling was present in the original.", "quantifier": "every Q, K, V, mask, every scale (including no scale), every head dimension", "why_tests_cant": "Numerical tests use one head size and one scale; the missing-scale case depends on the head dimension.", "anchors": ["crates/onnx-ir/src/simplify/coalesce_attention.rs:coalesce_attention", "crates/burn-onnx/src/burn/node/attention.rs:forward_burn_attention"]}
{"id": "C11", "title": "No-op elimination rewires consumers correctly", "statement": "Removing nodes that return their first input unchanged, chains of them included, leaves every graph output and every consumer's input value unchanged, and graph outputs keep referring to live values.", "quantifier": "every single-assignment graph, every set of no-op nodes, chains of every length", "why_tests_cant": "Transitive rewiring through chains of unbounded length.", "anchors": ["crates/onnx-ir/src/phases/post_processing.rs:post_process"]}
{"id": "C12", "title": "Unreferenced-constant removal keeps the model well-defined", "statement": "Finalisation removes constants nobody refers to. Every value still referred to by a node or a graph output is still defined afterwards, and all outputs are unchanged.", "quantifier": "every graph and reference pattern", "why_tests_cant": "Needs every reference pattern, including constants with several outputs and references from nested graphs.", "anchors": ["crates/onnx-ir/src/phases/finalization.rs:finalize", "crates/onnx-ir/src/ir/graph.rs:eliminate_dead_constants"]}
{"id": "C13", "title": "Gemm and MatMul are only turned into Linear when the function is the same", "statement": "A Gemm or MatMul(+Add) node that becomes a Linear layer computes the same function as the original, and no other consumer loses its input.", "quantifier": "every attribute combination, every weight and bias shape, every consumer set", "why_tests_cant": "The fusion condition depends on attributes, shapes and on the rest of the graph.", "anchors": ["crates/onnx-ir/src/phases/node_conversion.rs:coalesce", "crates/onnx-ir/src/phases/node_conversion.rs:convert_gemm_to_linear", "crates/onnx-ir/src/phases/node_conversion.rs:convert_matmul_to_linear", "crates/onnx-ir/src/phases/node_conversion.rs:is_add_node_with_bias", "crates/burn-onnx/src/burn/node/linear.rs:forward"]}
{"id": "C14", "title": "Inferred static shapes are true of every execution", "statement": "If type inference assigns a static shape (with some dims known) to an operator's output, every execution whose inputs agree with the inputs' static shapes yields an output tensor with that rank and those dims.", "quantifier": "every operator modelled, every attribute value, every concrete input shape compatible with the static one", "why_tests_cant": "Soundness quantifies over all runtime shapes that match a partially known static shape.", "anchors": ["crates/onnx-ir/src/node/*.rs:infer_types", "crates/onnx-ir/src/ir/argument.rs:TensorType"]}
{"id": "C15", "title": "Static-shape soundness composes over whole graphs", "statement": "Running inference over a topologically ordered graph whose graph inputs are described truthfully gives, for every value in the graph, a description true of the value computed at runtime.", "quantifier": "every graph of sound operators, every number of nodes and inference rounds", "why_tests_cant": "Induction over arbitrary graphs.", "anchors": ["crates/onnx-ir/src/phases/type_inference.rs:infer_types", "crates/onnx-ir/src/pipeline.rs:build_graph"]}
{"id": "C16", "title": "Broadcast rank and static shape", "statement": "The output rank and static shape computed for broadcasting operators agree with ONNX multidirectional broadcasting of the actual inputs.", "quantifier": "every number of inputs, every rank and shape, every pattern of known and unknown dims", "why_tests_cant": "All shapes and arities.", "anchors": ["crates/onnx-ir/src/processor.rs:compute_broadcast_rank", "crates/onnx-ir/src/processor.rs:compute_broadcast_static_shape"]}
{"id": "C17", "title": "Merging static shapes only adds true information", "statement": "Merging a newly inferred static shape with an already known one keeps everything both agree on, never invents a dimension, and is idempotent.", "quantifier": "every pair of partial shapes", "why_tests_cant": "Laws over all partial shapes.", "anchors": ["crates/onnx-ir/src/ir/argument.rs:merge_static_shape"]}
{"id": "C18", "title": "Reshape inference", "statement": "For a constant target shape, the inferred output dims equal the dims ONNX Reshape produces (0 copies, -1 infers, allowzero honoured) for every compatible input, and reshape is only treated as a no-op if it is one at runtime.", "quantifier": "every input shape, every target vector, both allowzero values", "why_tests_cant": "Target vector is unbounded and the -1 case needs exact divisibility.", "anchors": ["crates/onnx-ir/src/node/reshape.rs:infer_types", "crates/onnx-ir/src/node/reshape.rs:is_noop"]}
{"id": "C19", "title": "Split chunks cover the axis exactly", "statement": "A Split without explicit sizes into n outputs produces exactly n chunks whose sizes sum to the dimension, every chunk but the trailing ones being ceil(dim/n); explicit sizes are accepted only if they match in count and sum.", "quantifier": "every dimension, every number of outputs, every size list", "why_tests_cant": "Arithmetic over all dim/n pairs including dim < n.", "anchors": ["crates/onnx-ir/src/node/split.rs:extract_config", "crates/burn-onnx/src/burn/node/split.rs:forward"]}
{"id": "C20", "title": "Automatic padding follows ONNX SAME/VALID", "statement": "With auto_pad SAME_UPPER/SAME_LOWER the computed padding makes the output size ceil(input/stride), differs by at most one between the two sides with the extra cell on the named side, and is never negative; VALID gives none.", "quantifier": "every input size, kernel, stride and dilation", "why_tests_cant": "Ceil/floor arithmetic over four unbounded parameters.", "anchors": ["crates/burn-onnx/src/burn/codegen.rs:compute_auto_pad_1dim", "crates/burn-onnx/src/burn/codegen.rs:resolve_auto_pad_2d"]}
{"id": "C21", "title": "Convolution and pooling output sizes", "statement": "The static output size inferred for convolution equals the number of valid window positions; pooling and transposed convolution never report a wrong size.", "quantifier": "every input size, kernel, stride, dilation, padding and auto_pad mode", "why_tests_cant": "Floor division over unbounded parameters.", "anchors": ["crates/onnx-ir/src/node/conv2d.rs:infer_types", "crates/onnx-ir/src/node/max_pool2d.rs:infer_types", "crates/onnx-ir/src/node/conv_transpose2d.rs:infer_types"]}
{"id": "C22", "title": "Squeeze and Unsqueeze are inverse on shapes", "statement": "For legal axes Unsqueeze followed by Squeeze on the same axes restores the static shape, for negative axes as well as positive ones, and both agree with ONNX.", "quantifier": "every rank, every set of axes, positive or negative", "why_tests_cant": "All ranks and axis sets.", "anchors": ["crates/onnx-ir/src/node/squeeze.rs:infer_types", "crates/onnx-ir/src/node/unsqueeze.rs:infer_types"]}
{"id": "C23", "title": "Generated code never uses a moved tensor", "statement": "In the Rust code generated for a graph, every tensor variable is used at most once by value and never after that; all other uses are clones that precede it. So the generated code passes the borrow checker's move rule.", "quantifier": "every graph, every number of uses of every value, uses by graph outputs and repeated uses inside one node included", "why_tests_cant": "The move/clone decision is a counter threaded through code generation; all use patterns must work.", "anchors": ["crates/burn-onnx/src/burn/scope.rs:Scope", "crates/burn-onnx/src/burn/graph.rs:build_scope"]}
{"id": "C24", "title": "Generated code clones only when needed", "statement": "The last by-value use of every tensor is a move, so a tensor used n times is cloned exactly n-1 times.", "quantifier": "every graph and every use count", "why_tests_cant": "All use patterns.", "anchors": ["crates/burn-onnx/src/burn/scope.rs:tensor_use_owned", "crates/burn-onnx/src/burn/graph.rs:build_scope"]}
{"id": "C25", "title": "Conditional and loop subgraphs respect ownership of outer values", "statement": "A tensor of the enclosing graph captured by an If, Loop or Scan body can still be used by later nodes.", "quantifier": "every capture and use pattern around a subgraph node", "why_tests_cant": "Depends on the number of branches and of later uses.", "anchors": ["crates/burn-onnx/src/burn/node/if_node.rs:forward", "crates/burn-onnx/src/burn/node/loop_node.rs:forward", "crates/burn-onnx/src/burn/node/subgraph_helper.rs:generate_outer_scope_bindings"]}
{"id": "C26", "title": "Generated loops compute the ONNX Loop", "statement": "The Rust loop generated for an ONNX Loop executes the body the number of times ONNX prescribes (trip count, condition, either optional), passes loop-carried values from each iteration to the next simultaneously, and collects scan outputs in order.", "quantifier": "every trip count, condition sequence, number of loop-carried values and body", "why_tests_cant": "Unbounded iteration counts; needs induction on iterations.", "anchors": ["crates/burn-onnx/src/burn/node/loop_node.rs:forward", "crates/onnx-ir/src/node/loop_node.rs"]}
{"id": "C27", "title": "Model fields and weight records match", "statement": "Every weight stored in the generated record file has the name of exactly one field of the generated struct, nested If/Loop bodies included, and no two fields share a name.", "quantifier": "every graph and nesting depth, every collision pattern of node names", "why_tests_cant": "Names are deduplicated by counters in two separate traversals that must agree for every graph.", "anchors": ["crates/burn-onnx/src/burn/graph.rs:collect_all_fields", "crates/burn-onnx/src/burn/graph.rs:collect_all_snapshots"]}
{"id": "C28", "title": "Slicing a shape value", "statement": "The code generated for Slice on a Shape value returns the elements ONNX Slice returns, and the declared array length is the actual one, so generated code compiles and does not panic.", "quantifier": "every length, start, end and step", "why_tests_cant": "Clamping and negative-step semantics over four integers.", "anchors": ["crates/burn-onnx/src/burn/node/slice.rs:generate_shape_slice", "crates/onnx-ir/src/node/slice.rs:calculate_shape_slice_output_len"]}
{"id": "C29", "title": "Expand follows bidirectional broadcasting", "statement": "The code generated for Expand produces the shape ONNX prescribes (dimension-wise maximum semantics) whenever input and target are compatible, and inferred static shapes agree.", "quantifier": "every input shape and every target shape", "why_tests_cant": "All shapes.", "anchors": ["crates/burn-onnx/src/burn/node/expand.rs:forward", "crates/onnx-ir/src/node/expand.rs:infer_types"]}
{"id": "C30", "title": "MatMul rank alignment", "statement": "For every combination of operand ranks, the unsqueeze/squeeze code generated around matmul yields the numpy matmul shape, and the inferred rank is that rank.", "quantifier": "every pair of ranks and shapes", "why_tests_cant": "Every rank pair.", "anchors": ["crates/burn-onnx/src/burn/node/matmul.rs:forward", "crates/onnx-ir/src/node/matmul.rs:infer_types"]}
{"id": "C31", "title": "Cumulative sums", "statement": "The code generated for CumSum computes ONNX CumSum for all four exclusive/reverse combinations.", "quantifier": "every length and contents, all four modes", "why_tests_cant": "Every length, including 0 and 1.", "anchors": ["crates/burn-onnx/src/burn/node/cumsum.rs:generate_static_cumsum"]}
{"id": "C32", "title": "Reductions", "statement": "The code generated for Reduce* computes the ONNX reduction for every axes list and both keepdims values; in particular ReduceLogSumExp equals log(sum(exp x)).", "quantifier": "every rank, axes set, keepdims, contents", "why_tests_cant": "keepdims=0 and non-leading axes interact with broadcasting.", "anchors": ["crates/burn-onnx/src/burn/node/reduce.rs:forward_reduce", "crates/onnx-ir/src/node/reduce.rs:infer_types"]}
{"id": "C33", "title": "Range and Mod scalar arithmetic", "statement": "The generated code for Range yields ONNX Range for positive and negative steps, and scalar Mod yields the ONNX remainder for both fmod values and all signs.", "quantifier": "every start, limit, delta; every pair of integers", "why_tests_cant": "Signs and boundaries over unbounded integers.", "anchors": ["crates/burn-onnx/src/burn/node/range.rs:forward", "crates/burn-onnx/src/burn/node/modulo.rs:forward"]}
{"id": "C34", "title": "Sanitised names are valid identifiers", "statement": "The name given to a graph input, output or value in generated code is always a legal Rust identifier, sanitising is idempotent, and different values get different names.", "quantifier": "every ONNX name string", "why_tests_cant": "All Unicode strings; injectivity is a universally quantified pair statement.", "anchors": ["crates/onnx-ir/src/proto_conversion.rs:sanitize_name"]}
{"id": "C35", "title": "Generated node and value names are unique", "statement": "Within one imported graph, all nodes get distinct names and all produced values distinct names, nested graphs sharing the registry included.", "quantifier": "every sequence of node types and output counts", "why_tests_cant": "Any number of nodes of any types.", "anchors": ["crates/onnx-ir/src/graph_state.rs:NameRegistry", "crates/onnx-ir/src/graph_state.rs:add_node"]}
{"id": "C36", "title": "Every input refers to the value ONNX means", "statement": "After graph construction each node input refers to the graph input, initializer, or most recent node output that bears that name in the ONNX file, or to the enclosing graph if none does.", "quantifier": "every node sequence with names in any pattern", "why_tests_cant": "All naming patterns, shadowing and collisions after sanitising.", "anchors": ["crates/onnx-ir/src/graph_state.rs:init_in", "crates/onnx-ir/src/graph_state.rs:add_node"]}
{"id": "C37", "title": "Out-of-order models are detected", "statement": "Models accepted by the importer have every node after the producers of its inputs; a model whose nodes are out of order is rejected rather than miscompiled.", "quantifier": "every node sequence", "why_tests_cant": "All permutations of all graphs.", "anchors": ["crates/onnx-ir/src/pipeline.rs:is_top_sorted"]}
{"id": "C38", "title": "Outer-scope references are exactly the free names of a subgraph", "statement": "The set of enclosing-graph values passed to an If/Loop/Scan body is exactly the set of names used in the body or in bodies nested inside it and not defined there.", "quantifier": "every nesting depth and every name pattern", "why_tests_cant": "Unbounded nesting.", "anchors": ["crates/onnx-ir/src/proto_conversion.rs:extract_outer_scope_references"]}
{"id": "C39", "title": "Constant storage never mixes up tensors", "statement": "Each tensor stored while importing gets a fresh id, reading an id returns the tensor stored under it however many were stored later, and name lookup returns the tensor registered for that name.", "quantifier": "every sequence of store, register and lookup operations", "why_tests_cant": "All operation histories.", "anchors": ["crates/onnx-ir/src/tensor_store.rs:TensorStore"]}
{"id": "C40", "title": "Tensor bytes are decoded faithfully", "statement": "Decoding a tensor stored as raw little-endian bytes gives the same values as the typed representation, and the element count equals the product of the dims or the import is rejected.", "quantifier": "every tensor, every dtype of 8, 16, 32 or 64 bits, every dims list", "why_tests_cant": "All byte strings.", "anchors": ["crates/onnx-ir/src/proto_conversion.rs:TryFrom<TensorProto>", "crates/onnx-ir/src/tensor_store.rs"]}
{"id": "C41", "title": "External data files stay inside the model directory", "statement": "Loading a model never opens an external-data path outside the directory of the model file.", "quantifier": "every location string", "why_tests_cant": "Attack strings are unbounded.", "anchors": ["crates/onnx-ir/src/external_data.rs:ExternalDataInfo"]}
{"id": "C42", "title": "Explicit padding configurations", "statement": "An ONNX pads list is turned into the padding with the same begin and end amounts per spatial axis, negative or malformed lists are rejected, and symmetric/asymmetric classification is exact.", "quantifier": "every pads list, every number of spatial axes", "why_tests_cant": "All lists.", "anchors": ["crates/onnx-ir/src/node/padding.rs", "crates/onnx-ir/src/node/pad.rs:onnx_pads_to_pairs"]}
{"id": "C43", "title": "Shape operator start/end", "statement": "The number of dims inferred for Shape(start, end) and the dims selected in generated code equal ONNX Shape with its clamping rules.", "quantifier": "every rank, start and end", "why_tests_cant": "Clamping boundaries.", "anchors": ["crates/onnx-ir/src/node/shape.rs", "crates/burn-onnx/src/burn/node/shape.rs:forward"]}
{"id": "C44", "title": "Fixed-point type inference", "statement": "Iterated type inference stops within its iteration bound and, when it stops early, every node's output types are those the operator's rule gives for its current input types.", "quantifier": "every graph, every inference rule", "why_tests_cant": "Any graph, any number of rounds.", "anchors": ["crates/onnx-ir/src/phases/type_inference.rs:infer_types"]}
{"id": "C45", "title": "Graph interface is preserved", "statement": "The generated forward function has the inputs and outputs of the ONNX graph, in order, whatever simplification, rewiring and renaming took place.", "quantifier": "every graph and every sequence of passes", "why_tests_cant": "All pass sequences.", "anchors": ["crates/burn-onnx/src/burn/graph.rs:register_input_output", "crates/onnx-ir/src/pipeline.rs:build_graph", "crates/onnx-ir/src/graph_state.rs:consume"]}
{"id": "C46", "title": "Scalars crossing the graph boundary keep their value", "statement": "Scalars kept on the device inside the graph are converted at the boundary; each conversion is applied exactly to the scalar inputs and outputs and nothing else.", "quantifier": "every input/output type list", "why_tests_cant": "All combinations of argument types.", "anchors": ["crates/burn-onnx/src/burn/graph.rs:convert_graph_boundary_scalars"]}
{"id": "C47", "title": "Gather, ArgMax, GatherND, Concat, TopK, OneHot ranks", "statement": "Inferred output ranks equal the ranks the ONNX operators produce.", "quantifier": "every rank, axis, keepdims, index rank", "why_tests_cant": "All ranks.", "anchors": ["crates/onnx-ir/src/node/gather.rs", "crates/onnx-ir/src/node/argmax.rs", "crates/onnx-ir/src/node/gathernd.rs", "crates/onnx-ir/src/node/concat.rs", "crates/onnx-ir/src/node/topk.rs", "crates/onnx-ir/src/node/one_hot.rs"]}
{"id": "C48", "title": "DepthToSpace and SpaceToDepth", "statement": "Inferred shapes are those of ONNX, the element count is preserved, and the reshape-permute-reshape code generated for SpaceToDepth inverts that of DepthToSpace (DCR mode).", "quantifier": "every batch, channel, height, width and block size", "why_tests_cant": "Unbounded index arithmetic.", "anchors": ["crates/onnx-ir/src/node/depth_to_space.rs", "crates/burn-onnx/src/burn/node/depth_to_space.rs", "crates/burn-onnx/src/burn/node/space_to_depth.rs"]}
{"id": "C49", "title": "Unsupported operator versions are rejected", "statement": "A node whose opset version or input/output count is outside the range its processor declares is rejected, and one inside is not rejected for that reason.", "quantifier": "every opset number, every input and output count", "why_tests_cant": "All integers.", "anchors": ["crates/onnx-ir/src/processor.rs:validate_node_spec", "crates/onnx-ir/src/processor.rs:InputSpec"]}
{"id": "C50", "title": "Flatten", "statement": "The shape inferred for Flatten and the reshape emitted for it agree with ONNX Flatten for every axis, negative axes included.", "quantifier": "every shape and axis", "why_tests_cant": "All shapes and axes.", "anchors": ["crates/onnx-ir/src/node/flatten.rs", "crates/burn-onnx/src/burn/node/flatten.rs:forward"]}
{"id": "C51", "title": "Generated window modules carry the node's attributes", "statement": "The convolution or pooling module built by the generated code slides the same window as the ONNX node: same kernel size, stride, dilation and rounding mode on every axis.", "quantifier": "every Conv, MaxPool and AveragePool node with any attribute values and any number of spatial axes the importer supports", "why_tests_cant": "The attributes combine freely; a dropped attribute only shows for nodes that set it to a non-default value.", "anchors": ["crates/burn-onnx/src/burn/node/avg_pool1d.rs field", "crates/burn-onnx/src/burn/node/avg_pool2d.rs field", "crates/burn-onnx/src/burn/node/max_pool2d.rs field", "crates/onnx-ir/src/node/avg_pool2d.rs extract_config", "crates/onnx-ir/src/node/max_pool2d.rs extract_config"]}
{"id": "C52", "title": "An imported model computes what the file says", "statement": "If the graph of the file, run by ONNX rules on some inputs, returns some values, then the graph produced by the importer (conversion, constant lifting, type inference, no-op elimination, optional simplification, removal of unused constants) returns the same values in the same order on the same inputs.", "quantifier": "every file, every input, every hash-map iteration order, simplification on or off", "why_tests_cant": "All graphs through the composition of all phases; interactions between phases.", "anchors": ["crates/onnx-ir/src/pipeline.rs:build_graph_from_proto", "crates/onnx-ir/src/phases/node_conversion.rs", "crates/onnx-ir/src/phases/post_processing.rs", "crates/onnx-ir/src/phases/finalization.rs"]}
{"id": "C53", "title": "Generated Gemm code computes ONNX's Gemm", "statement": "For a Gemm node that stays a Gemm, the generated code returns alpha * A' * B' + beta * C, with A and B transposed as the flags say and C broadcast, and does not panic when ONNX defines a result.", "quantifier": "every shape, every alpha and beta, both flags, every C that ONNX allows to broadcast, every arithmetic", "why_tests_cant": "Shapes, scale factors and elements range over unbounded domains.", "anchors": ["crates/burn-onnx/src/burn/node/gemm.rs:forward"]}
{"id": "C54", "title": "Nodes dropped as no-ops return their first input", "statement": "Whenever the importer drops a node because it takes it for a no-op (Identity, Dropout, single-output Split, single-input Concat, identity Transpose, rank-2 Flatten, same-shape Reshape and Expand, same-type Cast, zero Pad, Gather of a scalar), the ONNX operator returns exactly its first input, so dropping the node does not change what the model computes.", "quantifier": "all graphs, all node attributes and type annotations that are right about the run, all input values", "why_tests_cant": "The decision is made from types and attributes; whether it is right depends on every possible value and shape at run time (unknown dimensions, empty tensors, training mode, masks).", "anchors": ["crates/onnx-ir/src/node/reshape.rs is_noop", "crates/onnx-ir/src/node/expand.rs is_noop", "crates/onnx-ir/src/node/transpose.rs is_noop", "crates/onnx-ir/src/node/flatten.rs is_noop", "crates/onnx-ir/src/node/pad.rs is_noop", "crates/onnx-ir/src/node/cast.rs is_noop", "crates/onnx-ir/src/node/dropout.rs is_noop", "crates/onnx-ir/src/phases/post_processing.rs plan_noop_elimination"]}
{"id": "C55", "title": "Generated code of binary element-wise operators computes ONNX's broadcast operator", "statement": "For Add, Sub, Mul, Div, Equal, Greater, GreaterOrEqual, Less, LessOrEqual, And, Or, Xor, the bitwise operators, BitShift, Min and Max: whatever mix of tensor, on-device scalar, native scalar and shape array the two inputs are, the generated forward() computes the element-wise function with ONNX (right-aligned) broadcasting, and returns the result in the form that the inferred output type announces.", "quantifier": "every operator, every pair of input types and ranks, every pair of broadcastable shapes, all element values", "why_tests_cant": "each operator has up to nine arms chosen by the kinds of its inputs, and each arm must be right for every rank difference and every value; tests cover a few combinations on a few literals", "anchors": ["crates/burn-onnx/src/burn/node/add.rs", "crates/burn-onnx/src/burn/node/sub.rs", "crates/burn-onnx/src/burn/node/mul.rs", "crates/burn-onnx/src/burn/node/div.rs", "crates/burn-onnx/src/burn/node/equal.rs", "crates/burn-onnx/src/burn/node/greater.rs", "crates/burn-onnx/src/burn/node/bool_and.rs", "crates/burn-onnx/src/burn/node/bitshift.rs", "crates/onnx-ir/src/processor.rs::same_as_input_broadcast"]}
{"id": "C56", "title": "Generated code of shape-changing operators keeps every element in its ONNX place", "statement": "For Squeeze, Unsqueeze, Reshape and Flatten the generated forward() returns all elements of the input in row-major order under the output shape that ONNX defines; for Transpose and Expand every output element is the input element that ONNX names. This holds whether the input is a tensor, an on-device scalar, a native number or a shape array, and the result has the form that the inferred output type announces.", "quantifier": "every operator, every legal axes/target/permutation (static or found at run time), every input shape, all element values", "why_tests_cant": "each operator chooses among many arms by the input and output kinds and each arm must be right for all ranks, negative axes, zeros and -1 entries; tests try a few literal shapes", "anchors": ["crates/burn-onnx/src/burn/node/squeeze.rs", "crates/burn-onnx/src/burn/node/unsqueeze.rs", "crates/burn-onnx/src/burn/node/reshape.rs", "crates/burn-onnx/src/burn/node/transpose.rs", "crates/burn-onnx/src/burn/node/flatten.rs", "crates/burn-onnx/src/burn/node/expand.rs"]}
{"id": "C57", "title": "Generated Concat code lays the inputs one after the other", "statement": "For a Concat node the generated forward() returns the tensor that ONNX defines: along the axis the inputs follow each other in order, every other coordinate is kept, whether the inputs are tensors, native numbers or shape arrays and whether the axis is negative; the result has the form that the inferred output type announces.", "quantifier": "every number of inputs, every legal axis, every family of input shapes, all element values", "why_tests_cant": "number of inputs, ranks, sizes and kinds of the inputs are unbounded; tests try a few literal cases", "anchors": ["crates/burn-onnx/src/burn/node/concat.rs:forward", "crates/onnx-ir/src/node/concat.rs"]}
{"id": "C58", "title": "Generated code of Where, Sum, Mean, Clip and Pow computes ONNX's operators", "statement": "Where picks from X or Y per element with three-way broadcasting; Sum and Mean of any number of inputs broadcast; Clip limits every element; Pow broadcasts. The generated forward() returns exactly these values in the form that the inferred output type announces, for tensors, scalars and shape arrays.", "quantifier": "every combination of argument kinds, all broadcastable shapes, every number of inputs, all element values", "why_tests_cant": "dozens of kind combinations, each for every rank difference and value; tests cover a few literals", "anchors": ["crates/burn-onnx/src/burn/node/where_op.rs", "crates/burn-onnx/src/burn/node/sum.rs", "crates/burn-onnx/src/burn/node/mean.rs", "crates/burn-onnx/src/burn/node/clip.rs", "crates/burn-onnx/src/burn/node/pow.rs", "crates/onnx-ir/src/node/clip.rs"]}
{"id": "C59", "title": "Generated code of Gather and GatherElements computes ONNX's operators", "statement": "Gather picks whole sub-tensors along the axis, one for each index, and puts the dimensions of the indices in place of the axis; GatherElements picks one element for each index. The generated forward() returns exactly these values in the form that the inferred output type announces, for data that is a tensor or an array of sizes and indices that are tensors, scalars or arrays.", "quantifier": "every axis, all data and index shapes and values for which ONNX defines the result, every combination of argument kinds", "why_tests_cant": "each combination of kinds, ranks and axes has its own code; tests run a handful of literals", "anchors": ["crates/burn-onnx/src/burn/node/gather.rs", "crates/burn-onnx/src/burn/node/gather_elements.rs", "crates/onnx-ir/src/node/gather.rs"]}
{"id": "C60", "title": "Generated code of Slice on tensors computes ONNX's slices", "statement": "For every tensor and all starts, ends, axes and steps, each a constant or a value known at run time only (tensor, array of sizes or scalar), the generated forward() returns ONNX's slice: negative bounds count from the back, bounds are cut to the dimension, dimensions without an entry are kept, steps are honoured.", "quantifier": "all ranks and shapes, all values of starts, ends, axes and steps, every combination of constant and run-time inputs", "why_tests_cant": "bounds range over all of i64 and interact with every dimension; there are dozens of combinations of input kinds", "anchors": ["crates/burn-onnx/src/burn/node/slice.rs generate_tensor_slice", "crates/onnx-ir/src/node/slice.rs"]}
{"id": "C61", "title": "Generated code of ArgMax, TopK, Softmax, LogSoftmax and Hardmax works along the right axis", "statement": "For every tensor, every axis (also counted from the back, also left out) and every operator-set version, the generated forward() of ArgMax returns the first place of the maximum along the axis (with or without the dimension kept, also when the result is a scalar), TopK the k largest elements in order with their places, Softmax, LogSoftmax and Hardmax the function of each line along the axis, or of each row of the flattened matrix for versions below 13.", "quantifier": "all shapes, element values with ties, axes, k, operator-set versions", "why_tests_cant": "the axis arithmetic, ties and the older flattening semantics interact with every rank and shape", "anchors": ["crates/burn-onnx/src/burn/node/argmax.rs", "crates/burn-onnx/src/burn/node/topk.rs", "crates/burn-onnx/src/burn/node/softmax.rs", "crates/burn-onnx/src/burn/node/log_softmax.rs", "crates/burn-onnx/src/burn/node/hardmax.rs", "crates/onnx-ir/src/node/argmax.rs", "crates/onnx-ir/src/node/topk.rs", "crates/onnx-ir/src/node/softmax.rs"]}
{"id": "C62", "title": "Generated code of Pad, Tile, Trilu, OneHot and NonZero puts every element in its place", "statement": "For every tensor and all legal attributes and inputs, the generated forward() of Pad surrounds the tensor with the constant, the repeated edge or the reflection; Tile repeats every dimension; Trilu keeps the triangle of every matrix; OneHot puts the on value at each index on the new axis; NonZero lists the places of the elements that are not zero in row-major order.", "quantifier": "all shapes, pads, repeats, diagonals, depths, axes and indices, constant or known at run time only", "why_tests_cant": "places of elements are quantified over all indices of all shapes, and the pads, repeats and diagonals over all integers", "anchors": ["crates/burn-onnx/src/burn/node/pad.rs", "crates/burn-onnx/src/burn/node/tile.rs", "crates/burn-onnx/src/burn/node/trilu.rs", "crates/burn-onnx/src/burn/node/one_hot.rs", "crates/burn-onnx/src/burn/node/nonzero.rs", "crates/onnx-ir/src/node/pad.rs", "crates/onnx-ir/src/node/trilu.rs"]}
{"id": "C63", "title": "Generated code of ScatterElements and ScatterND updates exactly the elements named", "statement": "For every data tensor, index tensor and updates on which ONNX defines the operator, and each reduction (none, add, mul, max, min), the generated forward() returns the data with each element replaced by what the updates that name it make of it, in row-major order of the updates; all other elements are unchanged.", "quantifier": "all ranks, shapes, axes (also from the back), indices (also negative), duplicate targets, all five reductions", "why_tests_cant": "the flat offsets are computed with strides over every shape, and updates may meet in any pattern", "anchors": ["crates/burn-onnx/src/burn/node/scatter_elements.rs forward", "crates/burn-onnx/src/burn/node/scatter_nd.rs forward", "crates/onnx-ir/src/node/scatter_elements.rs extract_config", "crates/onnx-ir/src/node/scatter_nd.rs extract_config"]}
{"id": "C64", "title": "LSTM, GRU and RNN compute ONNX's recurrences", "statement": "For every LSTM, GRU or RNN node with constant weights, the generated module with the parameters stored for it returns ONNX's outputs: Y holds the hidden state at every time step, direction, batch entry and unit, Y_h and Y_c the state after the last step, computed by ONNX's recurrence from the packed weights W, R and B (gate order, two bias blocks, directions), the initial states, the activation functions and the attributes input_forget and linear_before_reset, in either layout.", "quantifier": "every direction, layout, sequence length, batch size, number of features and units, all weights, biases, inputs, initial states and activation functions", "why_tests_cant": "Gate reordering, transposition, bias merging, direction prefixes and layout changes must be right for every size and value; the tests use a few fixed sizes and mostly layout 0.", "anchors": ["crates/burn-onnx/src/burn/node/lstm.rs: collect_snapshots, forward", "crates/burn-onnx/src/burn/node/gru.rs: collect_snapshots, forward_unidirectional, forward_bidirectional", "crates/burn-onnx/src/burn/node/rnn.rs: collect_snapshots, forward", "crates/onnx-ir/src/node/lstm.rs: extract_config", "crates/onnx-ir/src/node/gru.rs: extract_config", "crates/onnx-ir/src/node/rnn.rs: extract_config"]}
{"id": "C65", "title": "Element-wise operators with one input compute ONNX's functions", "statement": "For every node of an element-wise operator with one data input (Abs, the trigonometric and hyperbolic functions, Ceil, Erf, Exp, Floor, Log, Neg, Not, BitwiseNot, Reciprocal, Round, Sign, Sqrt, IsNaN, IsInf, and the activations Relu, LeakyRelu, PRelu, Elu, Celu, Selu, Gelu, HardSigmoid, HardSwish, Mish, Sigmoid, Softplus, Softsign, Swish, ThresholdedRelu) the generated code returns, element by element, the value of ONNX's formula with the given or default attributes, whether the input is a tensor, a scalar on the device or a native scalar.", "quantifier": "every operator, every kind of input, every shape, every element and every value of the attributes", "why_tests_cant": "The formulas have to agree at every real number, at halves and infinities, for every attribute value and every way an input is represented; the tests use one tensor per operator.", "anchors": ["crates/burn-onnx/src/burn/node/abs.rs: forward (and the other unary files)", "crates/burn-onnx/src/burn/node/gelu.rs: forward", "crates/burn-onnx/src/burn/node/selu.rs: forward", "crates/burn-onnx/src/burn/node/prelu.rs: num_parameters, collect_snapshots, forward", "crates/burn-onnx/src/burn/node/is_inf.rs: forward", "crates/burn-onnx/src/burn/node/round.rs: forward"]}
{"id": "C66", "title": "Normalisation operators compute ONNX's formulas", "statement": "For every BatchNormalization, InstanceNormalization, GroupNormalization and LayerNormalization node the generated code returns ONNX's value: every element is centred with the mean and divided by the root of the variance plus epsilon of the elements ONNX groups it with (or of the given statistics), then scaled and shifted by the parameters of its channel or trailing dimensions, with ONNX's defaults for missing attributes, whether the parameters are constants or computed by the model.", "quantifier": "every input shape, every value, every epsilon, axis, number of groups and every way of giving the parameters", "why_tests_cant": "The grouping has to be right for every shape, axis and number of groups, and for missing attributes; the tests run one shape per operator with all attributes given and constant parameters.", "anchors": ["crates/burn-onnx/src/burn/node/batch_norm.rs: field, collect_snapshots, forward", "crates/burn-onnx/src/burn/node/instance_norm.rs: field, forward", "crates/burn-onnx/src/burn/node/group_norm.rs: field, forward", "crates/burn-onnx/src/burn/node/layer_norm.rs: field, forward", "crates/onnx-ir/src/node/batch_norm.rs: extract_config", "crates/onnx-ir/src/node/layer_norm.rs: extract_config", "crates/burn-onnx/src/burn/node_traits.rs: create_lazy_snapshot"]}
{"id": "C67", "title": "Constants and filled tensors have the values the model states", "statement": "For every Constant, ConstantOfShape and EyeLike node (and Size) the generated code holds ONNX's value at the type inferred for it: a constant's own elements, whether it is kept as a tensor, a scalar or an array of sizes; the given value (0 of type f32 without one) at every position; ones of the right element type on the requested diagonal.", "quantifier": "every element type, value, shape and diagonal, sizes known at import or not, every choice of representation by the consumers", "why_tests_cant": "Thirteen element types times four representations times all shapes; tests use one or two types.", "anchors": ["crates/burn-onnx/src/burn/node/constant.rs: field, collect_snapshots, forward", "crates/burn-onnx/src/burn/node/constant_of_shape.rs: forward", "crates/burn-onnx/src/burn/node/eye_like.rs: forward", "crates/burn-onnx/src/burn/node/size.rs: forward", "crates/onnx-ir/src/ir/tensor_data_ext.rs: scalar_f64, to_i64_vec"]}
{"id": "C68", "title": "Cast converts every element as ONNX prescribes", "statement": "For every Cast node the generated code returns, at the inferred type, the elements converted to the target type as ONNX prescribes (rounded to floating-point types, truncated to integers, reduced modulo the size between integer types, compared with zero for truth values), for tensors, scalars on the device, native scalars and shapes.", "quantifier": "every pair of element types, every value and every kind of input", "why_tests_cant": "169 pairs of types, each over all values, including the ones that only one of the types can represent.", "anchors": ["crates/burn-onnx/src/burn/node/cast.rs: forward", "crates/onnx-ir/src/node/cast.rs: infer_types"]}
{"id": "C69", "title": "MatMulInteger multiplies the operands less their zero points", "statement": "The generated code of MatMulInteger computes the matrix product of the two operands after each has had its zero point subtracted, where a zero point is one number for the operand, one number for each row of the first operand, or one number for each column of the second.", "quantifier": "all operands of all shapes that ONNX multiplies, all zero points and all ways in which they reach the node", "why_tests_cant": "Tests use zero points that are scalars, or operands whose numbers of rows and columns hide along which dimension the zero point is spread.", "anchors": ["crates/burn-onnx/src/burn/node/matmul_integer.rs forward", "crates/onnx-ir/src/node/matmulinteger.rs infer_types"]}
{"id": "C70", "title": "Resize samples the input where ONNX says", "statement": "For every Resize node the generated code returns a tensor with the lengths that the scales or sizes ask for, each of whose elements is the nearest element of the input, or the linear interpolation of its neighbours, at the coordinate that ONNX prescribes for the coordinate mode, the rounding of nearest neighbours and the scales; what is not supported is refused.", "quantifier": "all inputs, all scales and sizes given as constants or at run time, all values of the attributes", "why_tests_cant": "Tests resize by a few factors, for most of which different coordinate modes and roundings pick the same elements.", "anchors": ["crates/burn-onnx/src/burn/node/resize.rs field, forward", "crates/onnx-ir/src/node/resize.rs extract_scales_input, extract_sizes_input, infer_types, extract_config"]}
{"id": "C71", "title": "Scan computes what its body says, element by element", "statement": "For every Scan node the generated code returns the carried values after the last iteration and, for each scan output, the values of all iterations stacked along the requested axis in the requested order, where iteration k reads element k of each sequence along its axis, counted from the end if the direction says so; it fails only where the body fails.", "quantifier": "all bodies, all numbers of carried values, sequences and scan outputs, all axes and directions, all lengths", "why_tests_cant": "Tests run a few bodies for a few iterations; whether an assignment overwrites a value that is still needed depends on how the body names and orders its outputs, and the result after any number of iterations needs induction.", "anchors": ["crates/burn-onnx/src/burn/node/scan_node.rs forward", "crates/onnx-ir/src/node/scan_node.rs extract_config", "crates/burn-onnx/src/burn/node/subgraph_helper.rs generate_outer_scope_bindings, generate_subgraph_forward_code"]}
{"id": "C72", "title": "Attention computes scaled dot-product attention", "statement": "For every Attention node the import accepts, the generated code returns softmax of the scaled products of queries and keys, masked and capped as the attributes say, applied to the values; with a cache the new keys and values follow the cached ones and are returned; the scores are returned at the stage that qk_matmul_output_mode names.", "quantifier": "all queries, keys, values, masks and caches of ranks 3 and 4, all numbers of heads, all scales, caps and output modes", "why_tests_cant": "Tests fix a few shapes and attribute values; masks of every rank and kind, the cache, rank 3 and rank 4 inputs and the four outputs combine, and which dimension a mask is aligned with shows only when batch and heads differ in content.", "anchors": ["crates/burn-onnx/src/burn/node/attention.rs forward, forward_burn_attention, forward_custom", "crates/onnx-ir/src/node/attention.rs infer_types, extract_config"]}
{"id": "C73", "title": "Col2Im adds up the blocks of an image", "statement": "For every Col2Im node with one or two spatial dimensions the generated code returns the image in which every element is the sum, over all blocks and all positions in a block, of what the block has for that element, for every stride, dilation and padding, given or left out.", "quantifier": "all image and block sizes, strides, dilations and paddings, all batch sizes and numbers of channels, all elements", "why_tests_cant": "Tests fix a few sizes; the index arithmetic has to place every element of every overlapping block for all combinations of stride, dilation and padding.", "anchors": ["crates/burn-onnx/src/burn/node/col2im.rs forward", "crates/onnx-ir/src/node/col2im.rs infer_types, extract_config"]}
{"id": "C74", "title": "Random operators keep to their ranges, shapes and element types", "statement": "For every RandomUniform, RandomUniformLike, RandomNormal, RandomNormalLike and Bernoulli node the generated code returns, whatever the generator draws, a tensor with the shape and element type ONNX prescribes: uniform elements between the bounds, normal elements from the distribution with the given mean and deviation, and for Bernoulli zeros and ones that are one with the probability the input gives.", "quantifier": "all shapes, bounds, means, deviations, element types, probabilities and all outcomes of the generator", "why_tests_cant": "A test sees one outcome of the generator and a few element types; the statement is about all outcomes and about probability.", "anchors": ["crates/onnx-ir/src/node/random.rs infer_types, extract_config", "crates/onnx-ir/src/node/random_like.rs", "crates/onnx-ir/src/node/bernoulli.rs", "crates/burn-onnx/src/burn/node/bernoulli.rs forward", "crates/burn-onnx/src/burn/node/random_uniform.rs forward"]}
{"id": "C75", "title": "Convolutions and poolings have the values ONNX prescribes", "statement": "For every Conv, ConvTranspose, MaxPool, AveragePool and GlobalAveragePool node with constant weights the generated module returns, for every input, exactly the tensor ONNX prescribes: the shape counts the windows that fit the padded input, and each element is the weighted sum, the maximum or the average over its window, for every group, stride, dilation, padding and padding mode.", "quantifier": "all inputs, weights, biases, batch sizes, channels, groups, spatial sizes, kernels, strides, dilations, paddings and padding modes", "why_tests_cant": "the product of groups, strides, dilations, padding modes and sizes cannot be enumerated; tests compare a few configurations on one input each", "anchors": ["crates/burn-onnx/src/burn/node/conv2d.rs: NodeCodegen::field, forward", "crates/burn-onnx/src/burn/node/conv_transpose_2d.rs: field", "crates/burn-onnx/src/burn/node/max_pool2d.rs: field, forward", "crates/burn-onnx/src/burn/node/avg_pool2d.rs: field, forward", "crates/burn-onnx/src/burn/node/global_avg_pool.rs", "crates/onnx-ir/src/node/conv2d.rs: extract_config", "crates/onnx-ir/src/node/padding.rs"]}
{"id": "C76", "title": "DeformConv and GridSample sample where ONNX says", "statement": "For every DeformConv node the generated module returns the tensor ONNX prescribes: every cell of every window is moved by its own offset, read by bilinear interpolation with zeros outside, weighted by the mask if there is one, and summed with the weights of its group and the bias. For every GridSample node the generated code samples with the mode, the padding mode and the alignment the attributes name, for the names of every operator version.", "quantifier": "all inputs, weights, offsets, masks and biases, all batch sizes, channels, groups, offset groups, sizes, strides, dilations and paddings; all attribute values and opset versions", "why_tests_cant": "offsets are data, and channels, groups and offset groups combine without bound", "anchors": ["crates/burn-onnx/src/burn/node/deform_conv.rs: field, forward", "crates/onnx-ir/src/node/deform_conv.rs: extract_config", "crates/burn-onnx/src/burn/node/grid_sample.rs: forward", "crates/onnx-ir/src/node/grid_sample.rs: infer_types, extract_config"]}
{"id": "C77", "title": "The result of an import does not depend on hash iteration order", "statement": "Importing the same file twice gives the same result, although Rust's hash tables are read in a different order in every process: the configuration read from a node's attributes, the graph after no-op elimination, the values captured by the bodies of If, Loop and Scan nodes, the keys used to merge equal nodes, and the imports of the generated file are the same for every order in which the tables are read.", "quantifier": "all attribute tables, graphs, sets of captured names and imports, and all pairs of iteration orders of the tables involved", "why_tests_cant": "the order is drawn at random per process: a test sees a few of the factorially many orders, and a difference only shows when two entries interfere", "anchors": ["crates/onnx-ir/src/node/*.rs: loops over node.attrs", "crates/onnx-ir/src/phases/node_conversion.rs: outer_refs", "crates/onnx-ir/src/processor.rs: build_outer_scope_from_inputs", "crates/burn-onnx/src/burn/node/subgraph_helper.rs: generate_outer_scope_bindings", "crates/onnx-ir/src/phases/post_processing.rs: plan_noop_elimination, apply_noop_elimination", "crates/onnx-ir/src/simplify/redundant_nodes.rs: cse_key", "crates/burn-onnx/src/burn/imports.rs: codegen"]}
{"id": "C78", "title": "Constants reach shape and scalar computations in the form the generated code needs", "statement": "After import, a scalar constant used as a condition, trip count, range bound, Where branch, Concat element, Slice bound, or beside a shape or a native scalar is a native scalar of its own element type there; a one-dimensional constant used beside a shape, as the target of Reshape or as bounds of Slice is an array of dimensions of its own length there; a constant used by none of these operators stays on the device with its exact shape; and asking for one form does not make another use of the same constant fail.", "quantifier": "all graphs in topological order with distinct output names, all stored constants, all sets of consumers and all opset versions, whenever the rounds of inference converge", "why_tests_cant": "the form depends on every consumer of the constant and on the types the rounds of inference give the other operands; tests use one consumer per constant", "anchors": ["crates/onnx-ir/src/processor.rs: InputPreferences, OutputPreferences, input_preferences", "crates/onnx-ir/src/node/constant.rs: infer_types", "crates/onnx-ir/src/node/{arithmetic,modulo,comparison,gather,slice,concat,reshape,where_op,range,loop_node,if_node}.rs: input_preferences", "crates/onnx-ir/src/phases/type_inference.rs: iterative_type_inference_with_preferences"]}
{"id": "C79", "title": "Operators are read as the file names them, and every accepted one has code", "statement": "Each node of an accepted model is treated as the ONNX operator its operator type and domain name, at the opset version the file gives, with convolutions and poolings specialised to their number of kernel axes; no two ONNX operators are confused; a model with an operator that is not supported is refused with an error naming every such node; every operator of an accepted model gets its own generated code; and the documented table of supported operators is true.", "quantifier": "all operator names, domains, graphs, kernel attributes, weight types and opset imports", "why_tests_cant": "tests cover the operators they mention; the claim is about every name a file can contain and about the agreement of four tables (the enumeration, the registry, the code generation dispatch and the documentation)", "anchors": ["crates/onnx-ir/src/ir/node.rs: NodeType, Node", "crates/onnx-ir/src/proto_conversion.rs: convert_node_proto", "crates/onnx-ir/src/phases/node_conversion.rs: remap_node_type", "crates/onnx-ir/src/registry.rs: with_standard_processors", "crates/onnx-ir/src/phases/type_inference.rs: UnsupportedOps", "crates/onnx-ir/src/node/unsupported.rs: UnsupportedProcessor", "crates/burn-onnx/src/burn/node_codegen.rs: impl_node_codegen_dispatch", "crates/onnx-ir/src/pipeline.rs: extract_opset_version", "SUPPORTED-ONNX-OPS.md"]}
{"id": "C80", "title": "The generated model computes what the ONNX graph computes", "statement": "For a graph without control flow whose operators are each translated faithfully, calling the generated forward function on the inputs compiles, does not panic, and returns the outputs ONNX assigns to the graph, in order, whatever the number of nodes and the pattern in which values are shared; scalars cross the boundary as native numbers. For models built from 127 operators (elementary functions, activations, arithmetic, comparison, logic, MatMul, Gemm, Linear, Reshape, Transpose, Flatten, Squeeze, Unsqueeze, Concat, Constant, Softmax, LogSoftmax, Gather, convolutions, pooling, batch, layer and instance normalisation, reductions, Shape, Clip, Sum, Pow) this holds under explicit conditions on each node.", "quantifier": "all graphs (any number of nodes, any sharing of values), all inputs of any size, all attributes of the operators", "why_tests_cant": "a test runs one graph on one input; errors from combining operators (a value moved too early, an array where a tensor is expected, a result of the wrong form) show only for particular combinations, of which there are infinitely many", "anchors": ["crates/burn-onnx/src/burn/graph.rs: codegen_forward, build_scope", "crates/burn-onnx/src/burn/scope.rs: ScopeAtPosition::arg", "crates/burn-onnx/src/burn/node/*.rs: forward", "crates/onnx-ir/src/node/*.rs: infer_types, extract_config"]}
{"id": "C81", "title": "The names of a model's values do not change what generated code computes", "statement": "The code generated for a node reads the values of the graph that are its operands, whatever these values are called: no operand is hidden by a variable the generated block declares for its own use, and the code compiles under every choice of names.", "quantifier": "all names of graph inputs and node outputs, all node modules whose code declares local variables before it mentions an operand (Where, BatchNormalization, Attention, Gather, GatherND, ScatterND, ScatterElements, DepthToSpace, SpaceToDepth, Expand, Resize, CumSum, LSTM, MatMulInteger)", "why_tests_cant": "tests use the names their authors chose; a collision needs a particular pair of an operand's name and a local variable's name", "anchors": ["crates/burn-onnx/src/burn/node/scatter_nd.rs: forward", "crates/burn-onnx/src/burn/node/attention.rs: forward", "crates/burn-onnx/src/burn/node/gather.rs: forward", "crates/burn-onnx/src/burn/node/where_op.rs: forward", "crates/burn-onnx/src/burn/node/batch_norm.rs: forward", "crates/onnx-ir/src/graph_state.rs: add_node"]}
{"id": "C82", "title": "Constants are embedded in the nodes that read them at import, and nothing else is", "statement": "When a node is imported, exactly those of its operands that are constants and that the operator reads at import (shapes, axes, sizes, bounds, trained parameters) are replaced by their values; operands computed at run time, graph inputs and absent operands stay as they are, and no valid model makes this step panic.", "quantifier": "all node types, all numbers and kinds of operands (constant, computed, absent, already embedded), all constant tables, all opset versions", "why_tests_cant": "each processor picks its own positions and each of the operands can be of each kind; tests fix one combination per operator, usually all parameters constant", "anchors": ["crates/onnx-ir/src/ir/argument.rs: to_static", "crates/onnx-ir/src/processor.rs: lift_constants", "crates/onnx-ir/src/node/*.rs: lift_constants", "crates/onnx-ir/src/phases/node_conversion.rs: convert_nodes_from_graph", "crates/onnx-ir/src/phases/post_processing.rs: post_process"]}
{"id": "C83", "title": "Split gives the pieces of its input", "statement": "The outputs of the code generated for Split are consecutive pieces of the input along the axis, in order and together the whole input, with the sizes the model gives explicitly or, without explicit sizes, with the sizes ONNX prescribes for that number of outputs.", "quantifier": "all shapes and elements, all axes (also negative), all lists of sizes and numbers of outputs, sizes known at import or not", "why_tests_cant": "The sizes come from four places (operand, attribute, number of outputs, number of results) and are computed at import or at run time depending on what is known of the shape; tests fix a few combinations with small shapes.", "anchors": ["crates/burn-onnx/src/burn/node/split.rs: forward", "crates/onnx-ir/src/node/split.rs: extract_config"]}
{"id": "C84", "title": "The generated function computes what the file says", "statement": "Importing an ONNX file and generating code gives a forward function that takes the inputs of the file that have no initializer, in order, and returns, in order, the outputs that the graph in the file has for these inputs under the ONNX standard; the function compiles and does not panic.", "quantifier": "all files without control flow over the modelled operators, of any size and connected in any way, and all input values on which the graph of the file has a result", "why_tests_cant": "Every stage (naming, initializers, fusion, removal of no-ops, type inference, simplification, lifting of constants, ownership, code of each node) works on what the earlier ones leave; tests run a few models from end to end and cannot range over the interactions.", "anchors": ["crates/onnx-ir/src/pipeline.rs: build_graph_from_proto", "crates/burn-onnx/src/model_gen.rs: generate_model", "crates/burn-onnx/src/burn/graph.rs: codegen"]}
{"id": "C85", "title": "Declared types are read faithfully", "statement": "The type the file declares for a graph input, a graph output or an intermediate value becomes an annotation that is right about exactly the tensors the declaration allows: the element type, the rank and the fixed sizes are kept, named and unknown sizes stay open, and an unknown rank is not fixed.", "quantifier": "all declarations: every element type, rank and mixture of fixed, named and unknown dimensions, and all lists of declarations", "why_tests_cant": "A wrong annotation shows only in generated code that does not compile or panics for other sizes; tests declare a few shapes and cannot range over all mixtures of known and unknown dimensions and names.", "anchors": ["crates/onnx-ir/src/proto_conversion.rs: TryFrom<ValueInfoProto> for Argument, convert_node_proto", "crates/onnx-ir/src/graph_state.rs: GraphState::new, get_output_type, get_value_info_type"]}
{"id": "C86", "title": "Attributes are read faithfully", "statement": "Every attribute of a node is read with the kind and value the file gives it and is found under its name; no other attribute is found.", "quantifier": "all lists of attributes with distinct names, of every kind and with any values", "why_tests_cant": "Attributes come in ten kinds with values of any size, and a value that is mixed up, dropped or read as another kind changes the meaning of an operator; tests read a few attributes of a few operators.", "anchors": ["crates/onnx-ir/src/proto_conversion.rs: TryFrom<AttributeProto> for AttributeValue, convert_vec_attrs_proto, convert_graph_attributes", "crates/onnx-ir/src/phases/node_conversion.rs", "crates/onnx-ir/src/ir/attribute.rs: AttributeValue"]}
{"id": "C87", "title": "Every converted model gets files of its own", "statement": "Converting a list of model files writes for each input a source file and a weights file named after it; the source is the code of that model, it loads exactly that weights file, and the weights in it are those of that model. Other files are not touched. If the conversion stops at any point, a finished source file still has the finished weights of its model beside it.", "quantifier": "all lists of input paths, all options, all previous contents of the output directory and all points at which the run may stop", "why_tests_cant": "Tests convert one model at a time into an empty directory and do not stop half way; collisions of names and interrupted runs are questions about all lists of paths and all crash points.", "anchors": ["crates/burn-onnx/src/model_gen.rs: run, generate_model, generate_burn_graph", "crates/burn-onnx/src/burn/graph.rs: with_burnpack, register_burnpack_file, register_burnpack_embed"]}
{"id": "C88", "title": "Leaving out unused constants changes no result", "statement": "When a graph is finished, the constants that nothing reads are left out, in the graph and in every subgraph at any depth. This changes no result, removes nothing else, and every constant that is left is read somewhere.", "quantifier": "all graphs with subgraphs nested to any depth, all meanings of the operators, all values of the enclosing variables and all arguments", "why_tests_cant": "Tests look at a few graphs with at most one level of subgraphs; that no constant read anywhere below is dropped is a statement about all nestings.", "anchors": ["crates/onnx-ir/src/ir/graph.rs: convert_to_graph, collect_constant_refs, eliminate_dead_constants"]}
{"id": "C89", "title": "Values captured by a subgraph keep their type and data", "statement": "A value of the enclosing graph that is used inside an If, Loop or Scan body has there the type inferred for it in the enclosing graph; if it is a constant, it is the same constant.", "quantifier": "all enclosing graphs, all sets of captured names in every order of visiting, all inferred types and all names", "why_tests_cant": "It depends on which names the node itself reads and on the order in which a hash set is visited; tests fix one of each.", "anchors": ["crates/onnx-ir/src/phases/node_conversion.rs: convert_nodes_impl", "crates/onnx-ir/src/processor.rs: build_outer_scope_from_inputs, get_onnx_input_count", "crates/onnx-ir/src/graph_state.rs: init_in"]}
{"id": "C90", "title": "Numbers in the generated source stand for the configured numbers", "statement": "Every integer, list of integers and float that conversion writes into the generated source (sizes, axes, strides, alpha, epsilon, limits, padding and fill values, scalar constants) is read by the Rust compiler as that same number, including the sign, signed zero, infinities and not-a-number.", "quantifier": "all integers, all lists of integers, all floats (every sign, every sequence of digits, every power of ten, infinities, not-a-number), both float types and every way of writing them", "why_tests_cant": "There are unboundedly many numbers, and the special ones take other code paths; snapshot tests show a handful of finite ones.", "anchors": ["crates/burn-onnx/src/burn/codegen.rs: convert_primitive, convert_to_array, f32_to_tokens, f64_to_tokens", "crates/burn-onnx/src/burn/node/pad.rs: forward", "crates/burn-onnx/src/burn/node/clip.rs: forward"]}
