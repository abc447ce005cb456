# Formal model of burn-onnx

This directory holds a Lean 4 model of the ONNX importer in /repo (crates `onnx-ir` and `burn-onnx`) and proofs about it.
Nothing of /repo is compiled or run; the model is written by reading the Rust text.

## 1. Layout

* `properties.jsonl`: the properties, in English.
* `lean/Verif/Model/*.lean`: the model, function by function. Every definition cites the file and lines of /repo it models and says what is simplified.
* `lean/Verif/Spec/*.lean`: small specifications that do not use the model: what ONNX, numpy, Rust or Burn prescribe.
* `lean/Verif/Lemmas/*.lean`: helper lemmas.
* `lean/Verif/Props/*.lean`: the property theorems, with `example`s showing that concrete cases meet the hypotheses. Files ending in `Cases` hold counterexamples and worked cases.
* `MANIFEST.json`: which theorems belong to which property, and the status.
* `seeded/LOG.jsonl`: wrong programs tried against the theorems. One line per edit of a model definition.
* `tools/axioms.sh`: prints the axioms of every theorem named in the manifest.

Naming: `Cnn_…` is a main theorem of property nn. `_partial`: proved under a guard that the English statement does not have. `_wrong`, `_panics`, `_counterexample` and similar names: a proved disagreement between the code and the English statement.

## 2. Trusted base

1. **Lean 4.33.0's kernel.** No `sorry`, `admit`, `native_decide`, `bv_decide`, and no axioms of our own. Theorems depend on at most `propext`, `Classical.choice` and `Quot.sound`; section 7 lists them per theorem. `decide +kernel` is used on closed counterexamples and non-vacuity checks only; it is checked by the kernel and adds no axiom.
2. **The reading of the Rust text.** Each model definition is a transcription made by hand. The citation beside it is what to compare with. The transcriptions follow these conventions:
   * A panic, `unwrap` on `None`, `?` on an error or code that would not compile is `none` (or an explicit error constructor where the property is about errors).
   * Unbounded `Int`/`Nat` for machine integers unless the property is about the range; then wrapping, saturation or the range check is explicit (C08, C33, C40, C55).
   * Loops become structural recursion; where the Rust loop has no obvious bound, the measure is given.
   * `HashMap` traversal order is a parameter: theorems quantify over all orders (C11).
   * Logging, formatting of tokens, and comments in generated code are dropped.
3. **Operators.** For properties of passes, an operator is an arbitrary function of its inputs (`Sem` in `Spec/Eval`), so the theorems hold for every semantics; laws needed by a pass (e.g. `relu (relu x) = relu x`) are hypotheses, and `Spec/RealOps`, `Props/NumSem`, `Spec/Linear`, `Spec/AttentionSem`, `Spec/NoopOps` prove them of tensors. For properties of generated code, elements are an arbitrary type with the needed operations; floating-point rounding is not modelled.
4. **Burn.** Generated code calls Burn. Its tensor methods are specified in `Spec/Burn`, `Spec/BurnAxis`, `Spec/Generated` and (for modules) `Spec/Window`, `Spec/Linear`. These are assumptions about a dependency whose source is not in /repo: row-major data, `reshape`, `unsqueeze`, `permute`, `narrow`, `slice`, `cat`, `flip`, `cumsum`, `matmul` and binary methods only between equal ranks, broadcasting along dimensions of size 1, `into_scalar` only of one element.
5. **Rust's ownership** is modelled by its move rule alone (`Spec/Moves`): a variable moved once cannot be used again; branches and loop bodies join as the compiler joins them. Borrowing, types and lifetimes are not modelled.
6. **Generated loops** run in a small imperative language (`Spec/Loop`, `Model/LoopGen`): assignment, `while`, vectors that are pushed to.
7. **File system** (C41): paths as component lists, links resolved one at a time as Unix does, permissions ignored.
8. **Bytes** (C40): the host is little-endian.
9. **The protobuf parser** is not modelled: graphs start as decoded messages.
10. **ONNX.** The specifications in `Spec` were written from the ONNX operator documents from memory (there is no network); each is short enough to be read against the standard.
11. CSE (C03) compares nodes by the `Debug` strings of attributes and configurations; the model takes these strings to be injective.

## 3. What is modelled

| part of /repo | model | properties |
|---|---|---|
| onnx-ir `proto_conversion.rs` (names, tensors, nodes, outer references) | Sanitize, GraphBuild, TensorDecode, OuterScope | C34, C36, C38, C40 |
| onnx-ir `external_data.rs` | ExternalPath, TensorDecode | C40, C41 |
| onnx-ir `graph_state.rs`, `tensor_store.rs` | Naming, GraphBuild, TensorStore | C35, C36, C39 |
| onnx-ir `pipeline.rs` | TopSort, Pipeline, NodeSpec | C37, C49, C52 |
| onnx-ir `phases/node_conversion.rs` (conversion, constants, fusion into Linear, constant lifting) | GraphBuild, Naming, Coalesce, Pipeline | C13, C36, C39, C52 |
| onnx-ir `phases/type_inference.rs`, `processor.rs` | TypeInference, Registry, Broadcast, NodeSpec | C15, C16, C17, C44, C49 |
| onnx-ir `phases/post_processing.rs`, `finalization.rs` | PostProcess, Noop, Pipeline | C11, C12, C54 |
| onnx-ir `simplify/*` (all eight passes and the driver) | Simplify, PermuteReshape, ConstantShape, ConstantFold, Attention, SimplifyGraph | C01–C10 |
| onnx-ir `node/*` `infer_types` and configurations | OpRules, OpRules2, OpRules3, Reshape, Split, DepthSpace, GatherND, Conv, Padding, RangeMod, CumSum, ShapeSlice, Unary, Recurrent | C14, C18–C22, C28–C33, C42, C43, C47, C48, C50 |
| onnx-ir `node/*` `is_noop` | Noop | C54 |
| burn-onnx `burn/graph.rs`, `scope.rs`, `argument_helpers.rs`, `model_gen.rs` (statement order, uses, clones, signature, fields) | Ownership, Fields, Boundary | C23, C24, C27, C45, C46 |
| burn-onnx `node/subgraph_helper.rs`, `if_node.rs`, `loop_node.rs` | Ownership, LoopGen | C25, C26 |
| burn-onnx `node/*` forward code | MatMul, Linear, Split, DepthSpace, GatherND, CumSum, RangeMod, ShapeSlice, Conv (module configuration), Elementwise, Reduce, Views, Concat, Select, Gather, Slice, AxisOps, Fill, Scatter, Recurrent, Unary, Norm, Cast, MatMulInteger, Resize, Scan, Attention, Col2Im, Random, WindowGen, Sampling and the modules named Gen… | C19, C28, C30, C31, C32, C33, C48, C51, C53, C55–C58 and later |

## 4. What is not modelled

* The protobuf parser, memory mapping, the derive macros (`onnx-ir-derive`), the processor registry's table itself (`registry.rs`; the lookup is a parameter), logging, code formatting (`formatter.rs`), `imports.rs`, command-line tool, `burn-import`, `model-checks`, benches and tests.
* Token streams as text: generated code is modelled by what it does, not as strings. A syntax error in generated code would not be seen; a missing arm, wrong rank or moved variable is.
* Weight files: only which fields exist, their order and which tensor each one gets (C27).
* Float rounding, NaN, infinities; casts between element types except where stated.
* Random operators' distributions.


## 5. Per property

Status as in the manifest: *proved* (the statement as written), *partial* (a guard or a part is missing; the note says what), with the theorems in the manifest.

**C01. Dead-node elimination never changes a model's outputs** (proved). Anchors: onnx-ir/src/simplify/dead_nodes.rs:eliminate_dead_nodes. Model: `eliminate_dead_nodes` on node lists; evaluator for graphs with opaque operators. Proof: induction on nodes; measure on list length for the fixpoint. all operator semantics, graphs, inputs

**C02. Dead-node elimination terminates and is complete** (proved). Anchors: onnx-ir/src/simplify/dead_nodes.rs:eliminate_dead_nodes. Model: `eliminate_dead_nodes` on node lists; evaluator for graphs with opaque operators. Proof: induction on nodes; measure on list length for the fixpoint. exact characterisation on topologically ordered graphs; idempotent always; termination is totality of the model function

**C03. Merging duplicate nodes never changes outputs** (partial). Anchors: onnx-ir/src/simplify/redundant_nodes.rs:eliminate_redundant_nodes, onnx-ir/src/simplify/redundant_nodes.rs:node_key. Model: `eliminate_redundant_nodes` with its key. Proof: renaming simulation; counterexample for nondeterministic operators. the pass merges random operators; proved for deterministic ones, counterexample proved for random ones

**C04. Idempotent-operator elimination never changes outputs** (proved). Anchors: onnx-ir/src/simplify/idempotent.rs:eliminate_idempotent_ops. Model: `eliminate_idempotent_ops`. Proof: renaming simulation. under the algebraic law of the six operators (proved of real tensors), SSA and the empty-name discipline

**C05. Identity-element elimination never changes outputs** (partial). Anchors: onnx-ir/src/simplify/identity_element.rs:eliminate_identity_elements. Model: `eliminate_identity_elements` with constants read from the graph. Proof: renaming simulation under a same-shape guard; counterexample for broadcasting. the pass does not compare shapes; proved under that guard, counterexample proved without it

**C06. Permute-via-shape-information rewriting never changes outputs** (partial). Anchors: onnx-ir/src/simplify/permute_reshape.rs:simplify_permute_reshape. Model: detection and rewriting of the pattern, tensors as shape plus row-major data. Proof: counterexample; shape equality as the partial result. Proved when the permutation keeps the order of the dimensions other than 1 (Tensor.transpose_data shows this is enough), the Shape is unsliced, indices are single numbers and the rank matches. In general the claim is false: C06_transpose_moves_data is a 2x3 counterexample.

**C07. Constant-shape folding computes what ONNX computes** (partial). Anchors: onnx-ir/src/simplify/constant_shape.rs:simplify_constant_shape. Model: `simplify_constant_shape` index arithmetic. Proof: arithmetic; counterexamples outside the guard. Proved under the exact guard the code needs: no Shape node carries an end attribute whose range differs, Slice steps are positive at run time (FoldableShapes), annotations are right about the run (TypedRun) and the constant table matches the run (TableOk). Outside the guard the code disagrees with ONNX; four counterexample theorems.

**C08. Constant folding computes what the operator computes** (partial). Anchors: onnx-ir/src/simplify/constant_fold.rs:fold_constants. Model: `fold_constants` on 64/32-bit integers. Proof: case analysis; counterexamples for panics. Proved when annotations are right and determine the folded shapes and float-to-int casts are in range. Where they are not, the code panics or changes the rank: four counterexample theorems.

**C09. The simplification pipeline as a whole preserves outputs** (partial). Anchors: onnx-ir/src/simplify/mod.rs:simplify_graph. Model: the loop of `simplify_graph` over the modelled passes. Proof: composition of C01..C05 with invariant preservation. Any number of rounds of all eight passes, with early exit, keeps every graph result, provided each pass runs in a state where it is right on its own (Pass.Guard, the exact guards of C03, C05-C08, C10); single assignment, the naming discipline, the constant table and the annotations are shown to survive every pass. Without any condition: outputs keep number, order, names and annotations, the graph never grows, and the pipeline itself never panics. Missing: the situations excluded by the guards, in which single passes are wrong.

**C10. Attention coalescing preserves the computed function** (partial). Anchors: onnx-ir/src/simplify/coalesce_attention.rs:coalesce_attention, burn-onnx/src/burn/node/attention.rs:forward_burn_attention. Model: attention as real matrices. Proof: counterexample for missing scale; equality otherwise. Proved for graphs that stay within what an Attention node expresses (one-element exact scale constants, no batch broadcasting, mask no larger than the scores, scores scaled once). Missing: the pattern with Q and K both scaled before the product. Counterexamples: unscaled scores, vector scale constants, run-time shared factor, scores that are graph outputs.

**C11. No-op elimination rewires consumers correctly** (proved). Anchors: onnx-ir/src/phases/post_processing.rs:post_process. Model: `post_process` rewiring. Proof: renaming simulation with transitive closure. any order of hash-map traversal, chains of any length; assumptions are those of the importer except that original names must not clash (counterexample proved)

**C12. Unreferenced-constant removal keeps the model well-defined** (proved). Anchors: onnx-ir/src/phases/finalization.rs:finalize, onnx-ir/src/ir/graph.rs:eliminate_dead_constants. Model: `remove_unreferenced_constants`. Proof: induction; counterexample for multi-output constants. 

**C13. Gemm and MatMul are only turned into Linear when the function is the same** (partial). Anchors: onnx-ir/src/phases/node_conversion.rs:coalesce, onnx-ir/src/phases/node_conversion.rs:convert_gemm_to_linear, onnx-ir/src/phases/node_conversion.rs:convert_matmul_to_linear, onnx-ir/src/phases/node_conversion.rs:is_add_node_with_bias. Model: linear conversion decision. Proof: matrix identity under the guard; counterexamples. Whole loop: conversion with fusion succeeds and keeps the results of every graph that has them, for all graphs and inputs (C13_fusion_preserves_meaning_partial), with the layer's values proved for every shape and arithmetic (product, biased product, Gemm) and the law discharged from them (C13_linear_law). Partial: under FusionOk, which the code does not check; counterexamples for shared products, products that are outputs, non-vector biases, matrix C, transA = 2 and run-time weights.

**C14. Inferred static shapes are true of every execution** (partial). Anchors: onnx-ir/src/node/*.rs:infer_types, onnx-ir/src/ir/argument.rs:TensorType. Model: `infer_types` per operator over partial shapes. Proof: each against an ONNX shape function in Spec; C15 by induction on the graph. Output types of Constant, Gemm, Transpose, Slice, Pad, Tile, pooling, Cast, BatchNormalization, ConstantOfShape, NonZero, Where, GatherElements, scatter, random and shape-preserving operators; others under C18, C19, C21, C22, C29, C30, C32, C43, C47, C50. Counterexamples: Slice, Pad, Tile, GlobalAveragePool copy the input's static shape; Slice of a Shape with a negative step; Where with a longer condition.

**C15. Static-shape soundness composes over whole graphs** (partial). Anchors: onnx-ir/src/phases/type_inference.rs:infer_types, onnx-ir/src/pipeline.rs:build_graph. Model: `infer_types` per operator over partial shapes. Proof: each against an ONNX shape function in Spec; C15 by induction on the graph. Element types: C15_element_types_sound (induction over the rounds, any rules) and C15_element_types_partial (the rules of the table, within ElemLaw.Supported); three _wrong theorems for element types the library gets wrong.

**C16. Broadcast rank and static shape** (partial). Anchors: onnx-ir/src/processor.rs:compute_broadcast_rank, onnx-ir/src/processor.rs:compute_broadcast_static_shape. Model: `infer_types` per operator over partial shapes. Proof: each against an ONNX shape function in Spec; C15 by induction on the graph. Rank and static shape are true of ONNX broadcasting for any number of inputs when all tensors or none have a static shape and Shape inputs have equal length. Outside the guard the claim is false; three counterexamples.

**C17. Merging static shapes only adds true information** (proved). Anchors: onnx-ir/src/ir/argument.rs:merge_static_shape. Model: `infer_types` per operator over partial shapes. Proof: each against an ONNX shape function in Spec; C15 by induction on the graph. Merged annotation is true of every shape both are true of; nothing lost or invented; gains every dimension either knows; idempotent; returned flag exact.

**C18. Reshape inference** (partial). Anchors: onnx-ir/src/node/reshape.rs:infer_types, onnx-ir/src/node/reshape.rs:is_noop. Model: `infer_types` per operator over partial shapes. Proof: each against an ONNX shape function in Spec; C15 by induction on the graph. Static, constant and runtime targets proved; the code is wrong for 0 in a Shape target and for scalar to vector, and for the no-op test with runtime targets (counterexamples proved).

**C19. Split chunks cover the axis exactly** (proved). Anchors: onnx-ir/src/node/split.rs:extract_config, burn-onnx/src/burn/node/split.rs:forward. Model: `infer_types` per operator over partial shapes. Proof: each against an ONNX shape function in Spec; C15 by induction on the graph. Sizes, generated split and inferred types.

**C20. Automatic padding follows ONNX SAME/VALID** (proved). Anchors: burn-onnx/src/burn/codegen.rs:compute_auto_pad_1dim, burn-onnx/src/burn/codegen.rs:resolve_auto_pad_2d. Model: `infer_types` per operator over partial shapes. Proof: each against an ONNX shape function in Spec; C15 by induction on the graph. One axis of any length, and generated modules with one, two and three axes, for all four modes. Needs a right static input type and non-empty axes (an empty axis panics).

**C21. Convolution and pooling output sizes** (partial). Anchors: onnx-ir/src/node/conv2d.rs:infer_types, onnx-ir/src/node/max_pool2d.rs:infer_types, onnx-ir/src/node/conv_transpose2d.rs:infer_types. Model: `infer_types` per operator over partial shapes. Proof: each against an ONNX shape function in Spec; C15 by induction on the graph. Convolutions (1D, 2D, 3D, deformable) with explicit padding, average pooling, and max pooling without static shape. False for SAME modes (inference ignores auto_pad), max pooling and transposed convolution (input shape copied).

**C22. Squeeze and Unsqueeze are inverse on shapes** (partial). Anchors: onnx-ir/src/node/squeeze.rs:infer_types, onnx-ir/src/node/unsqueeze.rs:infer_types. Model: `infer_types` per operator over partial shapes. Proof: each against an ONNX shape function in Spec; C15 by induction on the graph. Squeeze with axes and Unsqueeze agree with ONNX, and the round trip restores the static shape; Squeeze without axes needs known dimensions, and runtime axes are wrong (counterexamples proved).

**C23. Generated code never uses a moved tensor** (partial). Anchors: burn-onnx/src/burn/scope.rs:Scope, burn-onnx/src/burn/graph.rs:build_scope. Model: scope counters and emitted use trace. Proof: invariant over the trace. Proved for graphs without subgraph nodes, and (C25_outer_values_partial) for graphs with If and Loop bodies under the conditions stated there; outputs distinct, scalar outputs used by no node; counterexamples for the excluded cases.

**C24. Generated code clones only when needed** (partial). Anchors: burn-onnx/src/burn/scope.rs:tensor_use_owned, burn-onnx/src/burn/graph.rs:build_scope. Model: scope counters and emitted use trace. Proof: invariant over the trace. Proved for graphs without subgraph nodes whose nodes access every input once per mention.

**C25. Conditional and loop subgraphs respect ownership of outer values** (partial). Anchors: burn-onnx/src/burn/node/if_node.rs:forward, burn-onnx/src/burn/node/loop_node.rs:forward, burn-onnx/src/burn/node/subgraph_helper.rs:generate_outer_scope_bindings. Model: scope counters and emitted use trace. Proof: invariant over the trace. Proved for every graph with If and Loop nodes nested to any depth whose names are introduced once, in which a value captured by both branches is listed twice, loop initial values are not used otherwise, trip counts are native, body results are different tensors and no loop variable receives another one; every excluded case has a counterexample. Scan bodies are not represented.

**C26. Generated loops compute the ONNX Loop** (partial). Anchors: burn-onnx/src/burn/node/loop_node.rs:forward, onnx-ir/src/node/loop_node.rs. Model: emitted while loop and ONNX Loop. Proof: induction on iterations. Proved for bodies whose carried outputs do not clobber one another (NoClobber), with known trip count or none; counterexamples show sequential variable update, condition read after update, and scan outputs concatenated instead of stacked.

**C27. Model fields and weight records match** (partial). Anchors: burn-onnx/src/burn/graph.rs:collect_all_fields, burn-onnx/src/burn/graph.rs:collect_all_snapshots. Model: two traversals. Proof: structural induction on nested graphs. The two traversals agree for every graph and nesting depth. Field names are distinct provided nested nodes are not named like nodes of the main graph, which imported names violate (C27_field_name_twice). Also proved: code of a nested node reads its own field only if all node names differ (C27_branch_reads_other_weights), Scan bodies get no fields.

**C28. Slicing a shape value** (partial). Anchors: burn-onnx/src/burn/node/slice.rs:generate_shape_slice, onnx-ir/src/node/slice.rs:calculate_shape_slice_output_len. Model: emitted code as functions on lists. Proof: induction and arithmetic. Right for positive steps with start not after end; when the start is after the end the generated code panics, and for negative steps it is wrong whenever ONNX returns anything.

**C29. Expand follows bidirectional broadcasting** (partial). Anchors: burn-onnx/src/burn/node/expand.rs:forward, onnx-ir/src/node/expand.rs:infer_types. Model: emitted code as functions on lists. Proof: induction and arithmetic. Types and generated code; counterexamples for target 1, for short targets, for zero dimensions and for device scalars.

**C30. MatMul rank alignment** (partial). Anchors: burn-onnx/src/burn/node/matmul.rs:forward, onnx-ir/src/node/matmul.rs:infer_types. Model: emitted code as functions on lists. Proof: induction and arithmetic. Type part, and value part: generated MatMul code aligns ranks and computes every dot product as ONNX defines, for all ranks but vector-vector, whose type is wrong (counterexample).

**C31. Cumulative sums** (partial). Anchors: burn-onnx/src/burn/node/cumsum.rs:generate_static_cumsum. Model: emitted code as functions on lists. Proof: induction and arithmetic. Constant axis: exact in all four modes and every rejected axis characterised (C31_cumsum), for associative and commutative addition. Run-time axis: exact for non-negative axes; a negative run-time axis, legal in ONNX, panics (C31_negative_runtime_axis_panics).

**C32. Reductions** (partial). Anchors: burn-onnx/src/burn/node/reduce.rs:forward_reduce, onnx-ir/src/node/reduce.rs:infer_types. Model: emitted code as functions on lists. Proof: induction and arithmetic. Types and values. The generated code of every reduction returns ONNX's result for all shapes, constant axes and both settings of keepdims, under guards shown necessary: all axes listed and dropped panics on the device (C32_all_axes_listed_panics), integer means over several axes truncate once per axis (C32_int_mean_wrong), ReduceLogSumExp with dropped axes panics or mixes rows. Type counterexamples for reducing all axes with keepdims and for runtime axes.

**C33. Range and Mod scalar arithmetic** (partial). Anchors: burn-onnx/src/burn/node/range.rs:forward, burn-onnx/src/burn/node/modulo.rs:forward. Model: emitted code as functions on lists. Proof: induction and arithmetic. Range exact for integer operands and positive steps; every negative step and fractional constants proved wrong. Mod exact whenever an operand is on the device; for two native scalars exact under the guard, and proved wrong for fmod=0 with different signs.

**C34. Sanitised names are valid identifiers** (partial). Anchors: onnx-ir/src/proto_conversion.rs:sanitize_name. Model: character and counter functions. Proof: induction. sanitize_name: the result is [a-z0-9_] (plus uppercase rules as modelled), identifier-shaped when non-empty, and stable under re-sanitising. Fails in full: distinct names can collide (a.b, a/b), Rust keywords are returned unchanged (type), and ':' gives an empty name; each shown by a theorem.

**C35. Generated node and value names are unique** (proved). Anchors: onnx-ir/src/graph_state.rs:NameRegistry, onnx-ir/src/graph_state.rs:add_node. Model: character and counter functions. Proof: induction. Names are unique within one graph and across graphs sharing one registry. Graphs that do not share a registry (main graph vs its subgraphs, subgraphs of two control-flow nodes) do repeat names: C35_nested_names_repeat, C35_sibling_names_repeat.

**C36. Every input refers to the value ONNX means** (partial). Anchors: onnx-ir/src/graph_state.rs:init_in, onnx-ir/src/graph_state.rs:add_node. Model: graph construction state. Proof: invariants over operation sequences. Proved under NamesOk (names stay apart after sanitising, no node output reuses a graph input name, outputs defined in the graph, ...) and freshness of generated names; each condition is shown necessary by a concrete graph on which the importer changes the result.

**C37. Out-of-order models are detected** (partial). Anchors: onnx-ir/src/pipeline.rs:is_top_sorted. Model: graph construction state. Proof: invariants over operation sequences. The check accepts exactly the node lists in which no output of a node is read by an earlier node; every correctly ordered graph is accepted and every reversed edge rejected. Missing: self-loops are accepted (C37_self_loop_accepted), and reads inside subgraphs are not looked at.

**C38. Outer-scope references are exactly the free names of a subgraph** (partial). Anchors: onnx-ir/src/proto_conversion.rs:extract_outer_scope_references. Model: character and counter functions. Proof: induction. For every nesting depth: references found = free names plus own formal inputs, when names stay apart after sanitising; exact for If nodes. False for Loop/Scan nodes (formal inputs reported) and for clashing names, both shown.

**C39. Constant storage never mixes up tensors** (proved). Anchors: onnx-ir/src/tensor_store.rs:TensorStore. Model: graph construction state. Proof: invariants over operation sequences. Store of constants, Constant nodes, initializers, snapshots and finalisation. Reading back by id or name gives the tensor that was stored; ids are never reused. Captured constants that a subgraph reads by name after post-processing become unknown (never a wrong tensor): C39_captured_constant_forgotten.

**C40. Tensor bytes are decoded faithfully** (partial). Anchors: onnx-ir/src/proto_conversion.rs:TryFrom<TensorProto>, onnx-ir/src/tensor_store.rs. Model: byte and path functions. Proof: induction. Raw, typed and external elements are decoded faithfully for every element type and list. The element count is not checked against the dims (C40_count_unchecked); what holds is C40_count_partial and C40_external_default_length.

**C41. External data files stay inside the model directory** (partial). Anchors: onnx-ir/src/external_data.rs:ExternalDataInfo. Model: byte and path functions. Proof: induction. Against a small model of Unix paths and links. Two real gaps, proved as counterexamples: a model given by bare file name skips the link check, and the file is opened lazily so a link created after import is followed.

**C42. Explicit padding configurations** (partial). Anchors: onnx-ir/src/node/padding.rs, onnx-ir/src/node/pad.rs:onnx_pads_to_pairs. Model: byte and path functions. Proof: induction. Lists of the right length, for convolution/pooling and transposed convolution. Over-long lists and negative 1D transposed padding are accepted, shown as counterexample.

**C43. Shape operator start/end** (partial). Anchors: onnx-ir/src/node/shape.rs, burn-onnx/src/burn/node/shape.rs:forward. Model: `infer_types` per operator over partial shapes. Proof: each against an ONNX shape function in Spec; C15 by induction on the graph. Values and types of the generated Shape code; Shape of a Shape is wrong when start/end are set (counterexample).

**C44. Fixed-point type inference** (proved). Anchors: onnx-ir/src/phases/type_inference.rs:infer_types. Model: fixpoint iteration over abstract rules. Proof: induction on rounds. For every topologically ordered graph with distinct output names (what ONNX requires of a file) and every set of rules: at most ten rounds, and on every exit each node's output types are what its rule gives for its final inputs; if the exit is early, all preferences have been taken into account.

**C45. Graph interface is preserved** (partial). Anchors: burn-onnx/src/burn/graph.rs:register_input_output, onnx-ir/src/pipeline.rs:build_graph, onnx-ir/src/graph_state.rs:consume. Model: boundary of the graph. Proof: composition. Parameters are exactly the graph inputs without an initializer, in order, under sanitised names; as many results as outputs when each output is defined. Counterexamples: inputs with a default are not parameters, undefined outputs are dropped silently.

**C46. Scalars crossing the graph boundary keep their value** (partial). Anchors: burn-onnx/src/burn/graph.rs:convert_graph_boundary_scalars. Model: boundary of the graph. Proof: composition. Signature types, values crossing and well-typedness for every input/output list with distinct input names and no scalar output listed twice; a scalar listed twice as an output is converted twice (counterexample).

**C47. Gather, ArgMax, GatherND, Concat, TopK, OneHot ranks** (partial). Anchors: onnx-ir/src/node/gather.rs, onnx-ir/src/node/argmax.rs, onnx-ir/src/node/gathernd.rs, onnx-ir/src/node/concat.rs. Model: `infer_types` per operator over partial shapes. Proof: each against an ONNX shape function in Spec; C15 by induction on the graph. Gather, Concat, GatherND, ArgMax/ArgMin, TopK, OneHot output types; GatherND values; counterexamples for Shape inputs of Gather and Concat.

**C48. DepthToSpace and SpaceToDepth** (proved). Anchors: onnx-ir/src/node/depth_to_space.rs, burn-onnx/src/burn/node/depth_to_space.rs, burn-onnx/src/burn/node/space_to_depth.rs. Model: `infer_types` per operator over partial shapes. Proof: each against an ONNX shape function in Spec; C15 by induction on the graph. Generated code against an element-by-element specification, for every block size, shape and element type; inferred types; inverse.

**C49. Unsupported operator versions are rejected** (proved). Anchors: onnx-ir/src/processor.rs:validate_node_spec, onnx-ir/src/processor.rs:InputSpec. Model: spec checks. Proof: decision logic. Exact for the counts the importer sees, at node level and for the whole inference phase. C49_forged_count: the private attribute __onnx_input_count is trusted when the file sets it itself; C49_negative_opset: a negative opset version wraps around.

**C50. Flatten** (partial). Anchors: onnx-ir/src/node/flatten.rs, burn-onnx/src/burn/node/flatten.rs:forward. Model: `infer_types` per operator over partial shapes. Proof: each against an ONNX shape function in Spec; C15 by induction on the graph. Types for every axis; the generated code agrees with ONNX unless a dimension before the axis is zero, where it panics (counterexample).

**C51. Generated window modules carry the node's attributes** (partial). Anchors: burn-onnx/src/burn/node/avg_pool1d.rs field, burn-onnx/src/burn/node/avg_pool2d.rs field, burn-onnx/src/burn/node/max_pool2d.rs field, onnx-ir/src/node/avg_pool2d.rs extract_config. Model: module configurations written by the generator. Proof: field by field against the ONNX attributes. Max pooling and convolution carry all attributes; average pooling loses the dilation.

**C52. An imported model computes what the file says** (partial). Anchors: onnx-ir/src/pipeline.rs:build_graph_from_proto, onnx-ir/src/phases/node_conversion.rs, onnx-ir/src/phases/post_processing.rs, onnx-ir/src/phases/finalization.rs. Model: all phases in order. Proof: composition of the phase theorems. End-to-end composition of conversion with fusion (C36, C13), constant lifting, inference, C11, C09 and C12. Partial: FileOk (names stay apart, no omitted outputs), FusionOk (see C13) and PhasesOk (no-ops are no-ops, annotations right, passes in the situations in which they are right).

**C53. Generated Gemm code computes ONNX's Gemm** (proved). Anchors: burn-onnx/src/burn/node/gemm.rs:forward. Model: the expression built for Gemm. Proof: index arithmetic over an arbitrary semiring. For all shapes, factors, flags and arithmetic.

**C54. Nodes dropped as no-ops return their first input** (partial). Anchors: onnx-ir/src/node/reshape.rs is_noop, onnx-ir/src/node/expand.rs is_noop, onnx-ir/src/node/transpose.rs is_noop, onnx-ir/src/node/flatten.rs is_noop. Model: every is_noop and the elimination plan. Proof: per operator against its ONNX definition, then renaming. Every override of is_noop is modelled; a node that passes the test returns its first input in every run with right annotations, and removing such nodes preserves outputs. Excluded, with counterexamples: Dropout with a mask output, Dropout in training mode, Reshape with a run-time target and several unknown dimensions (C18_noop_runtime_wrong), Cast of a Shape to a narrow integer type (the inferred annotation is wrong).

**C55. Generated code of binary element-wise operators computes ONNX's broadcast operator** (partial). Anchors: burn-onnx/src/burn/node/add.rs, burn-onnx/src/burn/node/sub.rs, burn-onnx/src/burn/node/mul.rs, burn-onnx/src/burn/node/div.rs. Model: the match on argument kinds, arms as a table. Proof: case analysis, padding lemmas for rank alignment. Proved for all arms the generator has whose result fits the inferred type (Handles), all ranks, shapes and values; arrays need equal lengths and results inside i64. Disagreements proved: arrays of different lengths, array with a matrix, comparison of an array with a scalar, BitShift across ranks, Min/Max with native numbers, saturation and division by zero of arrays.

**C56. Generated code of shape-changing operators keeps every element in its ONNX place** (partial). Anchors: burn-onnx/src/burn/node/squeeze.rs, burn-onnx/src/burn/node/unsqueeze.rs, burn-onnx/src/burn/node/reshape.rs, burn-onnx/src/burn/node/transpose.rs. Model: the match on input and output kinds, Burn's reading of signed arguments. Proof: case analysis; shapes by induction over axes or target; elements because the row-major list is unchanged. Squeeze with axes and Transpose for all inputs that the type rule accepts. Others under exact guards: Squeeze without axes needs known dimensions; Unsqueeze at most one negative axis and scalars with one axis; Reshape no 0 under allowzero, no zero dimension next to -1; Flatten no zero before the axis; Expand no zero dimension, target at least as long as the input's rank. The excluded cases are proved to panic, except Unsqueeze with several negative axes, whose meaning in Burn is not in the repository.

**C57. Generated Concat code lays the inputs one after the other** (partial). Anchors: burn-onnx/src/burn/node/concat.rs:forward, onnx-ir/src/node/concat.rs. Model concat.rs codegen over GVal; spec as position map (ConcatT); prove by induction over inputs for Burn.cat; counterexamples for mixes that do not compile. Proved for all numbers of inputs, axes, shapes and values under ConcatOk (no on-device scalars among the inputs, tensors and arrays not mixed, a negative axis needs a non-scalar first input). Outside the guard the generated code fails or the generator panics: C57_shape_tensor_fails, C57_device_scalar_fails, C57_scalar_first_panics.

**C58. Generated code of Where, Sum, Mean, Clip and Pow computes ONNX's operators** (partial). Anchors: burn-onnx/src/burn/node/where_op.rs, burn-onnx/src/burn/node/sum.rs, burn-onnx/src/burn/node/mean.rs, burn-onnx/src/burn/node/clip.rs. Model the generated code over GVal with Burn's mask_where, mask_fill and arithmetic as trusted semantics; prove each against Onnx.whereT, sumT, clipElem and zipBcast; counterexamples for failing combinations. Where, Sum, Mean, Clip and Pow proved for all shapes and values under the guards WhereOk, SumOk (one rank, no arrays), constant ordered bounds on a device value, no arrays for Pow. Outside them the code fails or is wrong, shown by the _fails/_panics/_wrong theorems. Integer powers are taken as one function pow.

**C59. Generated code of Gather and GatherElements computes ONNX's operators** (partial). Anchors: burn-onnx/src/burn/node/gather.rs, burn-onnx/src/burn/node/gather_elements.rs, onnx-ir/src/node/gather.rs. ONNX's definition in Spec/Gather as a relation between data, indices and result; the generated code in Model/Gather; Burn's reading of an index is a parameter, asked to agree with ONNX on the indices that occur. Proved by splitting indices at the axis. Proved for Gather on tensors (all index kinds) and arrays of sizes, and for GatherElements with indices of the shape of the data outside the axis (ONNX also allows smaller ones: outside what is documented of Burn's gather). Missing: several indices in a tensor into an array of sizes (panics, proved) and i32 scalar indices into an array (does not compile, proved); negative indices in a tensor rely on Burn reading them as ONNX does (a hypothesis).

**C60. Generated code of Slice on tensors computes ONNX's slices** (partial). Anchors: burn-onnx/src/burn/node/slice.rs generate_tensor_slice, onnx-ir/src/node/slice.rs. ONNX's slice in Spec/Slice (places read in each dimension, from the one-dimensional definition of C28); configuration and code in Model/Slice; Burn's ranges trusted as in Spec/Slice. Proved by showing that every loop emits ranges that agree with the entries. Proved under SliceOk (constant bounds with positive steps; run-time bounds with steps of one; see the definition). Outside it the code is wrong or fails, each with a proved witness.

**C61. Generated code of ArgMax, TopK, Softmax, LogSoftmax and Hardmax works along the right axis** (partial). Anchors: burn-onnx/src/burn/node/argmax.rs, burn-onnx/src/burn/node/topk.rs, burn-onnx/src/burn/node/softmax.rs, burn-onnx/src/burn/node/log_softmax.rs. Spec/AxisOps states ONNX's results (with lines of a tensor along an axis) and Burn's methods; Model/AxisOps the configuration and code; Props/AxisOps proves C61. Burn's choice among equal maxima and its sort are parameters with hypotheses. Versions below 13 of Softmax and Hardmax are wrong unless the axis is followed by sizes of one only: proved negation. ArgMax proved for every configuration the importer accepts. Missing: Softmax, LogSoftmax and Hardmax of operator sets below 13 unless only sizes of one follow the axis (wrong otherwise, proved); TopK of the smallest elements (refused) and with k known at run time only (panics). Burn's choice among equal elements is a hypothesis.

**C62. Generated code of Pad, Tile, Trilu, OneHot and NonZero puts every element in its place** (partial). Anchors: burn-onnx/src/burn/node/pad.rs, burn-onnx/src/burn/node/tile.rs, burn-onnx/src/burn/node/trilu.rs, burn-onnx/src/burn/node/one_hot.rs. Spec/Fill states ONNX's results index by index and Burn's methods; Model/Fill the configuration and code; Props/Fill proves C62, with the combinations that fail or are wrong (run-time diagonals of Trilu are taken for 0, fractional values of OneHot are cut) as proved negations. Pad and Tile proved for constant pads and repeats, Trilu for constant diagonals, OneHot for constant depth and values with indices in range, NonZero in full. Missing: what the importer refuses (axes, negative or run-time pads), infinite constants (do not compile), run-time diagonals (wrong, proved), fractional values with integer indices (wrong, proved), indices out of range.

**C63. Generated code of ScatterElements and ScatterND updates exactly the elements named** (partial). Anchors: burn-onnx/src/burn/node/scatter_elements.rs forward, burn-onnx/src/burn/node/scatter_nd.rs forward, onnx-ir/src/node/scatter_elements.rs extract_config, onnx-ir/src/node/scatter_nd.rs extract_config. Spec/Scatter states ONNX's result place by place, as a fold over the updates that go there, and Burn's methods; Model/Scatter the stride loops; Props/Scatter proves C63 with an invariant over the rounds of the loop. Without reduction the code adds the difference to the old element: right only where x + (u - x) = u, wrong for infinite data (proved). ScatterND proved for every reduction on slices that are not empty; ScatterElements for every reduction. Missing: without reduction ScatterElements adds the difference, which is only right where x + (u - x) = u (an infinite element becomes not-a-number, proved); indices smaller than the data outside the axis with none and add (outside what Burn documents); reductions of booleans (panic, proved).

**C64. LSTM, GRU and RNN compute ONNX's recurrences** (partial). Anchors: burn-onnx/src/burn/node/lstm.rs: collect_snapshots, forward, burn-onnx/src/burn/node/gru.rs: collect_snapshots, forward_unidirectional, forward_bidirectional, burn-onnx/src/burn/node/rnn.rs: collect_snapshots, forward, onnx-ir/src/node/lstm.rs: extract_config. Spec: ONNX's recurrences as iterated step functions over packed weights; Burn's modules as documented (trusted). Model: stored tensors by path, loading by path, module call and output reshaping. Proof: the stored tensors are the gates of the packed weights, the two steps agree on all units, induction over steps, reshaping by index computations. Combinations that fail are refuted with witnesses. Proved for layout 0 and all directions (GRU also Y in layout 1, LSTM and RNN bidirectional Y in layout 1) with at least two features and units, no clip, default activation parameters, activations the modules have. Refuted: layout 1 outputs and initial states, clip, activation_alpha/beta, one of initial_h/initial_c alone, one feature or unit.

**C65. Element-wise operators with one input compute ONNX's functions** (partial). Anchors: burn-onnx/src/burn/node/abs.rs: forward (and the other unary files), burn-onnx/src/burn/node/gelu.rs: forward, burn-onnx/src/burn/node/selu.rs: forward, burn-onnx/src/burn/node/prelu.rs: num_parameters, collect_snapshots, forward. Spec: ONNX's formulas over the reals (Erf a parameter), over floats with NaN and infinities for IsNaN and IsInf; Burn's methods and activations and Rust's methods as documented (trusted). Model: the method name and the call that are generated for each operator and kind of input. Proof: real identities between Burn's and ONNX's formulas; PRelu by index computation. Inputs that do not compile or give other values are refuted with witnesses. Proved: every unary operator on tensors and device scalars and, except Erf, Log, Sign and Round, on native scalars; every activation on floating-point device values (Selu when Burn's constants are the attributes, with an error bound otherwise; Gelu without approximation); IsNaN; IsInf except on scalar tensors; PRelu with one slope or one per channel. The remaining cases fail, with witnesses.

**C66. Normalisation operators compute ONNX's formulas** (partial). Anchors: burn-onnx/src/burn/node/batch_norm.rs: field, collect_snapshots, forward, burn-onnx/src/burn/node/instance_norm.rs: field, forward, burn-onnx/src/burn/node/group_norm.rs: field, forward, burn-onnx/src/burn/node/layer_norm.rs: field, forward. Spec: ONNX's formulas over the reals with mean and variance of lists of elements; Burn's modules as reductions, reshapes and broadcasts (trusted). Model: configuration, storing and loading of the parameters and the generated calls. Proof: index computation through reshape, reduction and broadcast. Missing epsilon, training mode, parameters for each group, computed parameters and other axes are refuted with witnesses. BatchNormalization (constant or computed parameters) with an epsilon given, Instance- and GroupNormalization with constant parameters for each channel, LayerNormalization over the last axis. Refuted: missing epsilon, training mode, per-group scales, computed parameters, other axes.

**C67. Constants and filled tensors have the values the model states** (partial). Anchors: burn-onnx/src/burn/node/constant.rs: field, collect_snapshots, forward, burn-onnx/src/burn/node/constant_of_shape.rs: forward, burn-onnx/src/burn/node/eye_like.rs: forward, burn-onnx/src/burn/node/size.rs: forward. Spec: typed elements with exact values, rounding a parameter; filled tensors by index. Model: literals, stored parameters, reshape and expand. Proof: by cases on the inferred type and element type. Element types whose values cannot be read or are replaced by zero are refuted. Constants of the readable element types at every representation, ConstantOfShape with positive sizes and f32/f64/i32/i64/bool values, EyeLike for every type. Refuted: other element types. Size has no compiling code and no model. Sizes 0 are left open (Burn's expand).

**C68. Cast converts every element as ONNX prescribes** (partial). Anchors: burn-onnx/src/burn/node/cast.rs: forward, onnx-ir/src/node/cast.rs: infer_types. Spec: ONNX's conversion of one element, Burn's int, float, bool and cast, Rust's as (trusted, rounding a parameter). Model: which of these the generator chains for each pair of types. Proof: case analysis on kinds, with the exact set of native casts that work; witnesses for the conversions that go through a smaller type or are skipped. Tensors, device scalars and shapes under explicit representability conditions; the exact set of native casts that work. Refuted: integers to f64 through f32, narrowing of shapes and native integers, other native casts.

**C69. MatMulInteger multiplies the operands less their zero points** (partial). Anchors: burn-onnx/src/burn/node/matmul_integer.rs forward, onnx-ir/src/node/matmulinteger.rs infer_types. Model the subtraction with the dimensions put in front and reuse the model of MatMul; prove the value for scalars and for one zero point per column; prove that a zero point per row is subtracted from the columns or panics, and that a zero point outside the device is not accepted. Missing: a zero point for each row of the first operand (subtracted from the columns when the operand is square, a panic otherwise), zero points with batch dimensions, and the product of two vectors; the sum of products is a parameter, 32-bit overflow is not modelled.

**C70. Resize samples the input where ONNX says** (partial). Anchors: burn-onnx/src/burn/node/resize.rs field, forward, onnx-ir/src/node/resize.rs extract_scales_input, extract_sizes_input, infer_types, extract_config. Model the configuration and the forward code over an arbitrary interpolation function; prove the value for nearest neighbours and linear interpolation from a stated behaviour of Burn, on exactly the axes where it agrees with ONNX; prove for every interpolation function that attributes are ignored, with inputs where ONNX's results differ. Values of nearest and linear modes, given Burn's coordinates, where batch and channels are kept and the scale is the quotient of the lengths. Missing: cubic mode, the coordinate modes tf_crop_and_resize and half_pixel_symmetric, opset 10. The property fails where attributes are ignored, for reduced lengths, uneven scales, other ranks, and a missing mode; each failure is a theorem.

**C71. Scan computes what its body says, element by element** (partial). Anchors: burn-onnx/src/burn/node/scan_node.rs forward, onnx-ir/src/node/scan_node.rs extract_config, burn-onnx/src/burn/node/subgraph_helper.rs generate_outer_scope_bindings, generate_subgraph_forward_code. Interpret the generated block as a program of declarations, assignments and pushes over a store; state ONNX's Scan as a fold of the body over the elements; prove the two equal by an invariant of the loop when no assignment overwrites a value read after it; prove with witnesses that the other cases differ and that negative axes, scalar elements and empty sequences panic. Proved for all bodies, lengths and directions when the axes are not negative, elements have an axis of their own, and no assignment overwrites a value that a later assignment or a scan output reads. Missing: the code is wrong when carried values are exchanged and when a scan output is a carried input, and panics for negative axes, scalar elements and empty sequences (proved); opset 8 and bodies with parameters (C27) are not covered.

**C72. Attention computes scaled dot-product attention** (partial). Anchors: burn-onnx/src/burn/node/attention.rs forward, forward_burn_attention, forward_custom, onnx-ir/src/node/attention.rs infer_types, extract_config. State ONNX's operator on real numbers with minus infinity as a score; model both generated paths over Burn's reshape, permute, cat, matmul and an attention function of which only its documented behaviour is assumed; prove the outputs equal wherever a row keeps a key; prove with witnesses that masks are ignored when attention is causal and that masks of rank 3 are aligned with the batch, and that several outputs are refused or fail. Proved for ranks 3 and 4 with a cache or without, all masks that can be broadcast of rank 2 or 4 (rank 3 with one head), all scales; with scores as an output also for all output modes and caps, rows without a key excepted. Missing: masks are ignored when attention is causal, masks of rank 3 are aligned with the batch, capping after mode 2 without a cap, Boolean masks of other ranks and grouped heads fail when scores are returned, scores without a cache and softmax_precision are refused (proved); Burn's function is not assumed to order capping and masking, nor causal masks of unequal lengths, nor grouped heads.

**C73. Col2Im adds up the blocks of an image** (partial). Anchors: burn-onnx/src/burn/node/col2im.rs forward, onnx-ir/src/node/col2im.rs infer_types, extract_config. State the operator as a sum over block positions and windows, windows being those that end inside the padded image; model the loop that builds the index tensors, the scatter and the slice; prove that the index of an element is the row-major place it belongs to and that the scatter collects exactly the terms of the sum. Proved for one and two spatial dimensions, all sizes, strides, dilations and paddings, with attributes given or left out, for elements of any commutative addition. Missing: three and more dimensions and shapes computed at run time are refused, tensors of integers and Booleans do not compile (proved); negative entries are not modelled.

**C74. Random operators keep to their ranges, shapes and element types** (partial). Anchors: onnx-ir/src/node/random.rs infer_types, extract_config, onnx-ir/src/node/random_like.rs, onnx-ir/src/node/bernoulli.rs, burn-onnx/src/burn/node/bernoulli.rs forward. A generator is a parameter with the ranges it keeps to; prove range, shape and element type for every generator, and that the set of draws that make a Bernoulli element one has length p; show the element types that are ignored. All five operators, for every generator and the element types where the code agrees with ONNX. False when dtype differs from what the code draws in: shown as counterexamples. The attribute seed is not read.

**C75. Convolutions and poolings have the values ONNX prescribes** (partial). Anchors: burn-onnx/src/burn/node/conv2d.rs: NodeCodegen::field, forward, burn-onnx/src/burn/node/conv_transpose_2d.rs: field, burn-onnx/src/burn/node/max_pool2d.rs: field, forward, burn-onnx/src/burn/node/avg_pool2d.rs: field, forward. Spec/WindowOps.lean states the operators by windows over the padded input; Model/WindowGen.lean joins the attribute extraction and padding models of C20, C21 and C42 with the generated modules; Props/WindowOps.lean proves the modules against the operators, Props/WindowValues.lean the nodes. For every Conv (1, 2 and 3 axes), ConvTranspose (1 to 3 axes), MaxPool and AveragePool (1 and 2 axes) and GlobalAveragePool node: shape and every element, for all groups, strides, dilations, paddings and modes. Excluded because the code fails or is wrong there: an empty bias name, three axes with asymmetric padding, AveragePool with dilation, GlobalAveragePool with other ranks, ConvTranspose with auto_pad or asymmetric padding; the SAME modes need a known static shape. Not modelled: values with ceil_mode, and asymmetric padding that AveragePool does not count.

**C76. DeformConv and GridSample sample where ONNX says** (partial). Anchors: burn-onnx/src/burn/node/deform_conv.rs: field, forward, onnx-ir/src/node/deform_conv.rs: extract_config, burn-onnx/src/burn/node/grid_sample.rs: forward, onnx-ir/src/node/grid_sample.rs: infer_types, extract_config. Spec/Sampling.lean states DeformConv over an ordered field with floors, and the names of GridSample's modes; Model/Sampling.lean models both configurations and calls; Props/Sampling.lean proves the values of DeformConv from Burn's column matrix, and for GridSample that any sampler gets the right options. DeformConv: shape and every element for all groups, offset groups, masks, biases, strides and dilations with the same padding at both ends (Burn's behaviour for other padding is not assumed). GridSample with two spatial axes: the options passed, for any meaning of the options (Burn's interpolation itself is trusted); with more axes the generated code does not compile.

**C77. The result of an import does not depend on hash iteration order** (partial). Anchors: onnx-ir/src/node/*.rs: loops over node.attrs, onnx-ir/src/phases/node_conversion.rs: outer_refs, onnx-ir/src/processor.rs: build_outer_scope_from_inputs, burn-onnx/src/burn/node/subgraph_helper.rs: generate_outer_scope_bindings. Model/HashOrder.lean gives every traversal its order as an argument, including a table of all 73 attribute loops; Props/HashOrder.lean proves that permuted orders give equal results, characterises the result, and shows where two entries interfere. Proved for all iteration orders: every one of the 73 attribute loops gives the same configuration; the plan and the rewiring of no-op elimination; sorted attributes and imports; the values captured by bodies, when no outer variable is called like another captured name. Proved to fail: with such a name (the body reads a wrong value, different per order), for the text of the generated code (order of captured inputs), and for Pad with both pads and paddings.

**C78. Constants reach shape and scalar computations in the form the generated code needs** (partial). Anchors: onnx-ir/src/processor.rs: InputPreferences, OutputPreferences, input_preferences, onnx-ir/src/node/constant.rs: infer_types, onnx-ir/src/node/{arithmetic,modulo,comparison,gather,slice,concat,reshape,where_op,range,loop_node,if_node}.rs: input_preferences, onnx-ir/src/phases/type_inference.rs: iterative_type_inference_with_preferences. Model/Preferences.lean has the eleven input_preferences functions, used by the rule table of Model/Registry.lean; Spec/Preferences.lean says which operand positions need a native scalar or an array of dimensions; Props/Preferences.lean derives from the fixed point of C44 that constants have those forms, traces preferences back to their consumers for the others, and shows a graph refused because of a shared constant. Proved for every graph whose inference converges, except that a constant has one form for all its consumers: C78_shared_constant_refused is a graph that is refused because one vector is used beside a shape and by MatMul. Bodies of control-flow nodes do not ask for forms of outer constants and are not covered.

**C79. Operators are read as the file names them, and every accepted one has code** (partial). Anchors: onnx-ir/src/ir/node.rs: NodeType, Node, onnx-ir/src/proto_conversion.rs: convert_node_proto, onnx-ir/src/phases/node_conversion.rs: remap_node_type, onnx-ir/src/registry.rs: with_standard_processors. Model/Operators.lean has the four tables extracted from the source, and the functions that use them; Spec/Operators.lean has the ONNX operators and the documented table; Props/Operators.lean proves that reading is exact up to case, that errors name exactly the unsupported nodes, and that the tables agree, with the exceptions shown as theorems. The code disagrees with the property in the ways the _wrong, _panics and _refused theorems show: the domain is ignored, names are matched up to case and internal names are accepted, three placeholder operators are accepted and panic during generation, convolutions with computed weights and poolings over three axes panic, the alias ai.onnx is refused, and one documented name does not exist.

**C80. The generated model computes what the ONNX graph computes** (partial). Anchors: burn-onnx/src/burn/graph.rs: codegen_forward, build_scope, burn-onnx/src/burn/scope.rs: ScopeAtPosition::arg, burn-onnx/src/burn/node/*.rs: forward, onnx-ir/src/node/*.rs: infer_types, extract_config. Spec/Program.lean gives a meaning to straight-line Rust code with moves and clones; Model/Forward.lean generates it for a graph; Model/NodeCode.lean gives the code of each operator by the models of C13, C30, C53, C55-C57, C59, C61, C65 and C67; Spec/OnnxMeaning.lean says what ONNX computes. Props/Forward.lean proves the composition for any faithful node code, Props/NodeCode.lean that the code of each operator is faithful under Supported, Props/WholeModel.lean puts both together, with an example and a counterexample (a scalar output that a node uses too). Composition proved for every graph without control flow over faithful node code (C80_forward_partial); concrete for 127 operators under the guards in Supported (C80_model_partial); that no input is named like a local variable of the code of its node is an explicit hypothesis (NamesFree, C81). Missing: operators outside the list, nodes with subgraphs, scalar outputs that a node uses too (proved not to compile), Where and ScatterND with one value as two operands (proved not to compile).

**C81. The names of a model's values do not change what generated code computes** (partial). Anchors: burn-onnx/src/burn/node/scatter_nd.rs: forward, burn-onnx/src/burn/node/attention.rs: forward, burn-onnx/src/burn/node/gather.rs: forward, burn-onnx/src/burn/node/where_op.rs: forward. Model/Written.lean writes the blocks of the node modules as sequences of mentions of operands and declarations and uses of local variables; Props/Written.lean proves that a block that hides no operand denotes the graph's values, that names given by the importer to node outputs are never hidden (they end in a digit, no local variable does), and that the borrow checker accepts the function; graph inputs keep their names and can collide, shown by concrete cases. Names given by the importer never collide with local variables of the modelled blocks, nor with variables left in the body (C81_body_partial, C81_body_node_outputs); graph inputs can (C81_graph_inputs_wrong, C81_attention_wrong, C81_left_variable_wrong). Blocks of control flow nodes are not modelled as texts.

**C82. Constants are embedded in the nodes that read them at import, and nothing else is** (partial). Anchors: onnx-ir/src/ir/argument.rs: to_static, onnx-ir/src/processor.rs: lift_constants, onnx-ir/src/node/*.rs: lift_constants, onnx-ir/src/phases/node_conversion.rs: convert_nodes_from_graph. Model/Lift.lean has the statements of every lift_constants and the two callers; Spec/Lift.lean has the operands of the operators by their ONNX names with the role of each; Props/Lift.lean proves position by position what is embedded, that nothing else changes, that a run-time slope of PRelu panics, and that the result is the lifting step of C52. Missing: a constant whose node has no tensor, and value stores that are not attached; a run-time slope of PRelu panics (C82_prelu_slope_panics).

**C83. Split gives the pieces of its input** (partial). Anchors: burn-onnx/src/burn/node/split.rs: forward, onnx-ir/src/node/split.rs: extract_config. Model/SplitValues.lean has the generated code on top of the configuration of C19; Spec/Pieces.lean has ONNX's pieces index by index and Burn's split_with_sizes; proved by induction over the sizes. Sizes given at run time are refused by the generator, empty pieces are left out. Explicit sizes and even splits proved for every shape, axis and number of outputs (C83_split_sizes_partial, C83_split_even_partial). Missing: empty pieces, whose treatment by Burn is not documented; sizes only known at run time make code generation panic (C83_runtime_sizes_panics).

**C84. The generated function computes what the file says** (partial). Anchors: onnx-ir/src/pipeline.rs: build_graph_from_proto, burn-onnx/src/model_gen.rs: generate_model, burn-onnx/src/burn/graph.rs: codegen. C52 (the imported graph computes what the file says) and C80 (the generated function computes what the imported graph computes) are composed: single assignment, the order of nodes and the names of the inputs are carried from the importer to the generator, and the importer's values are read as the reals on which the code is judged (Spec/EndToEnd.lean). The guards of C52 and C80 remain hypotheses. C52 and C80 composed for every file without control flow over the 127 operators of C80. Missing: files with control flow or other operators; the guards of C52 and C80 (annotations right, constants known rightly, per-operator guards, names) are hypotheses.

**C85. Declared types are read faithfully** (partial). Anchors: onnx-ir/src/proto_conversion.rs: TryFrom<ValueInfoProto> for Argument, convert_node_proto, onnx-ir/src/graph_state.rs: GraphState::new, get_output_type, get_value_info_type. Model/Declared.lean has the declarations of onnx.proto and the three uses of them; Spec/Declared.lean says which tensors a declaration allows. Exactness is proved for declarations with a shape, with the uses for inputs, outputs and node outputs; a missing shape, an unsupported type of an input and an output whose name is not an identifier are proved to go wrong. Exact for declarations with a shape; an absent shape, unsupported input types and renamed outputs are proved to be read wrongly.

**C86. Attributes are read faithfully** (partial). Anchors: onnx-ir/src/proto_conversion.rs: TryFrom<AttributeProto> for AttributeValue, convert_vec_attrs_proto, convert_graph_attributes, onnx-ir/src/phases/node_conversion.rs, onnx-ir/src/ir/attribute.rs: AttributeValue. Model/Declared.lean has the attribute messages and their conversion, Spec/Declared.lean what a message means; tensors use C40. Proved by induction over the attributes for the kinds the importer knows with the data in the file; external tensors, unknown kinds, text that is not UTF-8 and subgraphs of other operators are proved to panic or to be dropped. All kinds the importer knows with data in the file itself; external tensors, sparse tensors, types and non-UTF-8 text are proved to panic, subgraphs of other operators to be dropped.

**C87. Every converted model gets files of its own** (partial). Anchors: burn-onnx/src/model_gen.rs: run, generate_model, generate_burn_graph, burn-onnx/src/burn/graph.rs: with_burnpack, register_burnpack_file, register_burnpack_embed. Model/ModelGen.lean has the file names (file_stem, with_extension) and the ordered steps of writing, each file emptied first and finished later. Proved by induction over the inputs for names without dots that differ; dotted names, equal names and stale sources are proved to go wrong. Import, weights and code are parameters. For inputs n.onnx with different names n without dots. Dotted names and equal names in different directories overwrite each other, and an interrupted rerun can leave old code with new weights: proved. Stated of the names in the output directory; what is in a source or weights file is a parameter.

**C88. Leaving out unused constants changes no result** (partial). Anchors: onnx-ir/src/ir/graph.rs: convert_to_graph, collect_constant_refs, eliminate_dead_constants. Model/DeadConstants.lean has the nested graphs and the removal, Spec/NestedRun.lean an evaluator in which a subgraph is a function of its arguments that sees the enclosing variables. Proved by mutual induction over graphs, nodes and subgraphs. Partial: that readers of constants are marked as such is a hypothesis (C89 shows how captured ones get the mark), and the data stores attached to arguments are modelled by the values. Proved for every nesting depth under the hypothesis that arguments reading a constant are marked as constants; that the hypothesis is needed is shown, and that the importer marks them, in one graph and for constants of the enclosing graph. The two are not composed: import is modelled graph by graph, and folding (which marks again, C07, C08) comes between.

**C89. Values captured by a subgraph keep their type and data** (partial). Anchors: onnx-ir/src/phases/node_conversion.rs: convert_nodes_impl, onnx-ir/src/processor.rs: build_outer_scope_from_inputs, get_onnx_input_count, onnx-ir/src/graph_state.rs: init_in. Model/Captured.lean has the captured values added to the inputs and the map built from them; init_in is that of C36. Proved by induction over the references for names that are not those of the node's own inputs; for the others it is proved that the type is always forgotten. Proved for values whose name is not that of one of the node's own inputs; for the others the type is proved to be forgotten (a disagreement, see DESIGN.md).

**C90. Numbers in the generated source stand for the configured numbers** (partial). Anchors: burn-onnx/src/burn/codegen.rs: convert_primitive, convert_to_array, f32_to_tokens, f64_to_tokens, burn-onnx/src/burn/node/pad.rs: forward, burn-onnx/src/burn/node/clip.rs: forward. Model/Literals.lean has the texts, character by character; Spec/Literals.lean is a reader for Rust's number expressions written from the Rust Reference. Proved by induction over digits and elements that reading gives the number back. For the three ways of writing floats that have no case for non-finite numbers it is proved for finite ones, and that it always fails for the others. Rust's choice of shortest digits is trusted. Integers, integer lists and the two float functions proved for all numbers; the debug format, quoted floats and padding values proved for finite floats and proved wrong for all others.


## 6. Disagreements between the code and the properties

Each is a theorem (see the manifest). They are properties of the modelled code, found while proving; none has been run.

* Passes: duplicate merging merges random operators (C03); identity elements are removed although broadcasting changes the shape (C05); permute-reshape rewriting drops a transposition (C06); constant-shape folding ignores `end` and negative steps (C07); constant folding panics or changes ranks (C08); attention: unscaled scores get the default scale, vector scale constants are taken for their first element, a run-time factor is dropped, scores that are graph outputs are lost (C10).
* Fusion into Linear: the product is lost when it has other consumers or is an output; scalar and matrix biases, matrix C, `transA` other than 0/1 and run-time weights are fused (C13).
* No-ops: the mask of Dropout is lost, training-mode Dropout is dropped, Reshape with a run-time target is dropped by comparing unknown dimensions, Cast of a Shape to a narrow type is dropped (C54, C18).
* Inference: SAME convolutions, max pooling, transposed convolution, Slice, Pad, Tile, GlobalAveragePool copy or compute wrong static shapes (C14, C21); broadcasting with mixed static knowledge (C16); 0 in a Shape target (C18); run-time Squeeze axes (C22); reductions over all axes with keepdims (C32); Shape of a Shape (C43); vector times vector (C30); Expand with target 1 (C29).
* Ownership: scalar outputs used internally are moved twice; duplicate outputs after Identity removal; If captures counted twice; positions of branches; Loop initial values and tensor trip counts moved; a loop variable that receives another one is moved before the next round (C23, C25, C46).
* Loops: loop variables are updated one after another, the condition is read after the update, scan outputs are concatenated instead of stacked, zero iterations panic (C26).
* Windows: average pooling drops its dilation (C51); over-long pads are accepted (C42).
* Values: shape slices with start after end panic, negative steps are wrong (C28); negative run-time CumSum axes panic (C31); Range with negative step is wrong and float constants are truncated; Mod of native scalars uses Rust's remainder (C33); a reduction that lists and drops all axes panics, integer means over several axes truncate per axis, ReduceLogSumExp with dropped axes panics or mixes rows (C32).
* Names: sanitised names collide, can be keywords or empty (C34); names repeat between nested graphs (C35); names of the file can be taken for other values when they collide (C36, C52); self-loops pass the order check (C37); Loop bodies report their formal inputs as outer references (C38).
* Fields: a nested node reads a field that was renamed; a field name shared between graphs; Scan bodies have no fields (C27).
* Tensors: element counts unchecked, negative dims accepted, `int32_data` wraps, raw bool bytes unchecked (C40); a model given by bare file name skips the link check and files are opened lazily (C41).
* Interface: inputs with an initializer are not parameters; unresolved outputs are dropped silently (C45); a forged `__onnx_input_count` is trusted and a negative opset version wraps (C49).
* Element-wise code: arrays of different lengths, array with matrix, comparison of an array with a scalar, BitShift across ranks, Min/Max with native numbers (C55).
* View operators: Squeeze without axes on a dimension that turns out to be 1, native numbers reshaped or unsqueezed to rank two, `allowzero`, −1 and 0 in a run-time target tensor, Flatten and Expand of empty dimensions all panic (C56).
* Concat: a shape array with a rank-1 tensor, and on-device scalars, do not compile; a negative axis with a scalar as first input panics (C57).
* Where: `mask_fill` with a condition smaller than the other value, an array condition, a vector condition with arrays and arrays of different lengths fail; an on-device scalar condition gives a vector typed as a scalar or the reverse (C58). Sum and Mean of tensors of different ranks do not compile, nor does the Mean of native numbers; Clip panics on run-time bounds and without bounds (C58).
* Gather: several indices in a tensor into a shape array panic; an `i32` scalar index into one does not compile (C59).
* Slice of a tensor: negative steps give the wrong elements (the bounds are handed over as an ascending range); steps are dropped when a bound is known at run time only; run-time axes are taken for 0, 1, …; a constant bound with a tensor bound ignores the axes; a tensor with an array and no axes slices one dimension only; two tensors without axes, a scalar start with a constant end, on-device scalars, ends between `i32::MAX` and `i64::MAX`, empty bounds, and constant bounds with run-time steps fail (C60).
* Softmax, LogSoftmax and Hardmax of operator sets below 13 work along the axis alone, where ONNX flattens the tensor to a matrix; TopK refuses `largest = 0` and panics on a run-time `k` (C61).
* Clip with a bound of type bf16 (or i16, u32, u64) given as a constant input silently has no such bound (clip.rs:119-124 drops what `scalar_f64` cannot read); modelled for bf16 in `clipBound`.
* Trilu with a diagonal known at run time only takes it for 0; OneHot with integer indices cuts fractional values to integers and panics on a depth that is not `i64`; Pad with an infinite constant writes code that does not compile, and refuses axes and negative pads; Tile and Pad panic on run-time repeats and pads (C62).
* GatherElements: indices smaller than the data outside the axis, legal in ONNX, are outside the precondition of Burn's `gather` (C59).
* ScatterElements without reduction adds `update - old` to the old element: an infinite or not-a-number element becomes not-a-number, and rounding can lose the update; reductions of booleans panic (C63).
* LSTM, GRU and RNN with layout 1: Y_h and Y_c (and Y of LSTM and RNN in one direction) come in another layout than
  ONNX's, and an initial state panics or is read with its axes confused (`C64_batch_first_*`).
* LSTM and RNN apply `clip` to the state instead of the input of the activations (`C64_clip_wrong`), drop
  `activation_alpha` and `activation_beta` (`C64_alpha_*`), and LSTM drops an initial state given alone
  (`C64_lstm_one_state_*`).
* LSTM, GRU and RNN with one feature or one hidden unit panic while storing weights (`C64_one_unit_panics`).
* Erf, Log, Sign, Not and BitwiseNot of a native scalar do not compile (`C65_unary_fails`, `C65_not_fails`); Round of
  a native scalar rounds halves away from zero (`C65_round_wrong`); activations of native scalars and Relu of integers do
  not compile (`C65_act_fails`); IsInf of a scalar tensor panics (`C65_isinf_scalar_panics`).
* Gelu ignores `approximate` (`C65_gelu_approximate_ignored`); Selu refuses other parameters than the defaults
  (`C65_selu_refused`).
* PRelu applies a slope along the last dimension along dimension 1 (`C65_prelu_last_wrong`), panics for slopes of several
  dimensions (`C65_prelu_full_panics`) and for a slope that is not a constant (`C65_prelu_runtime_panics`).
* BatchNormalization without `epsilon` uses 0 (`C66_batch_norm_default_epsilon_wrong`) and ignores `training_mode`
  (`C66_batch_norm_training_wrong`).
* GroupNormalization with a scale for each group panics (`C66_group_norm_per_group_panics`); Instance-, Group- and
  LayerNormalization panic for parameters that are not constants (`C66_computed_parameters_panic`).
* LayerNormalization compares `axis` with the rank of the scale: the last axis written as such is refused
  (`C66_layer_norm_axis_refused`), another axis is accepted but not used (`C66_layer_norm_axis_wrong`), and scales of
  several dimensions or biases of another size panic (`C66_layer_norm_matrix_scale_panics`, `C66_layer_norm_bias_panics`).
* Scalar constants of types bf16, i16, i8, u64, u32, u16 and u8 panic, and so do constant shapes of types other than i32 and
  i64 (`C67_constant_panics`). ConstantOfShape with a value of these types (or f16) fills with zeros
  (`C67_constant_of_shape_value_wrong`). Size generates code that compiles for no input (no model; its test is not
  listed in `tests/test_mod.rs`).
* Cast of integers to f64 goes through the backend's floating-point type (`C68_int_to_double_wrong`); a shape or native
  integer cast to a narrower type keeps its value (`C68_shape_narrow_wrong`, `C68_native_narrow_wrong`); most casts of native
  scalars do not compile or have another type (`C68_native_fails`).
* MatMulInteger subtracts a zero point per row of the first operand from its columns, or panics
  (`C69_row_zero_point_wrong`, `C69_row_zero_point_panics`); a zero point held outside the device does not compile.
* Resize ignores `nearest_mode`, the coordinate modes other than `align_corners` and the scales of batch and channels
  (`C70_nearest_mode_ignored`, `C70_coordinates_ignored`, `C70_pytorch_ignored`, `C70_batch_scale_ignored`, for any behaviour
  of Burn); reduced lengths and uneven scales are sampled elsewhere (`C70_nearest_reduced_wrong`, `C70_scale_wrong`, when
  Burn's nearest neighbours are those of `o · d / e` rounded down); the default of `mode` is refused
  (`C70_default_mode_refused`); other ranks do not compile (`C70_rank_fails`, `C70_runtime_rank_fails`).
* Scan overwrites carried values one after the other and collects scan outputs afterwards: exchanging two carried values and returning the
  previous value give wrong results; negative axes, sequences of scalars and empty sequences panic (C71).
* Attention ignores its mask when it is causal, and takes the first dimension of a mask of rank 3 for the batch instead of the heads; the scores
  cannot be returned without a cache, at the stage after capping without a cap, with a Boolean mask that is not a matrix, or with grouped heads
  (C72).
* Col2Im accepts tensors of integers and Booleans, for which its code does not compile (C73).
* RandomNormal and RandomUniform ignore the element type asked for when they draw; the operators that take a shape from their input are declared
  `f32` without the attribute and draw in the input's type; Bernoulli replaces unknown element types by the input's (C74).
* Conv and ConvTranspose with the bias written as an empty name fail; Conv with three axes and asymmetric padding panics;
  AveragePool drops `dilations`; GlobalAveragePool accepts ranks 3 and 4 only; ConvTranspose refuses `auto_pad`, `output_shape` and
  asymmetric padding (C75).
* GridSample with three or more spatial axes (version 20) is accepted but the generated code does not compile (C76).
* The values captured by the bodies of If, Loop and Scan are visited in the order of a hash set, so the captured inputs and the bindings of the
  generated code come in a different order in every run; if the variable that stands for one captured name is itself the name of another
  captured value, the body reads a wrong value, and which one depends on that order (C77).
* Pad with both `pads` and `paddings` takes whichever attribute the hash map yields first (C77).
* A constant has one form for all its consumers, so a vector used beside a shape and by an operator that needs a tensor (MatMul) makes the
  import fail, although each use alone is accepted (C78).
* The domain of a node is never read, so a custom operator named like an ONNX one (`com.microsoft` `Attention`) is imported as the ONNX one; operator
  names are matched up to case, and internal names (`Linear`, `Conv1d`) are accepted from files (C79).
* `GlobalMaxPool`, `Scatter` and `Unique` pass import and panic during code generation; a convolution without `kernel_shape` whose weights are
  computed panics; poolings over three axes panic; a file that calls the default domain `ai.onnx` is refused; the documentation lists `ReduceL` (C79).
* Code that does not compile: a graph output that is a scalar tensor and is also the input of a node; the node's code takes the value, and its conversion to a number at the end uses it again (C80).
* The order in which a node asks the scope for its inputs is not always the order in which it writes them (C23). An LSTM whose initial hidden state and
  initial cell state are the same tensor, not used later, gives code that does not compile: `LstmState::new(z.squeeze_dim(0), z.clone().squeeze_dim(0))`
  (lstm.rs:383-388, `C23_lstm_states_wrong`); likewise `Where(c, x, c)` on booleans and `MatMulInteger` with B as the zero point of A.
* Generated blocks declare local variables before they mention an operand (C81). A graph input that has the name of such a variable is hidden: updates called
  `k` of a ScatterND, data called `indices` of a Gather with a scalar index, data called `c` of a DepthToSpace (`C81_graph_inputs_wrong`); a self-attention on
  an input called `q` does not compile (`C81_attention_wrong`). Values made by nodes are renamed and never collide (`C81_node_outputs`). Split declares its
  local variables outside of a block, so they also hide values from later nodes (not modelled).
* Some generators declare variables in the body of `forward` itself, without braces: Split (`split_tensors`, `sizes`), Reshape to a run-time tensor target (`shape_data`), Slice with run-time bounds and Gather of one element of a shape (C81). The variable stays, so a graph input of that name used by any later node is hidden (`C81_left_variable_wrong`).
* A declared type without a shape (unknown rank) is read as that of a scalar (proto_conversion.rs:893, `C85_unknown_rank_wrong`); a graph input that is a sequence or a tensor of strings is taken, silently, for an f32 tensor of rank 0 (`C85_unsupported_input_wrong`); the type declared for a graph output whose name is sanitised is not used for the node computing it, since the original name is compared with the sanitised one (`C85_renamed_output_ignored`).
* Reading a node whose tensor attribute (such as the value of a Constant) is stored in an external file panics, although an initializer stored so is read, because attributes are converted without the base path (proto_conversion.rs:534 and 578, `C86_external_tensor_panics`). Attributes without a type, sparse tensors, types and strings that are not UTF-8 panic too (`C86_kind_panics`, `C86_bytes_panic`).
* The output files of `m.v1.onnx` are called `m.rs` and `m.bpk`, because `with_extension` replaces what follows the last dot of the stem (model_gen.rs:286-287, 334, 356): converting `m.v1.onnx` and `m.v2.onnx` into one directory silently leaves one model (`C87_dotted_names_wrong`); so do inputs of the same name in different directories (`C87_same_name_wrong`). A rerun that stops between the two files leaves old code with new weights (`C87_stale_source_wrong`).
* A reshaped graph input called `shape_data` or `shape_array` is hidden by a variable of the generated block when the target is computed at run time (reshape.rs:240-244), likewise `end_vec` and the like for Slice (`C81_reshape_input_wrong`).
* A value that an If, Loop or Scan node has as an input of its own and that its body also uses is not handed to the body (node_conversion.rs:96-99); in the body it is taken for a float tensor of rank 0, whatever it is (`C89_own_input_wrong`). `If(cond)` with a branch that uses `cond` is an example.
* Floats that are not finite are handled only in scalar constants and fill values. Clip, Gemm and others (floats quoted directly) make the conversion panic, and activations, Dropout and Pad write a word that is no number (`inf`, `-inf_f32`), so the generated code does not compile (C90).
* Importing a `PRelu` whose slope is not a constant panics (prelu.rs:58-60), also when the slope is a constant behind an `Identity` (C82).
* Element types that are wrong after inference (C15): the comparison of two `Shape` values is annotated as a `Shape` (`C15_compare_shapes_wrong`); OneHot keeps the placeholder element type f32 whatever its values are (`C15_onehot_elements_wrong`); RandomNormalLike and RandomUniformLike without `dtype` are f32 whatever the input is (`C15_random_like_elements_wrong`). The guards of `ElemLaw.Supported` name four more: a `Shape` cast to a narrower integer stays a `Shape`, a 32-bit integer scalar that gains a dimension becomes a `Shape`, Pow takes the type of its first operand on the device, and constant indices of a Gather from a `Shape` become a `Shape`.


## 7. Axioms per theorem

Generated with `tools/axioms.sh` (`#print axioms`).

* no axioms: `C20_modes_known`, `C77_pads_and_paddings_wrong`

* Classical.choice, Quot.sound, propext: `AttnCase.C10_runtime_scale_wrong`, `AttnCase.C10_scores_output_lost`, `AttnCase.C10_unscaled_wrong`, `AttnCase.C10_vector_scale_wrong`, `Boundary.C46_boundary_partial`, `C03_cse_preserves_outputs_partial`, `C04_idempotent_preserves_outputs`, `C05_identity_element_preserves_outputs_partial`, `C06_permute_reshape_preserves_outputs_partial`, `C07_constant_shape_preserves_outputs_partial`, `C08_constant_folding_preserves_outputs_partial`, `C09_panics_only_in_passes`, `C09_simplification_preserves_outputs_partial`, `C10_coalesce_attention_preserves_partial`, `C11_noop_elimination_in_run`, `C11_noop_elimination_preserves_outputs`, `C12_removed_exactly`, `C12_unreferenced_constants_preserve_outputs`, `C13_fusion_preserves_meaning_partial`, `C13_gemm_bias_fused`, `C13_linear_is_biased_product`, `C13_linear_is_gemm`, `C13_linear_is_product`, `C13_linear_law`, `C13_linear_type`, `C13_number_bias_fused`, `C13_product_lost`, `C13_product_output_lost`, `C13_runtime_weight_fused`, `C13_transposed_input_fused`, `C14_constant_of_shape_sound`, `C14_slice_reverse_wrong`, `C14_slice_shape_partial`, `C14_slice_static_wrong`, `C14_transpose_sound`, `C14_where_equal_or_scalar`, `C14_where_shape_partial`, `C14_where_tensor_partial`, `C15_element_types_partial`, `C15_inference_sound`, `C15_registry_partial`, `C16_broadcast_sound_partial`, `C16_equal_or_scalar`, `C16_static_shape_partial`, `C16_two_operands`, `C17_flag_exact`, `C17_merge_gains`, `C17_merge_idempotent`, `C17_merge_informative`, `C17_merge_sound`, `C18_noop_constant`, `C18_reshape_constant`, `C18_reshape_runtime`, `C18_reshape_shape_partial`, `C18_reshape_static`, `C19_split_type`, `C20_module_1d`, `C20_module_2d`, `C20_module_3d`, `C20_one_dim`, `C21_conv1d_partial`, `C21_conv2d_partial`, `C21_conv3d_partial`, `C21_deformConv_partial`, `C21_maxPool_wrong`, `C21_same_wrong`, `C22_round_trip`, `C22_squeeze_axes`, `C22_unsqueeze`, `C23_reordered_blocks`, `C23_where_condition_wrong`, `C23_written_partial`, `C24_clone_minimal_partial`, `C25_outer_values_partial`, `C26_loop_partial`, `C26_swap_wrong`, `C26_unlimited_partial`, `C28_shape_slice_partial`, `C30_matmul_type_partial`, `C30_matmul_value_partial`, `C30_matmulinteger_type_partial`, `C31_cumsum`, `C31_runtime_axis_partial`, `C32_all_axes_listed_panics`, `C32_logsumexp_drop_wrong`, `C32_logsumexp_partial`, `C32_reduce_all_drop_type`, `C32_reduce_axes_type`, `C32_reduce_bool`, `C32_reduce_node_partial`, `C32_reduce_values_partial`, `C33_mod_scalar_partial`, `C33_mod_tensor`, `C33_range_float_wrong`, `C33_range_negative_wrong`, `C33_range_partial`, `C34_empty`, `C34_keyword`, `C34_not_injective`, `C34_sanitizeName_idempotent`, `C34_sanitize_idempotent`, `C34_sanitize_keeps_normal_names`, `C34_sanitized_characters`, `C34_sanitized_is_identifier_partial`, `C35_nested_names_repeat`, `C35_node_names_unique`, `C35_registry_names_unique`, `C35_sibling_names_repeat`, `C35_value_names_unique`, `C36_generated_name_clash`, `C36_import_preserves_meaning_partial`, `C36_input_shadows_output`, `C36_omitted_constant`, `C36_outer_output_dropped`, `C36_sanitised_names_clash`, `C37_self_loop_accepted`, `C38_clash_missed`, `C38_extract_exact_partial`, `C38_if_exact`, `C38_loop_inputs_reported`, `C42_one_axis_partial`, `C42_three_axes_partial`, `C42_transpose_partial`, `C42_two_axes_partial`, `C43_generated_value`, `C44_fixed_point`, `C44_rounds`, `C45_default_input_dropped`, `C45_interface_partial`, `C45_product_output_dropped`, `C45_unknown_output_dropped`, `C47_gathernd_scalar`, `C47_gathernd_type`, `C47_gathernd_value`, `C48_depth_to_space`, `C48_depth_to_space_unique`, `C48_inverse`, `C48_space_to_depth`, `C48_space_to_depth_unique`, `C49_check_exact`, `C49_whole_graph`, `C50_flatten_type`, `C51_avgPool_dilation_wrong`, `C52_import_preserves_meaning_partial`, `C53_gemm_value`, `C54_elimination_preserves_outputs_partial`, `C54_noop_returns_input_partial`, `C55_add_int_partial`, `C55_binary_partial`, `C55_mul_int_partial`, `C55_sub_int_partial`, `C56_allowzero_panics`, `C56_expand_partial`, `C56_flatten_partial`, `C56_reshape_partial`, `C56_reshape_runtime_partial`, `C56_runtime_target_panics`, `C56_squeeze_axes`, `C56_transpose`, `C56_unsqueeze_partial`, `C57_concat_partial`, `C58_mean_partial`, `C58_pow_partial`, `C58_sum_partial`, `C58_where_partial`, `C59_gather_partial`, `C59_gather_shape_i32_fails`, `C60_slice_large_end_panics`, `C60_slice_partial`, `C61_argmax`, `C61_hardmax_partial`, `C61_softmax_partial`, `C61_topk_partial`, `C62_nonzero`, `C62_onehot_fraction_truncated`, `C62_onehot_partial`, `C62_pad_partial`, `C62_tile_partial`, `C63_scatter_elements_partial`, `C63_scatter_infinite_wrong`, `C63_scatternd_partial`, `C64_clip_wrong`, `C64_gru_batch_first_partial`, `C64_gru_partial`, `C64_lstm_batch_first_partial`, `C64_lstm_partial`, `C64_one_unit_panics`, `C64_rnn_batch_first_partial`, `C64_rnn_partial`, `C65_act_fails`, `C65_act_partial`, `C65_gelu_approximate_ignored`, `C65_gelu_approximate_wrong`, `C65_prelu_full_panics`, `C65_prelu_last_wrong`, `C65_prelu_partial`, `C65_prelu_runtime_panics`, `C65_round_wrong`, `C65_selu_error`, `C65_selu_partial`, `C65_selu_refused`, `C65_unary_fails`, `C65_unary_partial`, `C66_batch_norm_default_epsilon_wrong`, `C66_batch_norm_partial`, `C66_batch_norm_training_wrong`, `C66_computed_parameters_panic`, `C66_group_norm_partial`, `C66_group_norm_per_group_panics`, `C66_instance_norm_partial`, `C66_layer_norm_axis_refused`, `C66_layer_norm_axis_wrong`, `C66_layer_norm_bias_panics`, `C66_layer_norm_matrix_scale_panics`, `C66_layer_norm_partial`, `C67_constant_of_shape_partial`, `C67_constant_of_shape_value_wrong`, `C67_constant_partial`, `C67_eye_like`, `C68_cast_partial`, `C69_matmul_integer_partial`, `C69_row_zero_point_panics`, `C69_row_zero_point_wrong`, `C70_attributes_refused`, `C70_batch_scale_ignored`, `C70_coordinates_ignored`, `C70_default_mode_refused`, `C70_linear_partial`, `C70_nearest_mode_ignored`, `C70_nearest_partial`, `C70_nearest_reduced_wrong`, `C70_pytorch_ignored`, `C70_rank_fails`, `C70_runtime_rank_fails`, `C70_scale_wrong`, `C71_empty_panics`, `C71_negative_axis_panics`, `C71_scalar_elements_panic`, `C71_scan_partial`, `C72_attention_partial`, `C72_bool_mask_fails`, `C72_grouped_heads_panic`, `C72_mask_ignored`, `C72_mask_matters`, `C72_precision_refused`, `C72_rank3_mask_wrong`, `C72_scores_partial`, `C72_scores_without_cache_refused`, `C72_uncapped_scores_fail`, `C73_col2im_partial`, `C74_bernoulli_dtype_wrong`, `C74_bernoulli_partial`, `C74_bernoulli_probability`, `C74_double_wrong`, `C74_dtype_ignored`, `C74_half_refused`, `C74_like_declared_wrong`, `C74_like_dtype_ignored`, `C74_normal_like_partial`, `C74_normal_partial`, `C74_uniform_like_partial`, `C74_uniform_partial`, `C75_avgPool1d_partial`, `C75_avgPool2d_partial`, `C75_avgPool_dilation_wrong`, `C75_conv1d_partial`, `C75_conv2d_partial`, `C75_conv3d_partial`, `C75_convTranspose_partial`, `C75_globalAveragePool_partial`, `C75_maxPool1d_partial`, `C75_maxPool2d_partial`, `C76_deformConv_partial`, `C76_gridSample_partial`, `C76_gridSample_rank_fails`, `C77_first_attribute`, `C77_imports`, `C77_noop_rewiring`, `C77_sorted_attributes`, `C78_constant_forms`, `C78_device_constants`, `C78_scalar_constants`, `C78_shape_constants`, `C79_accepted`, `C79_code_partial`, `C79_computed_weights_panics`, `C79_documented_partial`, `C79_documented_wrong`, `C79_domain_ignored_wrong`, `C79_names`, `C79_no_confusion`, `C79_nonstandard_accepted_wrong`, `C79_opset_alias_refused`, `C79_placeholder_panics`, `C79_refused`, `C79_three_axes_pooling_panics`, `C79_window_axes`, `C80_forward_partial`, `C80_model_partial`, `C81_body_node_outputs`, `C81_graph_inputs_partial`, `C81_node_outputs`, `C81_operands_denoted`, `C82_embedded_again`, `C82_embedded_partial`, `C82_is_lifting`, `C82_run_time_operands`, `C83_split_even_partial`, `C83_split_sizes_partial`, `C84_file_to_forward_partial`, `Captured.C89_captured_partial`, `Captured.C89_own_input_wrong`, `Decode.C40_external_decoded`, `Decode.C40_raw_decoded`, `Decode.C40_raw_same_as_typed`, `Decode.C40_typed_decoded`, `Decode.C85_declared_exact_partial`, `Decode.C85_input_partial`, `Decode.C85_node_output_partial`, `Decode.C85_outer_scope`, `Decode.C85_renamed_output_ignored`, `Decode.C85_unsupported_input_wrong`, `Decode.C85_value_info_partial`, `Decode.C86_attributes_partial`, `Decode.C86_external_tensor_panics`, `Decode.C86_graph_of_other_operator_ignored`, `Decode.C86_kind_panics`, `Driver.C87_crash_partial`, `Driver.C87_dotted_names_wrong`, `Driver.C87_files_partial`, `Driver.C87_same_name_wrong`, `Driver.C87_stale_source_wrong`, `Driver.C87_success`, `Ext.C41_bare_name_escapes`, `Ext.C41_rejects`, `Fields.C27_branch_reads_other_weights`, `Fields.C27_field_name_twice`, `Fields.C27_field_names_distinct_partial`, `Fields.C27_weight_has_one_field_partial`, `Lit.C90_arrays`, `Lit.C90_floats`, `Lit.C90_integers`, `Lit.C90_not_finite_wrong`, `Lit.C90_other_floats_partial`, `Nested.C88_import_marks`, `Nested.C88_import_outer_marks`, `Nested.C88_results_partial`, `Tensor.transpose_data`, `WholeModelExample.C80_scalar_output_wrong`, `realSem_idempotentLaw`, `realSem_identityLaw`, `xorCode_computes`

* Quot.sound, propext: `Boundary.C46_signature`, `Boundary.C46_well_typed`, `C01_dead_nodes_preserve_outputs`, `C01_dead_nodes_sublist`, `C02_dead_nodes_complete`, `C02_dead_nodes_idempotent`, `C05_identity_element_wrong_shape`, `C06_transpose_moves_data`, `C07_end_below_rank`, `C07_gather_ignores_end`, `C07_marks_resolve`, `C07_negative_step_drops_element`, `C07_negative_step_panics`, `C08_broadcast_panics`, `C08_division_overflow_panics`, `C08_marks_resolve`, `C08_unknown_shape_changes_rank`, `C08_unknown_shape_panics`, `C09_outputs_kept`, `C14_batchnorm_sound`, `C14_cast_sound`, `C14_constant_sound`, `C14_copied_shape_wrong`, `C14_copy_rank_partial`, `C14_gemm_sound`, `C14_nonzero_sound`, `C14_rank_only_sound`, `C14_slice_tensor_partial`, `C14_where_condition_wrong`, `C15_compare_shapes_wrong`, `C15_element_types_sound`, `C15_onehot_elements_wrong`, `C15_random_like_elements_wrong`, `C16_rank`, `C16_unknown_input_ignored`, `C18_noop_partial`, `C18_noop_runtime_wrong`, `C18_scalar_to_vector_wrong`, `C18_shape_zero_wrong`, `C19_even_split`, `C19_explicit_sizes`, `C19_generated_split`, `C19_static_eq_runtime`, `C20_conv_attribute`, `C20_one_dim_total`, `C20_pool_attribute`, `C21_convTranspose_wrong`, `C22_runtime_axes_wrong`, `C22_squeeze_all_partial`, `C22_unknown_one_wrong`, `C23_duplicate_output_wrong`, `C23_lstm_states_wrong`, `C23_matmul_integer_wrong`, `C23_no_use_after_move_partial`, `C23_scalar_output_wrong`, `C26_condition_wrong`, `C28_empty_slice_panics`, `C28_negative_step_wrong`, `C29_expand_constant_partial`, `C29_expand_runtime_partial`, `C29_short_target_wrong`, `C29_target_one_wrong`, `C30_vector_vector_wrong`, `C31_negative_runtime_axis_panics`, `C32_int_mean_wrong`, `C32_logsumexp_drop_panics`, `C32_logsumexp_drop_square`, `C32_reduce_all_keep_wrong`, `C32_reduce_runtime_axes_wrong`, `C33_mod_scalar_wrong`, `C37_accepted_is_ordered_partial`, `C37_accepts_iff`, `C37_out_of_order_rejected`, `C37_valid_accepted`, `C43_type_matches_code`, `C47_argmax_type`, `C47_concat_partial`, `C47_concat_unknown_length_wrong`, `C47_gather_shape_partial`, `C47_gather_shape_tensor_indices_wrong`, `C47_gather_tensor`, `C47_onehot_type`, `C47_topk_type`, `C48_depth_to_space_type`, `C48_space_to_depth_type`, `C49_count_is_the_files`, `C51_avgPool_partial`, `C51_conv`, `C51_maxPool`, `C54_expand_inferred`, `C55_bitshift_rank_wrong`, `C55_compare_shape_native_panics`, `C55_div_by_zero`, `C55_min_native_panics`, `C55_saturates`, `C55_shape_lengths_wrong`, `C55_shape_with_matrix_wrong`, `C56_expand_device_scalar_panics`, `C56_expand_empty_panics`, `C56_flatten_empty_panics`, `C56_reshape_native_panics`, `C56_squeeze_all_partial`, `C56_squeeze_unknown_one_panics`, `C56_unsqueeze_native_panics`, `C57_device_scalar_fails`, `C57_scalar_first_panics`, `C57_shape_tensor_fails`, `C58_clip_partial`, `C58_mean_natives_fails`, `C58_sum_ranks_fails`, `C58_where_array_condition_fails`, `C58_where_device_condition_wrong`, `C58_where_fill_panics`, `C58_where_lengths_fails`, `C58_where_vector_arrays_panics`, `C59_gather_elements_partial`, `C59_gather_shape_tensor_panics`, `C60_slice_device_scalars_fail`, `C60_slice_empty_panics`, `C60_slice_mixed_axes_ignored`, `C60_slice_negative_step_wrong`, `C60_slice_runtime_axes_ignored`, `C60_slice_runtime_steps_ignored`, `C60_slice_scalar_start_panics`, `C60_slice_static_bounds_runtime_steps_panics`, `C60_slice_tensor_array_one_dim`, `C60_slice_tensors_without_axes_panics`, `C61_hardmax_old_opset_wrong`, `C61_softmax_old_opset_wrong`, `C61_topk_runtime_panics`, `C61_topk_smallest_refused`, `C62_onehot_depth_panics`, `C62_pad_infinite_fails`, `C62_pad_negative_refused`, `C62_pad_refused`, `C62_pad_runtime_panics`, `C62_tile_runtime_panics`, `C62_trilu_partial`, `C62_trilu_runtime_ignored`, `C63_scatter_bool_panics`, `C64_activation_panics`, `C64_alpha_ignored`, `C64_alpha_wrong`, `C64_batch_first_initial_fails`, `C64_batch_first_state_wrong`, `C64_batch_first_y_wrong`, `C64_clip_nonpositive_ignored`, `C64_gru_options_panic`, `C64_lstm_one_state_ignored`, `C64_lstm_one_state_wrong`, `C64_weights_not_read`, `C65_isinf_partial`, `C65_isinf_scalar_panics`, `C65_isnan_partial`, `C68_cast_shape_partial`, `C68_int_to_double_wrong`, `C68_native_fails`, `C68_native_narrow_wrong`, `C68_native_partial`, `C68_shape_narrow_wrong`, `C69_host_zero_point_fails`, `C71_previous_value_wrong`, `C71_swap_wrong`, `C73_dynamic_refused`, `C73_int_fails`, `C73_three_dims_refused`, `C75_conv3d_asymmetric_panics`, `C75_convTranspose_refused`, `C75_empty_bias_fails`, `C75_globalAveragePool_refused`, `C77_attribute_loops`, `C77_attribute_values`, `C77_captured_inputs_partial`, `C77_captured_values_partial`, `C77_noop_plan`, `C78_shared_constant_refused`, `C79_opset`, `C81_graph_inputs_wrong`, `C83_runtime_sizes_panics`, `Decode.C40_count_partial`, `Decode.C40_external_default_length`, `Decode.C40_shape_kept`, `Decode.C85_declared_supported`, `Decode.C85_unknown_rank_wrong`, `Decode.C86_bytes_panic`, `Decode.C86_int32_partial`, `Ext.C41_bytes`, `Ext.C41_contained_partial`, `Ext.C41_late_link_escapes`, `Ext.C41_no_links`, `Fields.C27_code_reads_own_field_partial`, `Nested.C88_only_used`, `NoopCase.C54_mask_lost`, `NoopCase.C54_shape_cast_wrong`, `NoopCase.C54_training_dropped`, `Store.C39_attach_keeps_value`, `Store.C39_constant_node`, `Store.C39_finalize_keeps_static`, `Store.C39_finalize_same_graph`, `Store.C39_ids_fresh`, `Store.C39_name_lookup`, `Store.C39_read_back`, `Store.C39_snapshots_agree`, `Store.C39_to_static`, `Store.C39_unknown_id`, `addCode_computes`, `andCode_computes`, `bitshiftCode_computes`, `bitwiseCode_computes`, `divCode_computes`, `equalCode_computes`, `greaterCode_computes`, `greaterEqualCode_computes`, `lessCode_computes`, `lessEqualCode_computes`, `mulCode_computes`, `orCode_computes`, `pairCode_computes`, `subCode_computes`

* propext: `Boundary.C46_repeated_scalar_output`, `C03_cse_wrong_on_random`, `C11_dropout_mask_lost`, `C11_original_name_clash`, `C14_gather_elements_sound`, `C14_like_sound`, `C14_same_shape_sound`, `C14_scatter_sound`, `C16_first_shape_wins`, `C16_rank_and_shape_disagree`, `C19_num_outputs_unchecked`, `C21_avgPool`, `C21_maxPool_partial`, `C25_if_both_branches_wrong`, `C25_if_branch_positions_wrong`, `C25_loop_delay_wrong`, `C25_loop_initial_wrong`, `C25_loop_same_result_wrong`, `C25_loop_trip_count_wrong`, `C26_scan_elements_partial`, `C26_scan_rank_wrong`, `C42_malformed_wrong`, `C43_defined_iff`, `C43_no_clamping`, `C43_shape_of_shape`, `C43_shape_of_shape_wrong`, `C49_forged_count`, `C49_negative_opset`, `C58_clip_native_fails`, `C58_clip_panics`, `C65_not_fails`, `C65_not_partial`, `C67_constant_panics`, `C77_captured_values_wrong`, `C77_generated_text_wrong`, `C81_attention_wrong`, `C81_body_partial`, `C81_left_variable_wrong`, `C81_reshape_input_wrong`, `C82_prelu_slope_panics`, `Decode.C40_count_unchecked`, `Decode.C40_negative_dim_accepted`, `Decode.C40_out_of_range_wraps`, `Decode.C40_raw_bool_unchecked`, `Decode.C40_supported_accepted`, `Decode.C86_int32_wraps`, `Decode.C86_scalar_values`, `Fields.C27_records_match`, `Fields.C27_scan_body_field_missing`, `Nested.C88_rest_kept`, `Nested.C88_unmarked_wrong`, `Store.C39_captured_constant_forgotten`
