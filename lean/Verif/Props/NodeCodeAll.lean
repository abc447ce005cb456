import Verif.Props.NodeCodeInt

/-!
# C80: the code of every node
-/

namespace OnnxIR

open Gen Onnx

variable {erf : ℝ → ℝ} {pick : Nat → Int → Option Nat} {st : Store OVal} {opset : Nat} {n : Node OVal} {xs : List (Option OVal)} {ys : List OVal}

/-- The rule of type inference for an operator. -/
def ruleFor : Op → Option Infer.Rule
  | .unary _ | .act _ | .not | .softmax | .logSoftmax | .layerNorm | .instanceNorm | .clip | .trilu | .groupNorm | .hardmax
  | .cumSum => some .same
  | .arith _ | .logic _ | .sum | .pow | .mean | .maximum | .minimum | .prelu => some (.broadcast none)
  | .compare _ => some (.broadcast (some .bool))
  | .matMul => some .matmul
  | .gemm => some .gemm
  | .linear | .slice => none
  | .reshape => some .reshape
  | .transpose => some .transpose
  | .flatten => some .flatten
  | .squeeze => some .squeeze
  | .unsqueeze => some .unsqueeze
  | .concat => some .concat
  | .constant => some .constant
  | .gather => some .gather
  | .conv d => some (.conv d)
  | .maxPool _ | .globalAveragePool | .pad | .tile | .convTranspose _ => some .copied
  | .averagePool _ => some .rankOnly
  | .batchNorm => some .batchNorm
  | .reduce _ | .logSumExp => some .reduce
  | .shape => some .shape
  | .dropout => some .dropout
  | .depthToSpace => some .depthToSpace
  | .spaceToDepth => some .spaceToDepth
  | .expand => some .expand
  | .argMax | .argMin => some .argmax
  | .where_ => some .where_
  | .cast => some .cast
  | .split => some .split
  | .gatherElements => some .gatherElements
  | .topK => some .topk
  | .scatterND | .scatterElements => some .scatter
  | .gatherND => some .gatherND
  | .nonZero => some .nonZero
  | .range => some .range
  | .oneHot => some .oneHot
  | .constantOfShape => some .constantOfShape
  | .identity | .bitwiseNot => some .same
  | .bitwise _ => some (.broadcast none)
  | .matMulInteger => some .matmulInteger
  | .eyeLike => some .eyeLike
  | .mod => some (.broadcast none)

theorem rules : ∀ p ∈ opNames, Infer.ruleOf p.1 = ruleFor p.2 := by decide +kernel

theorem rule_of {t : NodeType} {op : Op} (h : opOf t = some op) : Infer.ruleOf t = ruleFor op :=
  rules (t, op) (mem_of_lookup h)

theorem works (hst : StoreOk st) {op : Op} (hop : opOf n.ty = some op) (hm : Onnx.Meaning erf opset op n.attrs xs ys) (h : RunOf st n xs ys)
    (hs : Supported pick st opset n xs op) (ht : Typed st opset n) : Works erf pick st opset n xs ys op := by
  have ht' : ∀ r, ruleFor op = some r → ∃ prefs, Infer.apply st opset n prefs r = some (n.outputs.map Arg.ty) := fun r hr =>
    ht r ((rule_of hop).trans hr)
  cases op with
  | unary op => obtain ⟨p, hp⟩ := ht' _ rfl; exact works_unary hm h hs hp
  | act op => obtain ⟨p, hp⟩ := ht' _ rfl; exact works_act hm h hs hp
  | not => obtain ⟨p, hp⟩ := ht' _ rfl; exact works_not hm h hs hp
  | arith op => obtain ⟨p, hp⟩ := ht' _ rfl; exact works_arith hm h hs hp
  | compare op => obtain ⟨p, hp⟩ := ht' _ rfl; exact works_compare hm h hs hp
  | logic op => obtain ⟨p, hp⟩ := ht' _ rfl; exact works_logic hm h hs hp
  | matMul => exact works_matMul hm h hs
  | gemm => exact works_gemm hm h hs
  | linear => exact works_linear hm h hs
  | reshape => obtain ⟨p, hp⟩ := ht' _ rfl; exact works_reshape hst hm h hs hp
  | transpose => obtain ⟨p, hp⟩ := ht' _ rfl; exact works_transpose hm h hs hp
  | flatten => obtain ⟨p, hp⟩ := ht' _ rfl; exact works_flatten hm h hs hp
  | squeeze => obtain ⟨p, hp⟩ := ht' _ rfl; exact works_squeeze hst hm h hs hp
  | unsqueeze => obtain ⟨p, hp⟩ := ht' _ rfl; exact works_unsqueeze hst hm h hs hp
  | concat => obtain ⟨p, hp⟩ := ht' _ rfl; exact works_concat hm h hs hp
  | constant => obtain ⟨p, hp⟩ := ht' _ rfl; exact works_constant hst hm h hs hp
  | gather => obtain ⟨p, hp⟩ := ht' _ rfl; exact works_gather hm h hs hp
  | conv d => exact works_conv (axesOk_of hop) hm h hs
  | maxPool d => exact works_maxPool (axesOk_of hop) hm h hs
  | averagePool d => exact works_averagePool (axesOk_of hop) hm h hs
  | globalAveragePool => exact works_globalAveragePool hm h hs
  | batchNorm => exact works_batchNorm hm h hs
  | layerNorm => exact works_layerNorm hm h hs
  | instanceNorm => exact works_instanceNorm hm h hs
  | reduce op => obtain ⟨p, hp⟩ := ht' _ rfl; exact works_reduce hst hm h hs hp
  | shape => obtain ⟨p, hp⟩ := ht' _ rfl; exact works_shape hm h hs hp
  | clip => obtain ⟨p, hp⟩ := ht' _ rfl; exact works_clip hm h hs hp
  | sum => obtain ⟨p, hp⟩ := ht' _ rfl; exact works_sum hm h hs hp
  | pow => obtain ⟨p, hp⟩ := ht' _ rfl; exact works_pow hm h hs hp
  | pad => exact works_pad hst hm h hs
  | tile => obtain ⟨p, hp⟩ := ht' _ rfl; exact works_tile hst hm h hs hp
  | trilu => obtain ⟨p, hp⟩ := ht' _ rfl; exact works_trilu hst hm h hs hp
  | dropout => exact works_dropout hm h hs
  | depthToSpace => obtain ⟨p, hp⟩ := ht' _ rfl; exact works_depthToSpace hm h hs hp
  | spaceToDepth => obtain ⟨p, hp⟩ := ht' _ rfl; exact works_spaceToDepth hm h hs hp
  | expand => obtain ⟨p, hp⟩ := ht' _ rfl; exact works_expand hst hm h hs hp
  | mean => obtain ⟨p, hp⟩ := ht' _ rfl; exact works_mean hm h hs hp
  | maximum =>
    obtain ⟨p, hp⟩ := ht' _ rfl
    obtain ⟨X, Y, Z, hx, hZ, hy⟩ := hm
    exact works_pair (fun hi => by simp [nodeCode, Infer.inTy, hi]) hx hZ hy h hs hp
  | minimum =>
    obtain ⟨p, hp⟩ := ht' _ rfl
    obtain ⟨X, Y, Z, hx, hZ, hy⟩ := hm
    exact works_pair (fun hi => by simp [nodeCode, Infer.inTy, hi]) hx hZ hy h hs hp
  | argMax =>
    obtain ⟨p, hp⟩ := ht' _ rfl
    obtain ⟨X, axis, keep, a, Z, hx, hax, hk, hidx, hl, hZ, hy⟩ := hm
    exact works_arg lt_irrefl (fun _ _ _ => lt_trans) lt_trichotomy rfl hx hax hk hidx hl hZ hy h hs hp
  | argMin =>
    obtain ⟨p, hp⟩ := ht' _ rfl
    obtain ⟨X, axis, keep, a, Z, hx, hax, hk, hidx, hl, hZ, hy⟩ := hm
    exact works_arg (lt := (· > ·)) lt_irrefl (fun _ _ _ h1 h2 => lt_trans h2 h1) (fun a b => (lt_trichotomy b a).imp_right fun e => e.imp_left Eq.symm) rfl hx hax hk hidx hl hZ hy h hs hp
  | slice => exact works_slice hst hm h hs
  | prelu => exact works_prelu hm h hs
  | groupNorm => exact works_groupNorm hm h hs
  | where_ => obtain ⟨p, hp⟩ := ht' _ rfl; exact works_where hm h hs hp
  | cast => obtain ⟨p, hp⟩ := ht' _ rfl; exact works_cast hm h hs hp
  | split => obtain ⟨p, hp⟩ := ht' _ rfl; exact works_split hst hm h hs hp
  | gatherElements => obtain ⟨p, hp⟩ := ht' _ rfl; exact works_gatherElements hm h hs hp
  | hardmax => exact works_hardmax hm h hs
  | topK => obtain ⟨p, hp⟩ := ht' _ rfl; exact works_topK hst hm h hs hp
  | scatterND => obtain ⟨p, hp⟩ := ht' _ rfl; exact works_scatterND hm h hs hp
  | cumSum => obtain ⟨p, hp⟩ := ht' _ rfl; exact works_cumSum hst hm h hs hp
  | scatterElements => obtain ⟨p, hp⟩ := ht' _ rfl; exact works_scatterElements hm h hs hp
  | gatherND => obtain ⟨p, hp⟩ := ht' _ rfl; exact works_gatherND hm h hs hp
  | nonZero => obtain ⟨p, hp⟩ := ht' _ rfl; exact works_nonZero hm h hs hp
  | range => obtain ⟨p, hp⟩ := ht' _ rfl; exact works_range hst hm h hs hp
  | oneHot => obtain ⟨p, hp⟩ := ht' _ rfl; exact works_oneHot hst hm h hs
  | mod => obtain ⟨p, hp⟩ := ht' _ rfl; exact works_mod hm h hs hp
  | identity => obtain ⟨p, hp⟩ := ht' _ rfl; exact works_identity hm h hs hp
  | eyeLike => obtain ⟨p, hp⟩ := ht' _ rfl; exact works_eyeLike hm h hs hp
  | bitwise op => obtain ⟨p, hp⟩ := ht' _ rfl; exact works_bitwise hm h hs hp
  | bitwiseNot => obtain ⟨p, hp⟩ := ht' _ rfl; exact works_bitwiseNot hm h hs hp
  | matMulInteger => obtain ⟨p, hp⟩ := ht' _ rfl; exact works_matMulInteger hm h hs hp
  | constantOfShape => exact works_constantOfShape hst hm h hs
  | logSumExp => obtain ⟨p, hp⟩ := ht' _ rfl; exact works_logSumExp hst hm h hs hp
  | convTranspose d => exact works_convTranspose (axesOk_of hop) hm h hs
  | softmax =>
    obtain ⟨X, axis, a, hx, hax, hk, hy⟩ := hm
    exact works_along (fun b hb => by simp only [nodeCode, hb, Option.map_some]) h hx hax hk hy hs.1 hs.2
  | logSoftmax =>
    obtain ⟨X, axis, a, hx, hax, hk, hy⟩ := hm
    exact works_along (fun b hb => by simp only [nodeCode, hb, Option.map_some]) h hx hax hk hy hs.1 hs.2


/-! ### Examples -/

namespace DataExample

open NetExample (store)

/-- A vector of integers. -/
def vec (x : String) : Arg OVal := ⟨x, .tensor ⟨.i64, 1, none⟩, .dynamic⟩

/-- An embedded list of integers. -/
def list (l : List Int) : Arg OVal := ⟨"", .tensor ⟨.i64, 1, some [some l.length]⟩, .static (.int ⟨[l.length], l, by simp [prodShape]⟩)⟩

/-- The second and third element. -/
def cut : Node OVal := ⟨.slice, "slice1", [vec "x", list [1], list [3]], [vec "y"], []⟩

/-- A vector twice. -/
def twice : Node OVal := ⟨.other "Tile", "tile1", [vec "y", list [2]], [vec "z"], []⟩

theorem cut_bounds {v : OVal} {S E A T : List Int}
    (h : SliceBounds cut.attrs [some v, some (.int ⟨[1], [1], rfl⟩), some (.int ⟨[1], [3], rfl⟩)] v S E A T) :
    S = [1] ∧ E = [3] ∧ A = [0] ∧ T = [1] := by
  rcases h with ⟨h, -⟩ | ⟨-, -, -, hS, hE, hA, hT⟩
  · cases h
  · rcases hS with ⟨h, -⟩ | ⟨t, h, -, rfl⟩
    · cases h
    cases h
    rcases hE with ⟨h, -⟩ | ⟨t, h, -, rfl⟩
    · cases h
    cases h
    rcases hA with ⟨-, rfl⟩ | ⟨t, h, -⟩
    · rcases hT with ⟨-, rfl⟩ | ⟨t, h, -⟩
      · exact ⟨rfl, rfl, rfl, rfl⟩
      · cases h
    · cases h

/-- The hypotheses are met: elements of a vector are cut out, and a vector is repeated. -/
example (erf : ℝ → ℝ) (pick : Nat → Int → Option Nat) :
    Onnx.Meaning erf 17 .slice cut.attrs [some (.int ⟨[4], [5, 6, 7, 8], rfl⟩), some (.int ⟨[1], [1], rfl⟩), some (.int ⟨[1], [3], rfl⟩)]
        [.int ⟨[2], [6, 7], rfl⟩] ∧
      Supported pick store 17 cut [some (.int ⟨[4], [5, 6, 7, 8], rfl⟩), some (.int ⟨[1], [1], rfl⟩), some (.int ⟨[1], [3], rfl⟩)] .slice ∧
      Onnx.Meaning erf 17 .tile twice.attrs [some (.int ⟨[2], [6, 7], rfl⟩), some (.int ⟨[1], [2], rfl⟩)]
        [.int ⟨[4], [6, 7, 6, 7], rfl⟩] ∧
      Supported pick store 17 twice [some (.int ⟨[2], [6, 7], rfl⟩), some (.int ⟨[1], [2], rfl⟩)] .tile := by
  refine ⟨⟨_, .int ⟨[2], [6, 7], rfl⟩, [1], [3], [0], [1], .inr ⟨rfl, by simp, by simp, .inr ⟨_, rfl, rfl, rfl⟩, .inr ⟨_, rfl, rfl, rfl⟩, .inl ⟨rfl, rfl⟩, .inl ⟨rfl, rfl⟩⟩,
      rfl, rfl, rfl, ?cut, rfl⟩, ⟨fun a ha => ?_, fun o ho => ?_, fun k a ha => ?_, fun v S E A T hb => ?_⟩,
    ⟨_, _, .int ⟨[4], [6, 7, 6, 7], rfl⟩, rfl, rfl, ?tile, rfl⟩, fun a ha => ?_, fun s hs => ?_⟩
  case cut =>
    show sliceT _ _ = _
    decide +kernel
  case tile =>
    show TileT _ _ _
    refine ⟨rfl, by decide, rfl, fun k hk => ?_, fun i hi => ?_⟩
    · obtain rfl : k = 0 := by simpa using hk
      rfl
    · match i, hi with
      | [i], hi =>
        simp only [InRange, and_true] at hi
        match i, hi with
        | 0, _ => rfl
        | 1, _ => rfl
        | 2, _ => rfl
        | 3, _ => rfl
      | [], hi => simp [InRange] at hi
      | _ :: _ :: _, hi => simp [InRange] at hi
  · cases ha; exact ⟨.inl rfl, _, rfl⟩
  · simp only [cut, List.mem_cons, List.not_mem_nil, or_false] at ho
    exact ⟨_, by rw [ho]; rfl⟩
  · match k with
    | 0 => cases ha; exact ⟨_, rfl⟩
    | 1 => cases ha; exact ⟨_, rfl⟩
    | k + 2 => simp [cut] at ha
  · obtain rfl : OVal.int ⟨[4], [5, 6, 7, 8], rfl⟩ = v := by
      rcases hb with ⟨h, -⟩ | ⟨h, -⟩ <;> cases h
      rfl
    obtain ⟨rfl, rfl, rfl, rfl⟩ := cut_bounds hb
    exact ⟨by simp, by simp, by simp, by simp [OVal.shape]⟩
  · cases ha; exact ⟨.inl rfl, _, rfl⟩
  · cases hs; exact ⟨_, rfl, rfl⟩

/-- The first element and the rest. -/
def parts : Node OVal := ⟨.other "Split", "split1", [vec "x", list [1, 2]], [vec "y", vec "z"], []⟩

/-- Numbers as truth values. -/
def truth : Node OVal := ⟨.other "Cast", "cast1", [vec "x"], [⟨"b", .tensor ⟨.bool, 1, none⟩, .dynamic⟩], [("to", .i64 9)]⟩

/-- The hypotheses are met: a vector is split into two, and its elements become truth values. -/
example (erf : ℝ → ℝ) (pick : Nat → Int → Option Nat) :
    Onnx.Meaning erf 17 .split parts.attrs [some (.int ⟨[3], [5, 0, 7], rfl⟩), some (.int ⟨[2], [1, 2], rfl⟩)]
        [.int ⟨[1], [5], rfl⟩, .int ⟨[2], [0, 7], rfl⟩] ∧
      Supported pick store 17 parts [some (.int ⟨[3], [5, 0, 7], rfl⟩), some (.int ⟨[2], [1, 2], rfl⟩)] .split ∧
      Onnx.Meaning erf 17 .cast truth.attrs [some (.int ⟨[3], [5, 0, 7], rfl⟩)] [.bool ⟨[3], [true, false, true], rfl⟩] ∧
      Supported pick store 17 truth [some (.int ⟨[3], [5, 0, 7], rfl⟩)] .cast := by
  refine ⟨⟨.int ⟨[3], [5, 0, 7], rfl⟩, none, 0, [1, 2], rfl, by decide +kernel, .inl ⟨_, rfl, rfl, rfl, rfl⟩,
      [⟨[1], [5], rfl⟩, ⟨[2], [0, 7], rfl⟩], rfl, by decide, rfl, rfl, fun k d Z hk hZ => ?_⟩,
    ⟨fun a ha => ?_, fun a v ha hv => ?_, fun s hs => ?_, fun k hk => ?_, by simp [parts], fun v a sizes hv hs => ?_⟩,
    ⟨_, _, 9, .bool, rfl, rfl, rfl, rfl, ?_⟩, fun a ha => ?_⟩
  · match k with
    | 0 =>
      cases hk; cases hZ
      refine ⟨rfl, fun i hi => ?_⟩
      match i, hi with
      | [i], hi =>
        simp only [InRange, and_true] at hi
        match i, hi with
        | 0, _ => rfl
      | [], hi => simp [InRange] at hi
      | _ :: _ :: _, hi => simp [InRange] at hi
    | 1 =>
      cases hk; cases hZ
      refine ⟨rfl, fun i hi => ?_⟩
      match i, hi with
      | [i], hi =>
        simp only [InRange, and_true] at hi
        match i, hi with
        | 0, _ => rfl
        | 1, _ => rfl
      | [], hi => simp [InRange] at hi
      | _ :: _ :: _, hi => simp [InRange] at hi
    | k + 2 => simp at hk
  · cases ha; exact ⟨.inl rfl, _, rfl⟩
  · cases ha; cases hv; simp [vec, ArgType.Admits, OVal.shape]
  · cases hs; exact ⟨⟨_, rfl, rfl⟩, _, rfl, rfl, rfl⟩
  · cases hk
  · rcases hs with ⟨t, e, -, ed, -⟩ | ⟨e, -⟩ | ⟨e, -⟩
    · cases e
      intro d hd
      have : (d : Int) ∈ [(1 : Int), 2] := by
        rw [show ([(1 : Int), 2] : List Int) = sizes.map Int.ofNat from ed]
        exact List.mem_map.2 ⟨d, hd, rfl⟩
      simp at this
      omega
    · cases e
    · cases e
  · simp [toBools, Tensor.map]
  · simp only [truth, List.mem_cons, List.not_mem_nil, or_false] at ha
    subst ha
    exact ⟨.inl rfl, fun s d h => by cases h⟩

end DataExample

end OnnxIR
