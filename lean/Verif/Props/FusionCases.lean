import Verif.Props.Fusion
import Verif.Props.Linear
import Verif.Props.PipelineCases

/-!
# C13: a meaning of the operators that satisfies the laws, files that fuse, and files that fuse wrongly
-/

namespace OnnxIR

/-! ## The laws, for tensors over any arithmetic -/

section

variable {α : Type} [Inhabited α] (dot : List α → List α → α) (mul add : α → α → α) (val : Nat → α)

/-- A scale factor; absent means 1. -/
def scaleAttr {V : Type} (attrs : List (String × AttrVal V)) (key : String) : α :=
  match attrGet attrs key with
  | some (.f32 b) => val b
  | _ => val oneBits

/-- A flag: absent or 0 means no. -/
def flagAttr {V : Type} (attrs : List (String × AttrVal V)) (key : String) : Bool :=
  match attrGet attrs key with
  | some (.i64 v) => v != 0
  | _ => false

/-- ONNX's `MatMul`, `Add` and `Gemm`, and the layer the generated code builds for `Linear`. `MatMul` has no
attributes. -/
def matSem {V : Type} (ty : NodeType) (attrs : List (String × AttrVal V)) (xs : List (Option (Tensor α))) :
    Option (Tensor α) :=
  match ty, xs with
  | .matMul, [some x, some w] =>
    if attrs.length = 0 ∧ (Onnx.matmul x.shape w.shape).isSome ∧ ¬ (x.shape.length = 1 ∧ w.shape.length = 1) then
      Gen.matmul dot x w
    else none
  | .add, [some x, some y] => Tensor.zipBcast add x y
  | .gemm, [some a, some b] => Onnx.gemmVal dot mul add (scaleAttr val attrs "alpha") (scaleAttr val attrs "beta")
      (flagAttr attrs "transA") (flagAttr attrs "transB") a b none
  | .gemm, [some a, some b, some c] => Onnx.gemmVal dot mul add (scaleAttr val attrs "alpha")
      (scaleAttr val attrs "beta") (flagAttr attrs "transA") (flagAttr attrs "transB") a b (some c)
  | .linear, [some x, some w] => Gen.linear dot add (flagAttr attrs "transpose_weight") x w none
  | .linear, [some x, some w, some b] => Gen.linear dot add (flagAttr attrs "transpose_weight") x w (some b)
  | _, _ => none

variable {dot mul add val}

/-- `MatMul` is ONNX's. -/
theorem matSem_matMul {V : Type} {attrs : List (String × AttrVal V)} {x w z : Tensor α}
    (h : matSem dot mul add val .matMul attrs [some x, some w] = some z) : attrs = [] ∧ Onnx.MatMul dot x w z := by
  simp only [matSem] at h
  split at h
  · next hc =>
    obtain ⟨z', h1, h2⟩ := C30_matmul_value_partial (dot := dot) hc.2.1 hc.2.2
    rw [h] at h1
    cases h1
    exact ⟨List.eq_nil_of_length_eq_zero hc.1, h2⟩
  · cases h

theorem zipBcast_swap (hadd : ∀ a b, add a b = add b a) (x y : Tensor α) :
    Tensor.zipBcast add x y = Tensor.zipBcast add y x := by
  unfold Tensor.zipBcast
  rw [bcast_comm]
  congr 1
  funext s
  congr 1
  funext i
  exact hadd _ _

theorem linearAttrs_flag {V : Type} (attrs : List (String × AttrVal V)) :
    flagAttr (linearAttrs attrs) "transpose_weight" = true := by
  have : attrGet (linearAttrs attrs) "transpose_weight" = some (.i64 1) := by
    unfold linearAttrs
    induction attrs with
    | nil => rfl
    | cons p ps ih =>
      rw [List.filter_cons]
      split
      · next hc =>
        simp only [decide_eq_true_eq] at hc
        rw [List.cons_append]
        simp only [attrGet, mapGet, if_neg hc.2.2.2.2] at ih ⊢
        exact ih
      · exact ih
  simp [flagAttr, this]

/-- A plain `Gemm` has scale factors 1 and transposes only the weight. -/
theorem plainGemm_attrs {V : Type} {attrs : List (String × AttrVal V)} (h : PlainGemm oneBits attrs)
    (ht : NoTransA attrs) : scaleAttr val attrs "alpha" = val oneBits ∧ scaleAttr val attrs "beta" = val oneBits ∧
      flagAttr attrs "transA" = false ∧ flagAttr attrs "transB" = true := by
  obtain ⟨h1, h2, h3, -⟩ := h
  simp only [scaleAttr, flagAttr, h1, h2, h3]
  refine ⟨trivial, trivial, ?_, by decide⟩
  rcases ht with ht | ht <;> rw [ht] <;> rfl

/-- **C13**: the laws hold of ONNX's operators and the generated layer, whatever the arithmetic, as long as addition
commutes and 1 is the unit of multiplication. -/
theorem C13_linear_law {V : Type} (view : V → Option (Tensor α)) (wrap : Tensor α → V)
    (hadd : ∀ a b, add a b = add b a) (hone : ∀ v, mul (val oneBits) v = v) (hwrap : ∀ t, view (wrap t) = some t)
    {S : OpSem V} (hS : ∀ ty attrs xs, ty = .matMul ∨ ty = .add ∨ ty = .gemm ∨ ty = .linear →
      S ty attrs xs = (matSem dot mul add val ty attrs (xs.map fun x => x.bind view)).map fun t => [wrap t]) :
    LinearLaw S (fun v => (view v).any fun t => t.shape.length == 2)
      (fun w b => ∃ tw tb k n, view w = some tw ∧ view b = some tb ∧ tw.shape = [k, n] ∧ tb.shape = [n])
      (fun w c => ∃ tw tc n, view w = some tw ∧ view c = some tc ∧ tw.shape.getD 0 0 = n ∧ tc.shape = [n])
      oneBits linearAttrs := by
  have h1 := fun attrs xs => hS .matMul attrs xs (.inl rfl)
  have h2 := fun attrs xs => hS .add attrs xs (.inr (.inl rfl))
  have h3 := fun attrs xs => hS .gemm attrs xs (.inr (.inr (.inl rfl)))
  have h4 := fun attrs xs => hS .linear attrs xs (.inr (.inr (.inr rfl)))
  clear hS
  have hprod : ∀ attrs x w ys, S .matMul attrs [x, some w] = some ys → ∃ tx tw z, x.bind view = some tx ∧
      view w = some tw ∧ ys = [wrap z] ∧ attrs = [] ∧ Onnx.MatMul dot tx tw z := by
    intro attrs x w ys h
    rw [h1] at h
    simp only [List.map_cons, List.map_nil, Option.bind_some, Option.map_eq_some_iff] at h
    obtain ⟨z, hz, rfl⟩ := h
    cases hx : x.bind view with
    | none => rw [hx] at hz; simp [matSem] at hz
    | some tx =>
      cases hw : view w with
      | none => rw [hx, hw] at hz; simp [matSem] at hz
      | some tw =>
        rw [hx, hw] at hz
        obtain ⟨ha, hm⟩ := matSem_matMul hz
        exact ⟨tx, tw, z, rfl, rfl, rfl, ha, hm⟩
  have hrank : ∀ {w tw}, view w = some tw → ((view w).any fun t => t.shape.length == 2) = true →
      tw.shape.length = 2 := by
    intro w tw h1 h2
    rw [h1] at h2
    simpa using h2
  refine ⟨?_, ?_, ?_, ?_, ?_, ?_, ?_⟩
  · intro attrs x w ys hm h
    obtain ⟨tx, tw, z, hx, hw, rfl, rfl, hmm⟩ := hprod _ _ _ _ h
    have := C13_linear_is_product (add := add) (hrank hw hm) hmm
    rw [h4]
    simp only [List.map_cons, List.map_nil, Option.bind_some, hx, hw, matSem, flagAttr, attrGet, mapGet, this, Option.map_some]
  · intro attrs attrs' x w b p ys hm hf h hsum
    obtain ⟨tx, tw, z, hx, hw, hp, rfl, hmm⟩ := hprod _ _ _ _ h
    simp only [List.cons.injEq, and_true] at hp
    subst hp
    obtain ⟨tw', tb, k, n, hw', hb, hws, hbs⟩ := hf
    rw [hw] at hw'
    cases hw'
    have hz : ∃ u, Tensor.zipBcast add z tb = some u ∧ ys = [wrap u] := by
      rcases hsum with hsum | hsum <;> rw [h2] at hsum <;>
        simp only [List.map_cons, List.map_nil, Option.bind_some, hwrap, hb, matSem, Option.map_eq_some_iff] at hsum
      · obtain ⟨u, hu, rfl⟩ := hsum; exact ⟨u, hu, rfl⟩
      · obtain ⟨u, hu, rfl⟩ := hsum; exact ⟨u, by rw [zipBcast_swap hadd]; exact hu, rfl⟩
    obtain ⟨u, hu, rfl⟩ := hz
    have := C13_linear_is_biased_product hws hbs hmm hu
    rw [h4]
    simp only [List.map_cons, List.map_nil, Option.bind_some, hx, hw, hb, matSem, flagAttr, attrGet, mapGet, this, Option.map_some]
  · intro attrs x w ys hpg hta h
    obtain ⟨ha, hb, hA, hB⟩ := plainGemm_attrs (val := val) hpg hta
    rw [h3] at h
    rw [h4]
    simp only [List.map_cons, List.map_nil, Option.map_eq_some_iff] at h ⊢
    obtain ⟨z, hz, rfl⟩ := h
    refine ⟨z, ?_, rfl⟩
    cases hx : x.bind view with
    | none => rw [hx] at hz; simp [matSem] at hz
    | some tx =>
      cases hw : w.bind view with
      | none => rw [hx, hw] at hz; simp [matSem] at hz
      | some tw =>
        rw [hx, hw] at hz
        simp only [matSem, ha, hb, hA, hB] at hz
        simp only [matSem, linearAttrs_flag]
        exact C13_linear_is_gemm hone (by simp) hz
  · intro attrs x w c ys hpg hta hf h
    obtain ⟨ha, hb, hA, hB⟩ := plainGemm_attrs (val := val) hpg hta
    obtain ⟨tw, tc, n, hw, hc, hws, hcs⟩ := hf
    rw [h3] at h
    rw [h4]
    simp only [List.map_cons, List.map_nil, Option.bind_some, hw, hc, Option.map_eq_some_iff] at h ⊢
    obtain ⟨z, hz, rfl⟩ := h
    refine ⟨z, ?_, rfl⟩
    cases hx : x.bind view with
    | none => rw [hx] at hz; simp [matSem] at hz
    | some tx =>
      rw [hx] at hz
      simp only [matSem, ha, hb, hA, hB] at hz
      simp only [matSem, linearAttrs_flag]
      refine C13_linear_is_gemm hone ?_ hz
      intro v hv
      cases hv
      rw [hws]; exact hcs
  · intro attrs xs ys h
    rw [h1] at h
    obtain ⟨z, hz, rfl⟩ := Option.map_eq_some_iff.1 h
    refine ⟨?_, rfl⟩
    generalize hxs : xs.map (fun x => x.bind view) = us at hz
    have hl : us.length = xs.length := by rw [← hxs]; simp
    unfold matSem at hz
    split at hz <;> simp_all
  · intro attrs xs ys h
    rw [h2] at h
    obtain ⟨z, hz, rfl⟩ := Option.map_eq_some_iff.1 h
    rfl
  · intro attrs xs ys h
    rw [h3] at h
    obtain ⟨z, hz, rfl⟩ := Option.map_eq_some_iff.1 h
    rfl

end

/-! ## Integers -/

/-- The tensor of a 64-bit integer constant. -/
def i64View : NVal → Option (Tensor Int)
  | .int .i64 t => some t
  | _ => none

/-- ∑ of products. -/
def intDot (u v : List Int) : Int := ((u.zip v).map fun p => p.1 * p.2).sum

/-- The numbers 1.0 and 2.0; everything else is read as 0. -/
def bitsInt (b : Nat) : Int := if b = oneBits then 1 else if b = 0x40000000 then 2 else 0

/-- `Constant`, `Relu`, `Add`, `MatMul`, `Gemm` and `Linear`. -/
def linSem : OpSem NVal := fun ty attrs xs =>
  if ty = .matMul ∨ ty = .add ∨ ty = .gemm ∨ ty = .linear then
    (matSem intDot (· * ·) (· + ·) bitsInt ty attrs (xs.map fun x => x.bind i64View)).map fun t => [.int .i64 t]
  else if ty = .constant ∨ ty = .relu then numSem "" ty attrs xs
  else none

/-- Rank 2. -/
def isMatrix (v : NVal) : Bool := (i64View v).any fun t => t.shape.length == 2

/-- A vector with one entry for each column. -/
def fitsCols (w b : NVal) : Prop :=
  ∃ tw tb k n, i64View w = some tw ∧ i64View b = some tb ∧ tw.shape = [k, n] ∧ tb.shape = [n]

/-- A vector with one entry for each row. -/
def fitsRows (w c : NVal) : Prop :=
  ∃ tw tc n, i64View w = some tw ∧ i64View c = some tc ∧ tw.shape.getD 0 0 = n ∧ tc.shape = [n]

theorem linSem_law : LinearLaw linSem isMatrix fitsCols fitsRows oneBits linearAttrs :=
  C13_linear_law (dot := intDot) (mul := (· * ·)) (add := (· + ·)) (val := bitsInt) i64View (.int .i64) Int.add_comm
    (fun v => by simp [bitsInt]) (fun _ => rfl) (fun ty attrs xs h => by simp only [linSem, if_pos h])

theorem linSem_constantOps : ConstantOps linSem where
  embedded := numSem_constantOps.embedded
  moved := numSem_constantOps.moved

theorem linSem_constantLaw : ConstantLaw fun _ => linSem where
  returns := fun nm attrs v ys h => numSem_constantLaw.returns nm attrs v ys h
  single := fun nm attrs xs ys h => numSem_constantLaw.single nm attrs xs ys h

/-! ## Checking `FusionOk` of a given file -/

/-- See `fitsCols`. -/
def fitsColsB (w b : NVal) : Bool :=
  match i64View w, i64View b with
  | some tw, some tb => (match tw.shape with | [_, n] => tb.shape == [n] | _ => false)
  | _, _ => false

/-- See `fitsRows`. -/
def fitsRowsB (w c : NVal) : Bool :=
  match i64View w, i64View c with
  | some tw, some tc => tc.shape == [tw.shape.getD 0 0]
  | _, _ => false

theorem fitsColsB_sound {w b : NVal} (h : fitsColsB w b = true) : fitsCols w b := by
  unfold fitsColsB at h
  split at h
  · next tw tb h1 h2 =>
    split at h
    · next k n h3 => exact ⟨tw, tb, k, n, h1, h2, h3, by simpa using h⟩
    · cases h
  · cases h

theorem fitsRowsB_sound {w c : NVal} (h : fitsRowsB w c = true) : fitsRows w c := by
  unfold fitsRowsB at h
  split at h
  · next tw tc h1 h2 => exact ⟨tw, tc, _, h1, h2, rfl, by simpa using h⟩
  · cases h

/-- What a check of two values says after the nodes `pre`, if they are known. -/
def pairB (e : Env NVal) (g : GraphProto NVal) (pre : List (NodeProto NVal)) (f : NVal → NVal → Bool)
    (x y : String) : Bool :=
  match onnxNodes linSem (bindInits g e) pre with
  | none => true
  | some e1 =>
    match e1 x, e1 y with
    | some u, some v => f u v
    | _, _ => true

theorem pairB_sound {e : Env NVal} {g : GraphProto NVal} {pre : List (NodeProto NVal)} {f : NVal → NVal → Bool}
    {x y : String} (h : pairB e g pre f x y = true) : ∀ e1 u v, onnxNodes linSem (bindInits g e) pre = some e1 →
      e1 x = some u → e1 y = some v → f u v = true := by
  intro e1 u v h1 h2 h3
  simp only [pairB, h1, h2, h3] at h
  exact h

/-- The constants an `Add` of `y` may add. -/
def otherInputs (y : String) : List String → List String
  | [l, r] => (if l = y then [r] else []) ++ if r = y then [l] else []
  | _ => []

/-- The check at one node. -/
def fusionStepB (e : Env NVal) (g : GraphProto NVal) (pre : List (NodeProto NVal)) (np : NodeProto NVal)
    (rest : List (NodeProto NVal)) : Bool :=
  (np.ty != .gemm || ((match attrGet np.attrs "transA" with
      | none => true
      | some (.i64 0) => true
      | _ => false) &&
    match np.inputs with
    | [_, _] => true
    | [_, w, c] => w != "" && c != "" && pairB e g pre fitsRowsB w c
    | _ => false)) &&
  match np.ty, np.inputs, np.outputs, rest with
  | .matMul, [_, w], [y], ad :: rest =>
    ad.ty != .add || (otherInputs y ad.inputs).all fun b =>
      b != y && !g.outputs.contains y && (rest.all fun n => !n.inputs.contains y) && pairB e g pre fitsColsB w b
  | _, _, _, _ => true

/-- The check at all nodes. -/
def fusionB (e : Env NVal) (g : GraphProto NVal) : List (NodeProto NVal) → List (NodeProto NVal) → Bool
  | _, [] => true
  | pre, np :: rest => fusionStepB e g pre np rest && fusionB e g (pre ++ [np]) rest

theorem fusionB_step {e : Env NVal} {g : GraphProto NVal} {np : NodeProto NVal} {rest : List (NodeProto NVal)} :
    ∀ {pre pre0 : List (NodeProto NVal)}, fusionB e g pre0 (pre ++ np :: rest) = true →
      fusionStepB e g (pre0 ++ pre) np rest = true
  | [], pre0, h => by
    simp only [List.nil_append, fusionB, Bool.and_eq_true] at h
    simpa using h.1
  | m :: pre, pre0, h => by
    simp only [List.cons_append, fusionB, Bool.and_eq_true] at h
    simpa using fusionB_step h.2

theorem fusionOk_of_check {e : Env NVal} {g : GraphProto NVal} (h : fusionB e g [] g.nodes = true) :
    FusionOk linSem isMatrix fitsCols fitsRows oneBits e g where
  bias := by
    intro pre np ad rest w y b hn hb _ _ _
    rw [hn] at h
    have h1 := fusionB_step h
    simp only [List.nil_append, fusionStepB, Bool.and_eq_true] at h1
    obtain ⟨x, hi⟩ := hb.product
    have h2 := h1.2
    rw [hb.matMul, hi, hb.result] at h2
    simp only [hb.add, bne_self_eq_false, Bool.false_or, List.all_eq_true] at h2
    have hm : b ∈ otherInputs y ad.inputs := by
      rcases hb.reads with hr | hr <;> rw [hr] <;> simp [otherInputs]
    have h3 := h2 b hm
    simp only [Bool.and_eq_true, bne_iff_ne, ne_eq, Bool.not_eq_true', List.contains_iff_mem, List.all_eq_true] at h3
    obtain ⟨⟨⟨h4, h5⟩, h6⟩, h7⟩ := h3
    refine ⟨h4, by simpa using h5, fun n hn => by simpa using h6 n hn, ?_⟩
    intro e1 u v hr hu hv
    exact fitsColsB_sound (pairB_sound h7 e1 u v hr hu hv)
  gemm := by
    intro pre np rest hn ht _
    rw [hn] at h
    have h1 := fusionB_step h
    simp only [List.nil_append, fusionStepB, Bool.and_eq_true, ht, bne_self_eq_false, Bool.false_or] at h1
    obtain ⟨⟨h2, h3⟩, -⟩ := h1
    refine ⟨?_, ?_⟩
    · unfold NoTransA
      split at h2
      · next h0 => exact .inl h0
      · next h0 => exact .inr h0
      · cases h2
    · split at h3
      · next x w hi => exact .inl ⟨x, w, hi⟩
      · next x w c hi =>
        simp only [Bool.and_eq_true, bne_iff_ne, ne_eq] at h3
        exact .inr ⟨x, w, c, hi, h3.1.1, h3.1.2, fun e1 u v hr hu hv => fitsRowsB_sound (pairB_sound h3.2 e1 u v hr hu hv)⟩
      · cases h3

/-! ## Files -/

/-- `z = b + x w`, `y = Gemm(z, v, c)` with `alpha = beta = 1` and `transB = 1`. -/
def layersGraph : GraphProto NVal :=
  { inputs := ["x"], outputs := ["y"]
    inits := [("w", i64T [3, 2] [1, 0, 0, 1, 1, 1]), ("b", i64T [2] [10, 20]), ("v", i64T [3, 2] [1, 0, 0, 1, 1, 1]),
      ("c", i64T [3] [1, 2, 3])]
    nodes :=
      [{ ty := .matMul, inputs := ["x", "w"], outputs := ["p"], attrs := [] },
       { ty := .add, inputs := ["b", "p"], outputs := ["z"], attrs := [] },
       { ty := .gemm, inputs := ["z", "v", "c"], outputs := ["y"],
         attrs := [("alpha", .f32 oneBits), ("beta", .f32 oneBits), ("transB", .i64 1)] }] }

/-- The input. -/
def layersIn : Env NVal := fun x => if x = "x" then some (i64T [1, 3] [1, 2, 3]) else none

theorem layersGraph_ok : FileOk layersGraph where
  names := ⟨by decide +kernel, by decide +kernel, by decide +kernel, by decide +kernel, by decide +kernel,
    by decide +kernel, by decide +kernel, by decide +kernel⟩
  nodes := ⟨by decide +kernel, by decide +kernel⟩
  notGenerated := by
    have h : ∀ x ∈ allNames layersGraph, 'u' ∉ x.toList ∧ 'u' ∉ (sanitizeName x).toList := by decide +kernel
    exact fun x hx => ⟨fun hg => (h x hx).1 (generated_u hg), fun hg => (h x hx).2 (generated_u hg)⟩

theorem layersIn_named {y : String} {v : NVal} (h : layersIn y = some v) : y = "x" := by
  simp only [layersIn] at h
  split at h
  · next hy => exact hy
  · cases h

/-- All hypotheses of `C13_fusion_preserves_meaning_partial` hold of this file: its three nodes become two layers that
return what the file returns. -/
example : ∃ nodes ins outs, importFused isMatrix [] layersGraph = some (nodes, ins, outs) ∧
    nodes.map Node.ty = [.constant, .constant, .constant, .constant, .linear, .linear] ∧
    evalGraph (fun _ => linSem) layersIn nodes outs = some [some (i64T [1, 3] [15, 27, 42])] := by
  have hrun : onnxGraph linSem layersIn layersGraph = some [some (i64T [1, 3] [15, 27, 42])] := by decide +kernel
  obtain ⟨nodes, ins, outs, h1, h2, -⟩ := C13_fusion_preserves_meaning_partial linSem_constantOps linSem_constantLaw
    linSem_law layersGraph_ok.names layersGraph_ok.nodes (fun x hx => (layersGraph_ok.notGenerated x hx).2)
    (fusionOk_of_check (e := layersIn) (by decide +kernel)) (f0 := layersIn)
    (fun y v hv => ⟨"x", by decide, by rw [layersIn_named hv]; decide +kernel⟩) (by decide +kernel)
    (fun x v hv => by rw [layersIn_named hv]; decide) hrun
  refine ⟨nodes, ins, outs, h1, ?_, h2⟩
  have hty : (importFused isMatrix [] layersGraph).map (fun m => m.1.map Node.ty) =
      some [.constant, .constant, .constant, .constant, .linear, .linear] := by decide +kernel
  rw [h1] at hty
  simpa using hty

/-- An importer with fusion and without simplification. Types play no part here; all are the same. -/
def layersImporter : Importer Int Int Int Unit :=
  { fileImporter with matrix := isMatrix, simplify := false, declared := fun _ => some (i64Ty [1, 3]), noop := fun _ => false }

/-- All hypotheses of `C52_import_preserves_meaning_partial` hold of this file, which fuses. -/
example : ∃ nodes ins outs, importModel layersImporter layersGraph = some (nodes, ins, outs) ∧
    evalGraph (fun _ => linSem) layersIn nodes outs = some [some (i64T [1, 3] [15, 27, 42])] := by
  have hrun : onnxGraph linSem layersIn layersGraph = some [some (i64T [1, 3] [15, 27, 42])] := by decide +kernel
  obtain ⟨⟨nodes, ins, outs⟩, hm⟩ : ∃ m, importModel layersImporter layersGraph = some m := by
    have : (importModel layersImporter layersGraph).isSome = true := by decide +kernel
    exact Option.isSome_iff_exists.1 this
  refine ⟨nodes, ins, outs, hm, ?_⟩
  refine C52_import_preserves_meaning_partial (fs := intFloatSpec) (ops := nAttn) (fits := nFits)
    linSem_constantOps linSem_constantLaw
    ⟨fun m p hp => (mem_mapEntries (k := p.1) (v := p.2)).1 hp, fun m k v => mem_mapEntries⟩ (fun h => by cases h)
    linSem_law layersGraph_ok (fusionOk_of_check (e := layersIn) (by decide +kernel)) (by decide +kernel)
    (fun x v hv => by rw [layersIn_named hv]; decide +kernel)
    (fun y v hv => ⟨"x", by decide +kernel, by rw [layersIn_named hv]; decide +kernel⟩) ?_ hm hrun
  intro ins st s _
  exact ⟨fun n _ h => (by cases h), fun h => (by cases h), fun h => (by cases h)⟩

/-! ## Files that fuse wrongly -/

/-- Run the imported graph. -/
def runFused (g : GraphProto NVal) (e : Env NVal) : Option (Option (List (Option NVal))) :=
  (importFused isMatrix [] g).map fun m => evalGraph (fun _ => linSem) e m.1 m.2.2

/-- The product `p` is also read by `Relu`. -/
def sharedGraph : GraphProto NVal :=
  { inputs := ["x"], outputs := ["z", "r"]
    inits := [("w", i64T [3, 2] [1, 0, 0, 1, 1, 1]), ("b", i64T [2] [10, 20])]
    nodes :=
      [{ ty := .matMul, inputs := ["x", "w"], outputs := ["p"], attrs := [] },
       { ty := .add, inputs := ["p", "b"], outputs := ["z"], attrs := [] },
       { ty := .relu, inputs := ["p"], outputs := ["r"], attrs := [] }] }

/-- The product is gone, and `Relu` reads a value nobody computes. -/
theorem C13_product_lost : onnxGraph linSem layersIn sharedGraph =
      some [some (i64T [1, 2] [14, 25]), some (i64T [1, 2] [4, 5])] ∧
    runFused sharedGraph layersIn = some none := by decide +kernel

/-- The product `p` is also an output. -/
def productOutGraph : GraphProto NVal :=
  { sharedGraph with outputs := ["p", "z"], nodes := sharedGraph.nodes.take 2 }

/-- The product is gone, and the imported graph returns one value instead of two. -/
theorem C13_product_output_lost : onnxGraph linSem layersIn productOutGraph =
      some [some (i64T [1, 2] [4, 5]), some (i64T [1, 2] [14, 25])] ∧
    runFused productOutGraph layersIn = some (some [some (i64T [1, 2] [14, 25])]) := by decide +kernel

/-- So does the generated function. -/
theorem C45_product_output_dropped : productOutGraph.outputs.length = 2 ∧
    ((forwardSignature layersImporter productOutGraph).map fun s => s.2.map Arg.name) = some ["linear1_out1"] := by
  decide +kernel

/-- The bias is a number, which ONNX adds to every entry. -/
def numberBiasGraph : GraphProto NVal :=
  { sharedGraph with outputs := ["z"], nodes := sharedGraph.nodes.take 2,
                     inits := [("w", i64T [3, 2] [1, 0, 0, 1, 1, 1]), ("b", i64T [] [10])] }

/-- The layer's bias parameter does not have the shape of a number. -/
theorem C13_number_bias_fused :
    onnxGraph linSem layersIn numberBiasGraph = some [some (i64T [1, 2] [14, 15])] ∧
    runFused numberBiasGraph layersIn = some none := by decide +kernel

/-- `Gemm` with a matrix `C`. -/
def gemmMatrixGraph : GraphProto NVal :=
  { inputs := ["x"], outputs := ["y"]
    inits := [("v", i64T [2, 3] [1, 0, 0, 0, 1, 0]), ("c", i64T [1, 2] [10, 20])]
    nodes := [{ ty := .gemm, inputs := ["x", "v", "c"], outputs := ["y"],
                attrs := [("alpha", .f32 oneBits), ("beta", .f32 oneBits), ("transB", .i64 1)] }] }

/-- The layer's bias parameter does not have the shape of a matrix. -/
theorem C13_gemm_bias_fused : onnxGraph linSem layersIn gemmMatrixGraph = some [some (i64T [1, 2] [11, 22])] ∧
    runFused gemmMatrixGraph layersIn = some none := by decide +kernel

/-- `Gemm` with `transA = 2`: ONNX transposes `A` for every value but 0. -/
def gemmTransGraph : GraphProto NVal :=
  { inputs := ["x"], outputs := ["y"], inits := [("v", i64T [2, 2] [1, 0, 0, 1])]
    nodes := [{ ty := .gemm, inputs := ["x", "v"], outputs := ["y"],
                attrs := [("alpha", .f32 oneBits), ("beta", .f32 oneBits), ("transA", .i64 2), ("transB", .i64 1)] }] }

/-- The layer does not transpose. -/
theorem C13_transposed_input_fused :
    let e : Env NVal := fun x => if x = "x" then some (i64T [2, 2] [1, 2, 3, 4]) else none
    onnxGraph linSem e gemmTransGraph = some [some (i64T [2, 2] [1, 3, 2, 4])] ∧
    runFused gemmTransGraph e = some (some [some (i64T [2, 2] [1, 2, 3, 4])]) := by decide +kernel

/-- `Gemm` with a weight that is an input of the graph. -/
def gemmInputGraph : GraphProto NVal :=
  { inputs := ["x", "v"], outputs := ["y"], inits := []
    nodes := [{ ty := .gemm, inputs := ["x", "v"], outputs := ["y"],
                attrs := [("alpha", .f32 oneBits), ("beta", .f32 oneBits), ("transB", .i64 1)] }] }

/-- It becomes a layer whose weight is known only at run time; the generated layer keeps its weight in a field and
reads only its first input (`Gen.linear`). -/
theorem C13_runtime_weight_fused : (importFused isMatrix [] gemmInputGraph).map
    (fun m => m.1.map fun n => (n.ty, n.inputs.map Arg.src)) =
    some [(.linear, [Src.dynamic, Src.dynamic])] := by decide +kernel

end OnnxIR
