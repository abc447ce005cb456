import Verif.Model.ConstantShape

/-!
# Coalescing attention

crates/onnx-ir/src/simplify/coalesce_attention.rs. Simplification: reading a missing input or output, or
an attribute of the wrong kind, panics in Rust and is "no match" here.
-/

namespace OnnxIR

variable {V F : Type}

/-- How the pass reads and writes scale factors: `scalar_f64`
(crates/onnx-ir/src/ir/tensor_data_ext.rs:48-67: the first element of the tensor, whatever its size),
comparison with 0.0, `1.0 / x`, `*`, `as f32` (coalesce_attention.rs:296) and the number a single precision
attribute stands for. -/
structure ScaleView (V F : Type) where
  scalar : V → Option F
  isZero : F → Bool
  inv : F → F
  mul : F → F → F
  bits : F → Nat
  ofBits : Nat → F

/-- coalesce_attention.rs:587-595 `build_consumer_map`: the nodes reading a name, once per input. -/
def consumersOf (nodes : List (Node V)) (x : String) : List Nat :=
  nodes.zipIdx.flatMap fun p => p.1.inputs.filterMap fun a => if a.name = x then some p.2 else none

/-- coalesce_attention.rs:571-575 `is_single_use`. -/
def isSingleUse (nodes : List (Node V)) (x : String) : Bool := (consumersOf nodes x).length == 1

/-- `is_single_use(&node.outputs[0].name, ..)`. -/
def firstOutSingle (nodes : List (Node V)) (n : Node V) : Bool :=
  match n.outputs with
  | o :: _ => isSingleUse nodes o.name
  | [] => false

/-- `arg.value()` followed by `scalar_f64().ok()`. -/
def argScalar (sv : ScaleView V F) (cmap : String → Option V) (a : Arg V) : Option F :=
  (a.value cmap).bind sv.scalar

/-- coalesce_attention.rs:243-277 `try_extract_scale`. -/
def tryExtractScale (sv : ScaleView V F) (cmap : String → Option V) (nodes : List (Node V))
    (n : Node V) : Option (String × F) :=
  if firstOutSingle nodes n = false then none else
  match n.ty, n.inputs with
  | .div, a :: b :: _ =>
    match argScalar sv cmap b with
    | none => none
    | some d => if sv.isZero d then none else some (a.name, sv.inv d)
  | .mul, a :: b :: _ =>
    match argScalar sv cmap b with
    | some s => some (a.name, s)
    | none =>
      match argScalar sv cmap a with
      | some s => some (b.name, s)
      | none => none
  | _, _ => none

/-- coalesce_attention.rs:209-234, for one choice of upstream and mask. -/
def maskAndUpstream (sv : ScaleView V F) (cmap : String → Option V) (nodes : List (Node V))
    (prod : List (String × Nat)) (up mask : Arg V) : Option (Arg V × String × Option F) :=
  match producerOf prod nodes up.name with
  | none => none
  | some un =>
    let direct : Option (Arg V × String × Option F) :=
      if un.ty = .matMul ∧ isSingleUse nodes up.name = true then some (mask, up.name, none) else none
    match tryExtractScale sv cmap nodes un with
    | none => direct
    | some (mmOut, s) =>
      match producerOf prod nodes mmOut with
      | none => direct
      | some mm => if mm.ty = .matMul then some (mask, mmOut, some s) else direct

/-- coalesce_attention.rs:197-237 `try_extract_mask_and_upstream`: both orders. -/
def tryExtractMask (sv : ScaleView V F) (cmap : String → Option V) (nodes : List (Node V))
    (prod : List (String × Nat)) (add : Node V) : Option (Arg V × String × Option F) :=
  match add.inputs with
  | a :: b :: _ =>
    match maskAndUpstream sv cmap nodes prod a b with
    | some r => some r
    | none => maskAndUpstream sv cmap nodes prod b a
  | _ => none

/-- coalesce_attention.rs:280-308 `build_attention_node`. -/
def buildAttention (sv : ScaleView V F) (final : Node V) (q k v : Arg V) (mask : Option (Arg V))
    (scale : Option F) : Node V :=
  ⟨.attention, final.name ++ "_attention", [q, k, v] ++ mask.toList, final.outputs,
    (scale.map fun s => ("scale", .f32 (sv.bits s))).toList⟩

/-- coalesce_attention.rs:311-324 `get_softmax_axis`. -/
def softmaxAxis (n : Node V) (rank : Nat) : Option Nat :=
  match attrI64 n.attrs "axis" with
  | none => none
  | some ax =>
    let axis : Int := if ax.getD (-1) < 0 then ax.getD (-1) + rank else ax.getD (-1)
    if axis < 0 ∨ rank ≤ axis.toNat then none else some axis.toNat

/-- The permutation attribute of a Transpose (coalesce_attention.rs:337-342 and 552-557). -/
def transposePerm (n : Node V) : Option (List Int) :=
  match attrGet n.attrs "perm" with
  | some (.i64s p) => some p
  | _ => none

/-- coalesce_attention.rs:327-362 `is_last_two_dims_swap`. -/
def isLastTwoSwap (n : Node V) : Bool :=
  match n.inputs with
  | [] => false
  | x :: _ =>
    let rank := x.ty.rank
    if rank < 2 then false else
    let perm : Option (List Int) :=
      if (attrGet n.attrs "perm").isSome then transposePerm n
      else some ((List.range rank).map Int.ofNat).reverse
    perm == some ((List.range (rank - 2)).map Int.ofNat ++ [((rank : Int) - 1), ((rank : Int) - 2)])

/-- coalesce_attention.rs:395-409: Q scaled by a constant before the product. -/
def qPrescale (sv : ScaleView V F) (cmap : String → Option V) (nodes : List (Node V))
    (prod : List (String × Nat)) (q : Arg V) : Option (Arg V × F) :=
  match producerOf prod nodes q.name with
  | none => none
  | some qm =>
    if qm.ty = .mul then
      match tryExtractScale sv cmap nodes qm, qm.inputs with
      | some (_, s), a :: b :: _ => some (if (b.value cmap).isSome then a else b, s)
      | _, _ => none
    else none

/-- coalesce_attention.rs:373-412 `try_standard_k_pattern`: Q, K and the factor applied to Q. -/
def tryStandardK (sv : ScaleView V F) (cmap : String → Option V) (nodes : List (Node V))
    (prod : List (String × Nat)) (qk : Node V) : Option (Arg V × Arg V × Option (Arg V × F)) :=
  match qk.inputs with
  | q :: kt :: _ =>
    match producerOf prod nodes kt.name with
    | none => none
    | some tn =>
      if tn.ty = .transpose ∧ isLastTwoSwap tn = true ∧ firstOutSingle nodes tn = true then
        match tn.inputs with
        | k :: _ => some (q, k, qPrescale sv cmap nodes prod q)
        | [] => none
      else none
  | _ => none

/-- coalesce_attention.rs:540-549 `find_shared_scalar_inputs`: the positions of the tensor inputs. -/
def sharedScalar (a b : Node V) : Option (Nat × Nat) :=
  match a.inputs, b.inputs with
  | a0 :: a1 :: _, b0 :: b1 :: _ =>
    if a0.name = b0.name then some (1, 1)
    else if a0.name = b1.name then some (1, 0)
    else if a1.name = b0.name then some (0, 1)
    else if a1.name = b1.name then some (0, 0)
    else none
  | _, _ => none

/-- coalesce_attention.rs:562-568 `is_perm_with_last_two_swapped`. -/
def permSwapped (a b : List Int) : Bool :=
  a.length == b.length && decide (2 ≤ a.length) &&
  a.take (a.length - 2) == b.take (a.length - 2) &&
  a[a.length - 2]? == b[a.length - 1]? && a[a.length - 1]? == b[a.length - 2]?

/-- coalesce_attention.rs:488-496: exchange the last two dimensions of a known shape. -/
def swapLastTwo {α : Type} (l : List α) : List α :=
  match l.reverse with
  | x :: y :: r => (y :: x :: r).reverse
  | _ => l

/-- The type of the corrected K. -/
def swapTypeDims : ArgType → ArgType
  | .tensor t => .tensor { t with staticShape := t.staticShape.map swapLastTwo }
  | t => t

/-- coalesce_attention.rs:430-536 `try_prescaled_qk_pattern`: Q, K, the factor, and the node that takes
the place of the product of Q and K. -/
def tryPrescaled (sv : ScaleView V F) (cmap : String → Option V) (nodes : List (Node V))
    (prod : List (String × Nat)) (qk : Node V) : Option (Arg V × Arg V × Option F × Node V) :=
  match qk.inputs with
  | qi :: ki :: _ =>
    match producerOf prod nodes qi.name, producerOf prod nodes ki.name with
    | some qm, some km =>
      if ¬ (qm.ty = .mul ∧ km.ty = .mul ∧ firstOutSingle nodes qm = true ∧
          firstOutSingle nodes km = true) then none else
      match sharedScalar qm km with
      | none => none
      | some (qt, kt) =>
        match qm.inputs[1 - qt]?, qm.inputs[qt]?, km.inputs[kt]? with
        | some sc, some qa, some ka =>
          if 1 < sc.ty.rank then none else
          match producerOf prod nodes qa.name, producerOf prod nodes ka.name with
          | some qtr, some ktr =>
            if ¬ (qtr.ty = .transpose ∧ ktr.ty = .transpose) then none else
            match transposePerm qtr, transposePerm ktr with
            | some qp, some kp =>
              if permSwapped qp kp = false then none else
              let kOut : Arg V := ⟨qk.name ++ "_k_corrected", swapTypeDims ka.ty, ka.src⟩
              let perm := swapLastTwo ((List.range ka.ty.rank).map Int.ofNat)
              some (qa, kOut, (argScalar sv cmap sc).map fun x => sv.mul x x,
                ⟨.transpose, qk.name ++ "_k_corrected", [ka], [kOut], [("perm", .i64s perm)]⟩)
            | _, _ => none
          | _, _ => none
        | _, _, _ => none
    | _, _ => none
  | _ => none

/-- coalesce_attention.rs:89-109: the mask added to the input of Softmax. -/
def traceMask (sv : ScaleView V F) (cmap : String → Option V) (nodes : List (Node V))
    (prod : List (String × Nat)) (x : String) : String × Option (Arg V) × Option F :=
  match producerOf prod nodes x with
  | none => (x, none, none)
  | some an =>
    if an.ty = .add ∧ firstOutSingle nodes an = true then
      match tryExtractMask sv cmap nodes prod an with
      | some (m, up, s) => (up, some m, s)
      | none => (x, none, none)
    else (x, none, none)

/-- coalesce_attention.rs:111-123: the scaling below it, if none was found yet. -/
def traceScale (sv : ScaleView V F) (cmap : String → Option V) (nodes : List (Node V))
    (prod : List (String × Nat)) (r : String × Option (Arg V) × Option F) :
    String × Option (Arg V) × Option F :=
  match r.2.2 with
  | some _ => r
  | none =>
    match producerOf prod nodes r.1 with
    | none => r
    | some sn =>
      match tryExtractScale sv cmap nodes sn with
      | some (up, s) => (up, r.2.1, some s)
      | none => r

/-- coalesce_attention.rs:89-123: the name that should be the product of Q and K, the mask and the factor,
read backwards from the input of Softmax. -/
def traceBack (sv : ScaleView V F) (cmap : String → Option V) (nodes : List (Node V))
    (prod : List (String × Nat)) (x : String) : String × Option (Arg V) × Option F :=
  traceScale sv cmap nodes prod (traceMask sv cmap nodes prod x)

/-- coalesce_attention.rs:135-163: Q, K, the factor and the extra replacement. -/
def matchQK (sv : ScaleView V F) (cmap : String → Option V) (nodes : List (Node V))
    (prod : List (String × Nat)) (qk : Node V) (scale : Option F) :
    Option (Arg V × Arg V × Option F × Option (Node V)) :=
  match tryStandardK sv cmap nodes prod qk with
  | some (q, k, pre) =>
    match scale, pre with
    | none, some (qr, s) => some (qr, k, some s, none)
    | _, _ => some (q, k, scale, none)
  | none =>
    match tryPrescaled sv cmap nodes prod qk with
    | some (q, k, s, extra) => some (q, k, if s.isSome then s else scale, some extra)
    | none => none

/-- coalesce_attention.rs:67-188 `try_match_sdpa`. -/
def tryMatchSdpa (sv : ScaleView V F) (cmap : String → Option V) (nodes : List (Node V))
    (prod : List (String × Nat)) (soft : Node V) : Option (List (Nat × Node V)) :=
  match soft.inputs, soft.outputs with
  | x :: _, so :: _ =>
    if x.ty.rank < 2 ∨ softmaxAxis soft x.ty.rank ≠ some (x.ty.rank - 1) then none else
    let t := traceBack sv cmap nodes prod x.name
    match mapGet prod t.1 with
    | none => none
    | some qkIdx =>
      match nodes[qkIdx]? with
      | none => none
      | some qk =>
        if ¬ (qk.ty = .matMul ∧ firstOutSingle nodes qk = true) then none else
        match matchQK sv cmap nodes prod qk t.2.2 with
        | none => none
        | some (q, k, scale, extra) =>
          if q.ty.rank ≠ 4 ∨ k.ty.rank ≠ 4 then none else
          match consumersOf nodes so.name with
          | [fi] =>
            match nodes[fi]? with
            | none => none
            | some final =>
              match final.inputs with
              | w :: v :: _ =>
                if final.ty = .matMul ∧ w.name = so.name ∧ v.ty.rank = 4 then
                  some ((extra.map fun e => (qkIdx, e)).toList ++
                    [(fi, buildAttention sv final q k v t.2.1 scale)])
                else none
              | _ => none
          | _ => none
  | _, _ => none

/-- coalesce_attention.rs:38-49: the replacements, in node order. -/
def attentionReplacements (sv : ScaleView V F) (cmap : String → Option V) (nodes : List (Node V)) :
    List (Nat × Node V) :=
  nodes.flatMap fun n =>
    if n.ty = .softmax then (tryMatchSdpa sv cmap nodes (producerMap nodes) n).getD [] else []

/-- coalesce_attention.rs:31-60 `coalesce_attention`. -/
def coalesceAttention (sv : ScaleView V F) (cmap : String → Option V) (nodes : List (Node V)) :
    List (Node V) :=
  (attentionReplacements sv cmap nodes).foldl (fun ns r => ns.set r.1 r.2) nodes

end OnnxIR
