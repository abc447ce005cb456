import Verif.Spec.Concat
import Verif.Spec.Reduce
import Mathlib.Analysis.SpecialFunctions.Trigonometric.DerivHyp

/-!
# The ONNX Attention operator on real numbers

Operator set 23: scores are capped after the mask is added. Minus infinity, which masks a position out, is `⊥`; rows of which every position
is masked out have no result in ONNX (NaN).
-/

namespace OnnxIR

/-- A score: a real number or minus infinity. -/
abbrev Score := WithBot ℝ

/-- `exp`, with `exp (-∞) = 0`. -/
noncomputable def Score.exp : Score → ℝ
  | none => 0
  | some x => Real.exp x

/-- `c · tanh (x / c)`, with `tanh (±∞) = ±1`. -/
noncomputable def Score.cap (c : ℝ) : Score → Score
  | none => ((-|c| : ℝ) : Score)
  | some x => ((c * Real.tanh (x / c) : ℝ) : Score)

/-- A mask: Booleans (true: attend), or numbers to be added to the scores. -/
inductive AttnMask
  | bool (t : Tensor Bool)
  | float (t : Tensor Score)
  | int (t : Tensor Int)

/-- The shape of a mask. -/
def AttnMask.shape : AttnMask → List Nat
  | .bool t => t.shape
  | .float t => t.shape
  | .int t => t.shape

namespace Onnx

/-- A tensor `[batch, length, H · d]` as `[batch, H, length, d]`. -/
def splitHeads {α : Type} [Inhabited α] (H d : Nat) (x : Tensor α) : Tensor α :=
  Tensor.ofFn [x.shape.getD 0 0, H, x.shape.getD 1 0, d] fun i => x.get [i.getD 0 0, i.getD 2 0, i.getD 1 0 * d + i.getD 3 0]

/-- A tensor `[batch, H, length, d]` as `[batch, length, H · d]`. -/
def joinHeads {α : Type} [Inhabited α] (y : Tensor α) : Tensor α :=
  Tensor.ofFn [y.shape.getD 0 0, y.shape.getD 2 0, y.shape.getD 1 0 * y.shape.getD 3 0] fun i =>
    y.get [i.getD 0 0, i.getD 2 0 / y.shape.getD 3 0, i.getD 1 0, i.getD 2 0 % y.shape.getD 3 0]

/-- What is added to the score at `[batch, head, query, key]`: the mask, broadcast from the right, and minus infinity for keys after the query
when attention is causal. -/
noncomputable def attnBias (mask : Option AttnMask) (causal : Bool) (i : List Nat) : Score :=
  (match mask with
    | none => 0
    | some (.bool t) => if t.get (proj t.shape i) then 0 else ⊥
    | some (.float t) => t.get (proj t.shape i)
    | some (.int t) => (((t.get (proj t.shape i) : ℤ) : ℝ) : Score)) + if causal ∧ i.getD 2 0 < i.getD 3 0 then ⊥ else 0

/-- Products of queries and keys, times the scale; the query heads are shared evenly among the key heads. -/
noncomputable def attnQk (scale : ℝ) (q k : Tensor ℝ) : Tensor ℝ :=
  Tensor.ofFn [q.shape.getD 0 0, q.shape.getD 1 0, q.shape.getD 2 0, k.shape.getD 2 0] fun i =>
    scale * ∑ e ∈ Finset.range (q.shape.getD 3 0), q.get [i.getD 0 0, i.getD 1 0, i.getD 2 0, e] *
      k.get [i.getD 0 0, i.getD 1 0 / (q.shape.getD 1 0 / k.shape.getD 1 0), i.getD 3 0, e]

/-- With the mask added. -/
noncomputable def attnMasked (mask : Option AttnMask) (causal : Bool) (s : Tensor ℝ) : Tensor Score :=
  Tensor.ofFn s.shape fun i => (s.get i : Score) + attnBias mask causal i

/-- Capped, if the cap is not 0. -/
noncomputable def attnCapped (c : ℝ) (s : Tensor Score) : Tensor Score := Tensor.ofFn s.shape fun i => if c = 0 then s.get i else Score.cap c (s.get i)

/-- Softmax over the keys. -/
noncomputable def attnWeights (s : Tensor Score) : Tensor ℝ :=
  Tensor.ofFn s.shape fun i => (s.get i).exp / ∑ j ∈ Finset.range (s.shape.getD 3 0), (s.get [i.getD 0 0, i.getD 1 0, i.getD 2 0, j]).exp

/-- The sum of the values with these weights. -/
noncomputable def attnApply (w v : Tensor ℝ) : Tensor ℝ :=
  Tensor.ofFn [w.shape.getD 0 0, w.shape.getD 1 0, w.shape.getD 2 0, v.shape.getD 3 0] fun i =>
    ∑ j ∈ Finset.range (w.shape.getD 3 0), w.get [i.getD 0 0, i.getD 1 0, i.getD 2 0, j] *
      v.get [i.getD 0 0, i.getD 1 0 / (w.shape.getD 1 0 / v.shape.getD 1 0), j, i.getD 3 0]

/-- The default scale. -/
noncomputable def attnScale (scale : Option ℝ) (d : Nat) : ℝ := scale.getD (1 / √d)

/-- Attention of `[batch, heads, length, size]` tensors. -/
noncomputable def attention (scale : Option ℝ) (mask : Option AttnMask) (causal : Bool) (cap : ℝ) (q k v : Tensor ℝ) : Tensor ℝ :=
  attnApply (attnWeights (attnCapped cap (attnMasked mask causal (attnQk (attnScale scale (q.shape.getD 3 0)) q k)))) v

/-- The fourth output, for the four values of `qk_matmul_output_mode`. -/
noncomputable def attnQkOutput (mode : Nat) (scale : Option ℝ) (mask : Option AttnMask) (causal : Bool) (cap : ℝ) (q k : Tensor ℝ) : Tensor Score :=
  let s := attnQk (attnScale scale (q.shape.getD 3 0)) q k
  match mode with
  | 0 => s.map fun x : ℝ => (x : Score)
  | 1 => attnMasked mask causal s
  | 2 => attnCapped cap (attnMasked mask causal s)
  | _ => (attnWeights (attnCapped cap (attnMasked mask causal s))).map fun x : ℝ => (x : Score)

/-- The mask can be broadcast to the scores. -/
def MaskFits (mask : Option AttnMask) (s : List Nat) : Prop := ∀ m, mask = some m → bcast m.shape s = some s

/-- `y` is the result of attention wherever ONNX has one: in the rows that keep at least one key. -/
structure IsAttended (scale : Option ℝ) (mask : Option AttnMask) (causal : Bool) (cap : ℝ) (q k v y : Tensor ℝ) : Prop where
  shape : y.shape = [q.shape.getD 0 0, q.shape.getD 1 0, q.shape.getD 2 0, v.shape.getD 3 0]
  elems : ∀ n h i e, InRange y.shape [n, h, i, e] → (∃ j < k.shape.getD 2 0, attnBias mask causal [n, h, i, j] ≠ ⊥) →
    y.get [n, h, i, e] = (attention scale mask causal cap q k v).get [n, h, i, e]

end Onnx

namespace Burn

/-- `burn::tensor::module::attention(q, k, v, mask, attn_bias, options)`, with the options scale, softcap and is_causal. -/
abbrev Attn := Tensor ℝ → Tensor ℝ → Tensor ℝ → Option (Tensor Bool) → Option (Tensor Score) → Option ℝ → Option ℝ → Bool → Option (Tensor ℝ)

/-- What Burn's function is taken to do, for tensors with equal numbers of heads, masks and biases that can be broadcast, at least one key
left in a row: true in the mask excludes, the bias is added. Nothing is assumed about causal attention when there are more or fewer keys than
queries, nor about the order of capping and masking. -/
def Attends (f : Attn) : Prop := ∀ q k v mask bias scale cap causal b h sq sk d dv,
  q.shape = [b, h, sq, d] → k.shape = [b, h, sk, d] → v.shape = [b, h, sk, dv] →
  (∀ m, mask = some m → m.shape.length = 4 ∧ bcast m.shape [b, h, sq, sk] = some [b, h, sq, sk]) →
  (∀ m, bias = some m → m.shape.length = 4 ∧ bcast m.shape [b, h, sq, sk] = some [b, h, sq, sk]) →
  (cap = none ∨ mask = none ∧ bias = none ∧ causal = false) → (causal = true → sq = sk) →
  ∃ y, f q k v mask bias scale cap causal = some y ∧ y.shape = [b, h, sq, dv] ∧
    let excl (i : List Nat) : Score := (mask.elim 0 fun m => if m.get (proj m.shape i) then ⊥ else 0) +
      (bias.elim 0 fun m => m.get (proj m.shape i)) + if causal ∧ i.getD 2 0 < i.getD 3 0 then ⊥ else 0
    let score (i : List Nat) : Score := cap.elim id Score.cap
      (((scale.getD (1 / √d) * ∑ e ∈ Finset.range d, q.get [i.getD 0 0, i.getD 1 0, i.getD 2 0, e] * k.get [i.getD 0 0, i.getD 1 0, i.getD 3 0, e] : ℝ) : Score)
        + excl i)
    ∀ n hh i e, InRange [b, h, sq, dv] [n, hh, i, e] → (∃ j < sk, excl [n, hh, i, j] ≠ ⊥) →
      y.get [n, hh, i, e] = ∑ j ∈ Finset.range sk, (score [n, hh, i, j]).exp / (∑ l ∈ Finset.range sk, (score [n, hh, i, l]).exp) * v.get [n, hh, j, e]

/-- `activation::softmax(scores, 3)` of a tensor of rank 4. -/
noncomputable def softmax3 (s : Tensor Score) : Tensor ℝ :=
  Tensor.ofFn s.shape fun i => (s.get i).exp / ∑ j ∈ Finset.range (s.shape.getD 3 0), (s.get (i.set 3 j)).exp

/-- `reshape([a, b, -1])`; nothing is known about tensors without elements. -/
def reshapeRest {α : Type} (t : Tensor α) (a b : Nat) : Option (Tensor α) :=
  if a * b = 0 then none else reshape t [a, b, prodShape t.shape / (a * b)]

end Burn

end OnnxIR
