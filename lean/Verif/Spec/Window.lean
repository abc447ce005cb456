/-!
# Sliding windows

Independent of the code. ONNX `Conv`, `MaxPool` and `AveragePool` (floor mode) produce one output
position for every place where the dilated window fits into the padded input.
-/

namespace OnnxIR.Onnx

/-- One spatial axis: input length, cells added before and after, window length, stride and
dilation. -/
structure Axis where
  input : Nat
  before : Nat
  after : Nat
  kernel : Nat
  stride : Nat
  dilation : Nat

/-- The window number `p` lies inside the padded input: it starts at `p * stride`, and its last cell
`(kernel - 1) * dilation` further is still inside. -/
def Axis.Fits (a : Axis) (p : Nat) : Prop :=
  p * a.stride + (a.kernel - 1) * a.dilation < a.before + a.input + a.after

/-- `n` is the number of windows that fit; they are the windows `0, ..., n - 1`. -/
def Axis.Positions (a : Axis) (n : Nat) : Prop := ∀ p, p < n ↔ a.Fits p

/-- `n` is `x / s` rounded up: the least number with `x ≤ n * s`. -/
def IsCeilDiv (x s n : Nat) : Prop := ∀ m, n ≤ m ↔ x ≤ m * s

/-- The five values a window length of 3 takes over 7 cells, and a window that never fits. -/
example : Axis.Positions ⟨7, 0, 0, 3, 1, 1⟩ 5 ∧ Axis.Positions ⟨2, 0, 0, 3, 1, 1⟩ 0 := by
  constructor <;> intro p <;> simp only [Axis.Fits] <;> omega

/-- The padding mode ONNX names in `auto_pad`. -/
inductive PadMode
  | notSet | sameUpper | sameLower | valid
deriving DecidableEq, Repr

/-- The value of the attribute `auto_pad` for each mode. -/
def PadMode.text : PadMode → String
  | .notSet => "NOTSET"
  | .sameUpper => "SAME_UPPER"
  | .sameLower => "SAME_LOWER"
  | .valid => "VALID"

/-- ONNX `auto_pad` on one axis: which amounts `(before, after)` the operator uses, given the amounts
of the attribute `pads`.
* `NOTSET`: those of `pads`.
* `VALID`: none.
* `SAME_UPPER`, `SAME_LOWER`: the output length is `input / stride` rounded up, with as few cells as
  possible; the two amounts differ by at most one cell, which is after (`UPPER`) or before (`LOWER`). -/
def AutoPadded (m : PadMode) (pads : Nat × Nat) (input kernel stride dilation : Nat)
    (p : Nat × Nat) : Prop :=
  match m with
  | .notSet => p = pads
  | .valid => p = (0, 0)
  | .sameUpper => (∃ n, IsCeilDiv input stride n ∧
      Axis.Positions ⟨input, p.1, p.2, kernel, stride, dilation⟩ n ∧
      ∀ t, Axis.Positions ⟨input, 0, t, kernel, stride, dilation⟩ n → p.1 + p.2 ≤ t) ∧
      p.1 ≤ p.2 ∧ p.2 ≤ p.1 + 1
  | .sameLower => (∃ n, IsCeilDiv input stride n ∧
      Axis.Positions ⟨input, p.1, p.2, kernel, stride, dilation⟩ n ∧
      ∀ t, Axis.Positions ⟨input, 0, t, kernel, stride, dilation⟩ n → p.1 + p.2 ≤ t) ∧
      p.2 ≤ p.1 ∧ p.1 ≤ p.2 + 1

/-- Pointwise: every axis has amounts ONNX prescribes. -/
inductive AllAutoPadded (m : PadMode) :
    List (Nat × Nat) → List Nat → List Nat → List Nat → List Nat → List (Nat × Nat) → Prop
  | nil : AllAutoPadded m [] [] [] [] [] []
  | cons {pad x k s d p pads xs ks ss ds ps} : AutoPadded m pad x k s d p →
      AllAutoPadded m pads xs ks ss ds ps →
      AllAutoPadded m (pad :: pads) (x :: xs) (k :: ks) (s :: ss) (d :: ds) (p :: ps)

/-- The attribute `pads` of an operator with `n` spatial axes: `2 n` amounts, first the ones before
every axis, then the ones after. -/
def PadsAttr (n : Nat) (pads : List Int) (amounts : List (Nat × Nat)) : Prop :=
  amounts.length = n ∧
  pads = amounts.map (fun a => (a.1 : Int)) ++ amounts.map (fun a => (a.2 : Int))

/-- The spatial output lengths of a window operator with the given mode, attribute `pads`, input,
window, stride and dilation per axis. -/
inductive WindowOut (m : PadMode) :
    List (Nat × Nat) → List Nat → List Nat → List Nat → List Nat → List Nat → Prop
  | nil : WindowOut m [] [] [] [] [] []
  | cons {x k s d n xs ks ps ss ds ns} {pad p : Nat × Nat} :
      0 < k → AutoPadded m pad x k s d p → Axis.Positions ⟨x, p.1, p.2, k, s, d⟩ n →
      WindowOut m ps xs ks ss ds ns →
      WindowOut m (pad :: ps) (x :: xs) (k :: ks) (s :: ss) (d :: ds) (n :: ns)

/-- ONNX `Conv`: input `N × C × xs`, weight `M × C/group × ks`, output `N × M × ns`. -/
def ConvShape (m : PadMode) (pads : List (Nat × Nat)) (strides dilations : List Nat) :
    List Nat → List Nat → List Nat → Prop
  | n :: _ :: xs, mm :: _ :: ks, out => ∃ ns, WindowOut m pads xs ks strides dilations ns ∧
      out = n :: mm :: ns
  | _, _, _ => False

/-- ONNX `MaxPool` and `AveragePool` in floor mode: input `N × C × xs`, output `N × C × ns`. -/
def PoolShape (m : PadMode) (pads : List (Nat × Nat)) (kernel strides dilations : List Nat) :
    List Nat → List Nat → Prop
  | n :: c :: xs, out => ∃ ns, WindowOut m pads xs kernel strides dilations ns ∧ out = n :: c :: ns
  | _, _ => False

/-- ONNX `ConvTranspose` on one axis with explicit padding:
`stride * (input - 1) + output_padding + (kernel - 1) * dilation + 1 - before - after`. -/
def transposedLength (input before after kernel stride dilation outPad : Nat) : Int :=
  stride * ((input : Int) - 1) + outPad + ((kernel : Int) - 1) * dilation + 1 - before - after

end OnnxIR.Onnx

namespace OnnxIR.Burn

/-- The padding argument of a Burn window module. Burn's `PaddingConfig1d` and `PaddingConfig2d` name
every side, its `PaddingConfig3d` one amount per axis. -/
inductive Padding
  | valid
  | explicit1 (left right : Nat)
  | explicit2 (top left bottom right : Nat)
  | explicit3 (depth height width : Nat)
deriving DecidableEq, Repr

/-- What Burn adds before and after each of the `n` axes (trusted). -/
def Padding.amounts (n : Nat) : Padding → List (Nat × Nat)
  | .valid => List.replicate n (0, 0)
  | .explicit1 left right => [(left, right)]
  | .explicit2 top left bottom right => [(top, bottom), (left, right)]
  | .explicit3 depth height width => [(depth, depth), (height, height), (width, width)]

end OnnxIR.Burn
