import Verif.Spec.Views
import Verif.Spec.Slice
import Mathlib.Algebra.Ring.Defs
import Mathlib.Algebra.BigOperators.Group.List.Basic
import Mathlib.Order.Defs.LinearOrder

/-!
# Recurrent operators

ONNX's LSTM, GRU and RNN written out from the operator documentation, and Burn's modules of the same names as
documented by Burn (trusted). Elements are numbers of a commutative ring, so rounding is left out; activation
functions are arbitrary functions on the numbers.
-/

namespace OnnxIR

variable {α : Type}

/-- Attribute `direction`. -/
inductive RecDir
  | forward
  | reverse
  | bidirectional
deriving DecidableEq

/-- Number of directions. -/
def RecDir.count : RecDir → Nat
  | .bidirectional => 2
  | _ => 1

/-- Whether direction number `d` reads the sequence from its end. -/
def RecDir.rev : RecDir → Nat → Bool
  | .forward, _ => false
  | .reverse, _ => true
  | .bidirectional, d => d == 1

/-- The activation functions that ONNX names for recurrent operators. -/
inductive RecAct
  | sigmoid
  | tanh
  | relu
  | hardSigmoid
  | leakyRelu
  | thresholdedRelu
  | scaledTanh
  | elu
  | softsign
  | softplus
  | affine
deriving DecidableEq

/-- Functions with a parameter alpha. -/
def RecAct.takesAlpha : RecAct → Bool
  | .hardSigmoid | .leakyRelu | .thresholdedRelu | .scaledTanh | .elu | .affine => true
  | _ => false

/-- Functions with a parameter beta. -/
def RecAct.takesBeta : RecAct → Bool
  | .hardSigmoid | .scaledTanh | .affine => true
  | _ => false

/-- A sum of `n` terms. -/
def sumTo [Add α] [Zero α] (n : Nat) (f : Nat → α) : α := ((List.range n).map f).sum

/-- Bounding a number by a threshold on both sides. -/
def clipTo [Neg α] [Min α] [Max α] : Option α → α → α
  | none, x => x
  | some c, x => max (-c) (min c x)

/-- The state after `k` steps. -/
def after {σ : Type} (step : Nat → σ → σ) (s : σ) : Nat → σ
  | 0 => s
  | k + 1 => step k (after step s k)

/-- The position in a sequence of length `S` that is read at step `k`. -/
def visit (rev : Bool) (S k : Nat) : Nat := if rev then S - 1 - k else k

/-- The number of steps done once position `t` has been read. -/
def stepsAt (rev : Bool) (S t : Nat) : Nat := if rev then S - t else t + 1

namespace Onnx

/-- The activation function of slot `k`, with the parameters given for it: the lists of parameters are used up in the
order of the functions that take one. -/
def activation (act : RecAct → Option α → Option α → α → α) (acts : List RecAct) (alpha beta : List α) (k : Nat) : α → α :=
  match acts[k]? with
  | none => fun x => x
  | some a =>
    act a (if a.takesAlpha then alpha[((acts.take k).filter (·.takesAlpha)).length]? else none)
      (if a.takesBeta then beta[((acts.take k).filter (·.takesBeta)).length]? else none)

/-- The activation functions of all directions: `one` for each direction when the attribute is not given. -/
def allActs (one : List RecAct) (dir : RecDir) : Option (List RecAct) → List RecAct
  | none | some [] => (List.replicate dir.count one).flatten
  | some l => l

/-- Weights of one direction by gate, unit and input. -/
structure Gates (α : Type) where
  w : Nat → Nat → Nat → α
  r : Nat → Nat → Nat → α
  wb : Nat → Nat → α
  rb : Nat → Nat → α

variable [Inhabited α]

/-- The weights that ONNX packs for `G` gates of `H` units: `W` is `[directions, G*H, inputs]`, `R` is
`[directions, G*H, H]` and `B` is `[directions, 2*G*H]`, first all biases for the input and then all for the state. -/
def gates [Zero α] (G H : Nat) (W R : Tensor α) (B : Option (Tensor α)) (d : Nat) : Gates α where
  w g j m := W.get [d, g * H + j, m]
  r g j m := R.get [d, g * H + j, m]
  wb g j := B.elim 0 (·.get [d, g * H + j])
  rb g j := B.elim 0 (·.get [d, G * H + g * H + j])

/-- Element of the input at time `t` of batch entry `b`. -/
def inputAt (layout : Bool) (X : Tensor α) (t b m : Nat) : α := X.get (if layout then [b, t, m] else [t, b, m])

/-- Element of an initial state, 0 when it is not given. -/
def initialAt [Zero α] (layout : Bool) (T : Option (Tensor α)) (d b j : Nat) : α :=
  T.elim 0 (·.get (if layout then [b, d, j] else [d, b, j]))

/-- Output Y, all hidden states, from the hidden states by direction, batch entry, number of steps and unit. -/
def allStates (layout : Bool) (dir : RecDir) (S N H : Nat) (hid : Nat → Nat → Nat → Nat → α) : Tensor α :=
  if layout then
    Tensor.ofFn [N, S, dir.count, H] fun i =>
      hid (i.getD 2 0) (i.getD 0 0) (stepsAt (dir.rev (i.getD 2 0)) S (i.getD 1 0)) (i.getD 3 0)
  else
    Tensor.ofFn [S, dir.count, N, H] fun i =>
      hid (i.getD 1 0) (i.getD 2 0) (stepsAt (dir.rev (i.getD 1 0)) S (i.getD 0 0)) (i.getD 3 0)

/-- Outputs Y_h and Y_c: the state after the last step. -/
def lastState (layout : Bool) (dir : RecDir) (S N H : Nat) (st : Nat → Nat → Nat → Nat → α) : Tensor α :=
  if layout then Tensor.ofFn [N, dir.count, H] fun i => st (i.getD 1 0) (i.getD 0 0) S (i.getD 2 0)
  else Tensor.ofFn [dir.count, N, H] fun i => st (i.getD 0 0) (i.getD 1 0) S (i.getD 2 0)

variable [CommRing α] [Min α] [Max α]

/-- Input part of gate `g`, unit `j`. -/
def Gates.x (w : Gates α) (I g j : Nat) (x : Nat → α) : α := sumTo I fun m => x m * w.w g j m

/-- State part of gate `g`, unit `j`. -/
def Gates.h (w : Gates α) (H g j : Nat) (h : Nat → α) : α := sumTo H fun m => h m * w.r g j m

/-- One step of LSTM, gates in the order input, output, forget, cell. The state is hidden and cell. `clip` is applied to
the input of activations; `couple` is attribute `input_forget`. -/
def lstmStep (f g h : α → α) (clip : Option α) (couple : Bool) (I H : Nat) (w : Gates α) (x : Nat → α)
    (s : (Nat → α) × (Nat → α)) : (Nat → α) × (Nat → α) :=
  let pre k j := clipTo clip (w.x I k j x + w.h H k j s.1 + w.wb k j + w.rb k j)
  let i j := f (pre 0 j)
  let o j := f (pre 1 j)
  let fg j := if couple then 1 - i j else f (pre 2 j)
  let c j := g (pre 3 j)
  let C j := fg j * s.2 j + i j * c j
  (fun j => o j * h (clipTo clip (C j)), C)

/-- One step of GRU, gates in the order update, reset, hidden. `after` is attribute `linear_before_reset`. -/
def gruStep (f g : α → α) (clip : Option α) (linearFirst : Bool) (I H : Nat) (w : Gates α) (x : Nat → α)
    (h : Nat → α) : Nat → α :=
  let pre k j := clipTo clip (w.x I k j x + w.h H k j h + w.wb k j + w.rb k j)
  let z j := f (pre 0 j)
  let r j := f (pre 1 j)
  let c j :=
    if linearFirst then g (clipTo clip (w.x I 2 j x + r j * (w.h H 2 j h + w.rb 2 j) + w.wb 2 j))
    else g (clipTo clip (w.x I 2 j x + w.h H 2 j (fun m => r m * h m) + w.rb 2 j + w.wb 2 j))
  fun j => (1 - z j) * c j + z j * h j

/-- One step of RNN. -/
def rnnStep (f : α → α) (clip : Option α) (I H : Nat) (w : Gates α) (x : Nat → α) (h : Nat → α) : Nat → α :=
  fun j => f (clipTo clip (w.x I 0 j x + w.h H 0 j h + w.wb 0 j + w.rb 0 j))

/-- The inputs of a recurrent node. -/
structure RecIn (α : Type) where
  dir : RecDir
  layout : Bool
  S : Nat
  N : Nat
  I : Nat
  H : Nat
  X : Tensor α
  W : Tensor α
  R : Tensor α
  B : Option (Tensor α)
  h0 : Option (Tensor α)
  c0 : Option (Tensor α)

/-- The shapes that ONNX prescribes with `G` gates. -/
def RecIn.Ok (a : RecIn α) (G : Nat) : Prop :=
  a.X.shape = (if a.layout then [a.N, a.S, a.I] else [a.S, a.N, a.I]) ∧
  a.W.shape = [a.dir.count, G * a.H, a.I] ∧ a.R.shape = [a.dir.count, G * a.H, a.H] ∧
  (∀ B ∈ a.B, B.shape = [a.dir.count, 2 * G * a.H]) ∧
  (∀ T ∈ a.h0, T.shape = if a.layout then [a.N, a.dir.count, a.H] else [a.dir.count, a.N, a.H]) ∧
  (∀ T ∈ a.c0, T.shape = if a.layout then [a.N, a.dir.count, a.H] else [a.dir.count, a.N, a.H])

/-- Hidden and cell state of LSTM in direction `d`, batch entry `b`, after `k` steps. `fs d` are the three activation
functions of direction `d`. -/
def lstmAt (a : RecIn α) (fs : Nat → Nat → α → α) (clip : Option α) (couple : Bool) (d b k : Nat) :
    (Nat → α) × (Nat → α) :=
  after (fun k => lstmStep (fs d 0) (fs d 1) (fs d 2) clip couple a.I a.H (gates 4 a.H a.W a.R a.B d)
      (inputAt a.layout a.X (visit (a.dir.rev d) a.S k) b))
    (initialAt a.layout a.h0 d b, initialAt a.layout a.c0 d b) k

/-- Hidden state of GRU. -/
def gruAt (a : RecIn α) (fs : Nat → Nat → α → α) (clip : Option α) (linearFirst : Bool) (d b k : Nat) : Nat → α :=
  after (fun k => gruStep (fs d 0) (fs d 1) clip linearFirst a.I a.H (gates 3 a.H a.W a.R a.B d)
      (inputAt a.layout a.X (visit (a.dir.rev d) a.S k) b))
    (initialAt a.layout a.h0 d b) k

/-- Hidden state of RNN. -/
def rnnAt (a : RecIn α) (fs : Nat → Nat → α → α) (clip : Option α) (d b k : Nat) : Nat → α :=
  after (fun k => rnnStep (fs d 0) clip a.I a.H (gates 1 a.H a.W a.R a.B d)
      (inputAt a.layout a.X (visit (a.dir.rev d) a.S k) b))
    (initialAt a.layout a.h0 d b) k

/-- Outputs Y, Y_h and Y_c of LSTM. -/
def lstmT (a : RecIn α) (fs : Nat → Nat → α → α) (clip : Option α) (couple : Bool) : Tensor α × Tensor α × Tensor α :=
  (allStates a.layout a.dir a.S a.N a.H fun d b k j => (lstmAt a fs clip couple d b k).1 j,
   lastState a.layout a.dir a.S a.N a.H fun d b k j => (lstmAt a fs clip couple d b k).1 j,
   lastState a.layout a.dir a.S a.N a.H fun d b k j => (lstmAt a fs clip couple d b k).2 j)

/-- Outputs Y and Y_h of GRU. -/
def gruT (a : RecIn α) (fs : Nat → Nat → α → α) (clip : Option α) (linearFirst : Bool) : Tensor α × Tensor α :=
  (allStates a.layout a.dir a.S a.N a.H (gruAt a fs clip linearFirst),
   lastState a.layout a.dir a.S a.N a.H (gruAt a fs clip linearFirst))

/-- Outputs Y and Y_h of RNN. -/
def rnnT (a : RecIn α) (fs : Nat → Nat → α → α) (clip : Option α) : Tensor α × Tensor α :=
  (allStates a.layout a.dir a.S a.N a.H (rnnAt a fs clip), lastState a.layout a.dir a.S a.N a.H (rnnAt a fs clip))

end Onnx

namespace Burn

/-- Where the cells of a recurrent module keep their parameters: a bidirectional module has a cell `forward` for the first
direction and a cell `reverse` for the second, the others have one cell and no name for it. -/
def cellPath : RecDir → Nat → String
  | .bidirectional, 0 => "forward."
  | .bidirectional, _ => "reverse."
  | _, _ => ""

/-- `tensor.slice([a..b, …])`. -/
def sliceBox [Inhabited α] (t : Tensor α) (rs : List (Nat × Nat)) : Option (Tensor α) :=
  slice t (rs.map fun r => ⟨r.1, some r.2, 1⟩)

/-- `Tensor::swap_dims`; panics when a dimension does not exist. -/
def swapDims [Inhabited α] (t : Tensor α) (a b : Nat) : Option (Tensor α) :=
  if a < t.shape.length ∧ b < t.shape.length then
    some (permute t (((List.range t.shape.length).set a b).set b a))
  else none

/-- Parameters of `nn::Linear`: weight `[inputs, outputs]` and bias. -/
structure Linear (α : Type) where
  weight : Tensor α
  bias : Option (Tensor α)

/-- Parameters of a gate: one linear map for the input and one for the state. -/
structure Gate (α : Type) where
  inp : Linear α
  hid : Linear α

/-- The parameters have the shapes of the module. -/
def Gate.fits (g : Gate α) (I H : Nat) (bias : Bool) : Bool :=
  decide (g.inp.weight.shape = [I, H]) && decide (g.hid.weight.shape = [H, H]) &&
    decide (g.inp.bias.map (·.shape) = if bias then some [H] else none) &&
    decide (g.hid.bias.map (·.shape) = if bias then some [H] else none)

variable [Inhabited α]

/-- A sequence of hidden states as the modules return it: `[S, N, directions * H]`, or `[N, S, directions * H]` with
`batch_first`; `hid` gives the hidden state by direction, batch entry, steps and unit. -/
def sequence (batchFirst : Bool) (dir : RecDir) (S N H : Nat) (hid : Nat → Nat → Nat → Nat → α) : Tensor α :=
  if batchFirst then
    Tensor.ofFn [N, S, dir.count * H] fun i =>
      hid (i.getD 2 0 / H) (i.getD 0 0) (stepsAt (dir.rev (i.getD 2 0 / H)) S (i.getD 1 0)) (i.getD 2 0 % H)
  else
    Tensor.ofFn [S, N, dir.count * H] fun i =>
      hid (i.getD 2 0 / H) (i.getD 1 0) (stepsAt (dir.rev (i.getD 2 0 / H)) S (i.getD 0 0)) (i.getD 2 0 % H)

/-- A state as the modules take and return it: `[N, H]`, or `[2, N, H]` with two directions. -/
def stateShape (dir : RecDir) (N H : Nat) : List Nat :=
  match dir with
  | .bidirectional => [2, N, H]
  | _ => [N, H]

/-- Element of a state, 0 when it is not given. -/
def stateAt [Zero α] (dir : RecDir) (T : Option (Tensor α)) (d b j : Nat) : α :=
  match dir with
  | .bidirectional => T.elim 0 (·.get [d, b, j])
  | _ => T.elim 0 (·.get [b, j])

/-- The state after the last step. -/
def finalState (dir : RecDir) (S N H : Nat) (st : Nat → Nat → Nat → Nat → α) : Tensor α :=
  match dir with
  | .bidirectional => Tensor.ofFn [2, N, H] fun i => st (i.getD 0 0) (i.getD 1 0) S (i.getD 2 0)
  | _ => Tensor.ofFn [N, H] fun i => st 0 (i.getD 0 0) S (i.getD 1 0)

/-- Sizes `S` and `N` of an input with `I` features, all at least 1; anything else is left out. -/
def seqSizes (batchFirst : Bool) (I : Nat) : List Nat → Option (Nat × Nat)
  | [p, q, r] => if r = I ∧ 0 < p ∧ 0 < q ∧ 0 < r then some (if batchFirst then (q, p) else (p, q)) else none
  | _ => none

variable [CommRing α] [Min α] [Max α]

/-- `nn::Linear::forward` on one row of `n` numbers. -/
def Linear.run (l : Linear α) (n : Nat) (x : Nat → α) (j : Nat) : α :=
  sumTo n (fun m => x m * l.weight.get [m, j]) + l.bias.elim 0 (·.get [j])

/-- `GateController::gate_product`: both linear maps, added. -/
def Gate.run (g : Gate α) (I H : Nat) (x h : Nat → α) (j : Nat) : α := g.inp.run I x j + g.hid.run H h j

/-- One step of `nn::Lstm`. The threshold is applied to the cell state. -/
def lstmStep (gate cell hidden : α → α) (clip : Option α) (couple : Bool) (I H : Nat) (gi gf go gc : Gate α) (x : Nat → α)
    (s : (Nat → α) × (Nat → α)) : (Nat → α) × (Nat → α) :=
  let i j := gate (gi.run I H x s.1 j)
  let f j := if couple then 1 - i j else gate (gf.run I H x s.1 j)
  let o j := gate (go.run I H x s.1 j)
  let c j := cell (gc.run I H x s.1 j)
  let C j := clipTo clip (f j * s.2 j + i j * c j)
  (fun j => o j * hidden (C j), C)

/-- One step of `nn::gru::Gru`; sigmoid and tanh are fixed. -/
def gruStep (sigmoid tanh : α → α) (resetAfter : Bool) (I H : Nat) (gz gr gn : Gate α) (x h : Nat → α) : Nat → α :=
  let z j := sigmoid (gz.run I H x h j)
  let r j := sigmoid (gr.run I H x h j)
  let n j :=
    if resetAfter then tanh (gn.inp.run I x j + r j * gn.hid.run H h j)
    else tanh (gn.inp.run I x j + gn.hid.run H (fun m => r m * h m) j)
  fun j => n j * (1 - z j) + z j * h j

/-- One step of `nn::Rnn`. The threshold is applied to the hidden state. -/
def rnnStep (act : α → α) (clip : Option α) (I H : Nat) (g : Gate α) (x h : Nat → α) : Nat → α :=
  fun j => clipTo clip (act (g.run I H x h j))

/-- `Lstm::forward` and `BiLstm::forward`: all hidden states, then the last hidden and cell state. `gs d` are the gates of
direction `d`: input, forget, output, cell. -/
def lstm (gate cell hidden : α → α) (clip : Option α) (couple batchFirst bias : Bool) (dir : RecDir) (I H : Nat)
    (gs : Nat → Gate α × Gate α × Gate α × Gate α) (x : Tensor α) (state : Option (Tensor α × Tensor α)) :
    Option (Tensor α × Tensor α × Tensor α) :=
  (seqSizes batchFirst I x.shape).bind fun (S, N) =>
    if (∀ d ∈ List.range dir.count, (gs d).1.fits I H bias ∧ (gs d).2.1.fits I H bias ∧ (gs d).2.2.1.fits I H bias ∧
          (gs d).2.2.2.fits I H bias) ∧
        (∀ st ∈ state, st.1.shape = stateShape dir N H ∧ st.2.shape = stateShape dir N H) then
      let at_ d b k := after (fun k => lstmStep gate cell hidden clip couple I H (gs d).1 (gs d).2.1 (gs d).2.2.1 (gs d).2.2.2
          (fun m => x.get (if batchFirst then [b, visit (dir.rev d) S k, m] else [visit (dir.rev d) S k, b, m])))
        (stateAt dir (state.map (·.1)) d b, stateAt dir (state.map (·.2)) d b) k
      some (sequence batchFirst dir S N H fun d b k j => (at_ d b k).1 j,
        finalState dir S N H fun d b k j => (at_ d b k).1 j, finalState dir S N H fun d b k j => (at_ d b k).2 j)
    else none

/-- A module with a hidden state only. -/
def recurrent (step : Nat → (Nat → α) → (Nat → α) → Nat → α) (batchFirst : Bool) (dir : RecDir) (I H : Nat) (fits : Bool)
    (x : Tensor α) (state : Option (Tensor α)) : Option (Tensor α × Tensor α) :=
  (seqSizes batchFirst I x.shape).bind fun (S, N) =>
    if fits ∧ (∀ st ∈ state, st.shape = stateShape dir N H) then
      let at_ d b k := after (fun k => step d
          (fun m => x.get (if batchFirst then [b, visit (dir.rev d) S k, m] else [visit (dir.rev d) S k, b, m])))
        (stateAt dir state d b) k
      some (sequence batchFirst dir S N H at_, finalState dir S N H at_)
    else none

/-- `Gru::forward` (always batch first and from the start) and `BiGru::forward`. `gs d` are update, reset and new gate. -/
def gru (sigmoid tanh : α → α) (resetAfter batchFirst bias : Bool) (dir : RecDir) (I H : Nat)
    (gs : Nat → Gate α × Gate α × Gate α) (x : Tensor α) (state : Option (Tensor α)) : Option (Tensor α × Tensor α) :=
  recurrent (fun d => gruStep sigmoid tanh resetAfter I H (gs d).1 (gs d).2.1 (gs d).2.2) batchFirst dir I H
    ((List.range dir.count).all fun d => (gs d).1.fits I H bias && (gs d).2.1.fits I H bias && (gs d).2.2.fits I H bias) x state

/-- `Rnn::forward` and `BiRnn::forward`. -/
def rnn (act : α → α) (clip : Option α) (batchFirst bias : Bool) (dir : RecDir) (I H : Nat) (gs : Nat → Gate α)
    (x : Tensor α) (state : Option (Tensor α)) : Option (Tensor α × Tensor α) :=
  recurrent (fun d => rnnStep act clip I H (gs d)) batchFirst dir I H
    ((List.range dir.count).all fun d => (gs d).fits I H bias) x state

end Burn

end OnnxIR
