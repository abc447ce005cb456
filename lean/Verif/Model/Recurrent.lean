import Verif.Spec.Recurrent
import Verif.Spec.BurnAxis

/-!
# Generated code of LSTM, GRU and RNN

Models `crates/burn-onnx/src/burn/node/{lstm,gru,rnn}.rs` with the configuration from
`crates/onnx-ir/src/node/{lstm,gru,rnn}.rs`. Stored numbers are exact: the sums of biases are computed in `f64` and
converted back in the code.
-/

namespace OnnxIR

namespace Infer

/-- onnx-ir `node/lstm.rs` 456-503: the activations of gates, cell and hidden state. `none` is an error. -/
def lstmActs (dir : RecDir) : Option (List RecAct) → Option (RecAct × RecAct × RecAct)
  | none | some [] => some (.sigmoid, .tanh, .tanh)
  | some (f :: g :: h :: rest) =>
    match dir, rest with
    | .bidirectional, f2 :: g2 :: h2 :: _ => if f ≠ f2 ∨ g ≠ g2 ∨ h ≠ h2 then none else some (f, g, h)
    | _, _ => some (f, g, h)
  | some _ => none

/-- onnx-ir `node/gru.rs` 393-425. -/
def gruActs (dir : RecDir) : Option (List RecAct) → Option (RecAct × RecAct)
  | none | some [] => some (.sigmoid, .tanh)
  | some (f :: g :: rest) =>
    match dir, rest with
    | .bidirectional, f2 :: g2 :: _ => if f ≠ f2 ∨ g ≠ g2 then none else some (f, g)
    | _, _ => some (f, g)
  | some _ => none

/-- onnx-ir `node/rnn.rs` 376-401. -/
def rnnActs (dir : RecDir) : Option (List RecAct) → Option RecAct
  | none | some [] => some .tanh
  | some (f :: rest) =>
    match dir, rest with
    | .bidirectional, f2 :: _ => if f ≠ f2 then none else some f
    | _, _ => some f

/-- onnx-ir `node/lstm.rs` 444-447, `node/gru.rs` 380-383, `node/rnn.rs` 302-305: only a positive threshold counts. -/
def recClip {α : Type} [Zero α] [LT α] [DecidableLT α] (clip : Option α) : Option α :=
  clip.bind fun c => if 0 < c then some c else none

end Infer

namespace Gen

variable {α : Type}

/-- The attributes of a recurrent node that these operators read, and its weights. `none` in `W`, `R` or inside `B` is an
input that is not a constant. -/
structure RecNode (α : Type) where
  dir : RecDir
  layout : Bool
  I : Nat
  H : Nat
  acts : Option (List RecAct)
  alpha : List α
  beta : List α
  clip : Option α
  /-- `input_forget` of LSTM, `linear_before_reset` of GRU. -/
  flag : Bool
  W : Option (Tensor α)
  R : Option (Tensor α)
  B : Option (Option (Tensor α))

/-- `to_burn_activation` (`lstm.rs` 32-53, `rnn.rs` 28-49): six functions with Burn's default parameters, which are
ONNX's; the others panic. The parameters given on the node are not passed on. -/
def burnAct (act : RecAct → Option α → Option α → α → α) : RecAct → Option (α → α)
  | .sigmoid => some (act .sigmoid none none)
  | .tanh => some (act .tanh none none)
  | .relu => some (act .relu none none)
  | .hardSigmoid => some (act .hardSigmoid none none)
  | .leakyRelu => some (act .leakyRelu none none)
  | .softplus => some (act .softplus none none)
  | _ => none

/-- The prefixes of the record paths (`lstm.rs` 100-103, `gru.rs` 66-69, `rnn.rs` 94-97). -/
def prefixes : RecDir → List String
  | .bidirectional => ["forward.", "reverse."]
  | _ => [""]

variable [Inhabited α]

/-- W, R and B of one direction (`lstm.rs` 114-133, `gru.rs` 79-96, `rnn.rs` 108-126) for `G` gates. -/
def dirWeights (G H I : Nat) (W R : Tensor α) (B : Option (Tensor α)) (d : Nat) :
    Option (Tensor α × Tensor α × Option (Tensor α)) := do
  let w ← (Burn.sliceBox W [(d, d + 1), (0, G * H), (0, I)]).bind (Burn.squeezeOnes · 2)
  let r ← (Burn.sliceBox R [(d, d + 1), (0, G * H), (0, H)]).bind (Burn.squeezeOnes · 2)
  match B with
  | none => pure (w, r, none)
  | some B =>
    let b ← (Burn.sliceBox B [(d, d + 1), (0, 2 * G * H)]).bind (Burn.squeezeOnes · 1)
    pure (w, r, some b)

/-- A stored tensor with its path below the field. -/
abbrev Snapshot (α : Type) := String × Tensor α

/-- The stored tensors of a gate: the weight of the input (`lstm.rs` 142-156), its bias (159-177), the weight of the state
(181-198) and its bias (201-213). With `combine` both biases are added into the first and the second is zero (LSTM and
RNN); otherwise each is stored in its place (`gru.rs` 118-164). -/
def gateSnapshots [Add α] [Zero α] (combine : Bool) (G H I : Nat) (w r : Tensor α) (b : Option (Tensor α)) (path : String) (g : Nat) :
    Option (List (Snapshot α)) := do
  let wg ← (Burn.sliceBox w [(g * H, g * H + H), (0, I)]).bind (Burn.swapDims · 0 1)
  let rg ← (Burn.sliceBox r [(g * H, g * H + H), (0, H)]).bind (Burn.swapDims · 0 1)
  match b with
  | none => pure [(path ++ ".input_transform.weight", wg), (path ++ ".hidden_transform.weight", rg)]
  | some b =>
    let wb ← Burn.sliceBox b [(g * H, g * H + H)]
    let rb ← Burn.sliceBox b [(G * H + g * H, G * H + g * H + H)]
    let first ← if combine then Burn.zip (· + ·) wb rb else pure wb
    let second := if combine then Tensor.ofFn [H] fun _ => 0 else rb
    pure [(path ++ ".input_transform.weight", wg), (path ++ ".input_transform.bias", first),
      (path ++ ".hidden_transform.weight", rg), (path ++ ".hidden_transform.bias", second)]

/-- All stored tensors: per direction and gate name, from the gate at the position given. -/
def snapshots [Add α] [Zero α] (combine : Bool) (names : List (String × Nat)) (G H I : Nat) (W R : Tensor α) (B : Option (Tensor α))
    (dir : RecDir) : Option (List (Snapshot α)) := do
  let parts ← (prefixes dir).zipIdx.mapM fun (p, d) => do
    let (w, r, b) ← dirWeights G H I W R B d
    let gs ← names.mapM fun (n, g) => gateSnapshots combine G H I w r b (p ++ n) g
    pure gs.flatten
  pure parts.flatten

/-- The names of LSTM's gates with their positions in ONNX's weights (`lstm.rs` 96-97). -/
def lstmNames : List (String × Nat) := [("input_gate", 0), ("forget_gate", 2), ("output_gate", 1), ("cell_gate", 3)]

/-- `gru.rs` 63-64. -/
def gruNames : List (String × Nat) := [("update_gate", 0), ("reset_gate", 1), ("new_gate", 2)]

/-- `rnn.rs` 91, 128. -/
def rnnNames : List (String × Nat) := [("gate", 0)]

/-- Loading the parameters of a gate by their paths. A tensor that is missing is an error when loading. -/
def loadGate (bias : Bool) (snaps : List (Snapshot α)) (path : String) : Option (Burn.Gate α) := do
  let w ← snaps.lookup (path ++ ".input_transform.weight")
  let r ← snaps.lookup (path ++ ".hidden_transform.weight")
  if bias then
    let wb ← snaps.lookup (path ++ ".input_transform.bias")
    let rb ← snaps.lookup (path ++ ".hidden_transform.bias")
    pure ⟨⟨w, some wb⟩, ⟨r, some rb⟩⟩
  else pure ⟨⟨w, none⟩, ⟨r, none⟩⟩

variable [CommRing α] [LinearOrder α]

/-- The constants of the node; nothing is stored unless `W` and `R` are constants (`lstm.rs` 84-89), and a bias that is
not a constant is not stored either. The bias flag of the module is whether the input is present. -/
def constants (n : RecNode α) : Option (Tensor α × Tensor α × Option (Tensor α)) :=
  match n.W, n.R, n.B with
  | some W, some R, none => some (W, R, none)
  | some W, some R, some (some B) => some (W, R, some B)
  | _, _, _ => none

/-- Output Y from the module's sequence in LSTM and RNN (`lstm.rs` 426-459, `rnn.rs` 402-432). -/
def yOutput (dir : RecDir) (layout : Bool) (H : Nat) (seq : Tensor α) : Option (Tensor α) :=
  match dir, seq.shape with
  | .bidirectional, [p, q, _] =>
    if layout then Burn.reshape seq [p, q, 2, H]
    else (Burn.reshape seq [p, q, 2, H]).bind (Burn.swapDims · 1 2)
  | .bidirectional, _ => none
  | _, _ => Burn.unsqueezeDims seq [1] 4

/-- Outputs Y_h and Y_c from the module's state (`lstm.rs` 408-415, `rnn.rs` 396-400). -/
def stateOutput (dir : RecDir) (st : Tensor α) : Option (Tensor α) :=
  match dir with
  | .bidirectional => some st
  | _ => Burn.unsqueezeDims st [0] 3

/-- An initial state handed to the module (`lstm.rs` 366-378, `rnn.rs` 354-369, `gru.rs` 218-223 and 334-339). -/
def stateInput (dir : RecDir) (T : Tensor α) : Option (Tensor α) :=
  match dir with
  | .bidirectional => some T
  | _ => Burn.squeezeDim T 0

/-- The module's gates of all directions, loaded from the stored tensors. -/
def lstmGates (H I : Nat) (W R : Tensor α) (B : Option (Tensor α)) (dir : RecDir) :
    Option (List (Burn.Gate α × Burn.Gate α × Burn.Gate α × Burn.Gate α)) :=
  (snapshots true lstmNames 4 H I W R B dir).bind fun snaps =>
    (List.range dir.count).mapM fun d => do
      let gi ← loadGate B.isSome snaps (Burn.cellPath dir d ++ "input_gate")
      let gf ← loadGate B.isSome snaps (Burn.cellPath dir d ++ "forget_gate")
      let go ← loadGate B.isSome snaps (Burn.cellPath dir d ++ "output_gate")
      let gc ← loadGate B.isSome snaps (Burn.cellPath dir d ++ "cell_gate")
      pure (gi, gf, go, gc)

/-- The state handed to LSTM (`lstm.rs` 366-386): used when both parts are given. -/
def lstmState (dir : RecDir) : Option (Tensor α) → Option (Tensor α) → Option (Option (Tensor α × Tensor α))
  | some h0, some c0 => (stateInput dir h0).bind fun h => (stateInput dir c0).map fun c => some (h, c)
  | _, _ => some none

/-- The state handed to GRU and RNN. -/
def hiddenState (dir : RecDir) : Option (Tensor α) → Option (Option (Tensor α))
  | some h0 => (stateInput dir h0).map some
  | none => some none

/-- LSTM (`lstm.rs` 69-212 stored tensors, 280-351 module, 357-525 forward code). -/
def genLstm (act : RecAct → Option α → Option α → α → α) (n : RecNode α) (x : Tensor α) (h0 c0 : Option (Tensor α)) :
    Option (Tensor α × Tensor α × Tensor α) :=
  (Infer.lstmActs n.dir n.acts).bind fun as =>
  (burnAct act as.1).bind fun f =>
  (burnAct act as.2.1).bind fun g =>
  (burnAct act as.2.2).bind fun h =>
  (constants n).bind fun c =>
  (lstmGates n.H n.I c.1 c.2.1 c.2.2 n.dir).bind fun gs =>
  gs.head?.bind fun g0 =>
  (lstmState n.dir h0 c0).bind fun state =>
  (Burn.lstm f g h (Infer.recClip n.clip) n.flag n.layout c.2.2.isSome n.dir n.I n.H (fun d => gs.getD d g0) x state).bind fun out =>
  (yOutput n.dir n.layout n.H out.1).bind fun y =>
  (stateOutput n.dir out.2.1).bind fun yh =>
  (stateOutput n.dir out.2.2).map fun yc => (y, yh, yc)

/-- The gates of RNN, loaded from the stored tensors. -/
def rnnGates (H I : Nat) (W R : Tensor α) (B : Option (Tensor α)) (dir : RecDir) : Option (List (Burn.Gate α)) :=
  (snapshots true rnnNames 1 H I W R B dir).bind fun snaps =>
    (List.range dir.count).mapM fun d => loadGate B.isSome snaps (Burn.cellPath dir d ++ "gate")

/-- RNN (`rnn.rs` 65-202 stored tensors, 269-333 module, 339-473 forward code). -/
def genRnn (act : RecAct → Option α → Option α → α → α) (n : RecNode α) (x : Tensor α) (h0 : Option (Tensor α)) :
    Option (Tensor α × Tensor α) :=
  (Infer.rnnActs n.dir n.acts).bind fun a =>
  (burnAct act a).bind fun f =>
  (constants n).bind fun c =>
  (rnnGates n.H n.I c.1 c.2.1 c.2.2 n.dir).bind fun gs =>
  gs.head?.bind fun g0 =>
  (hiddenState n.dir h0).bind fun state =>
  (Burn.rnn f (Infer.recClip n.clip) n.layout c.2.2.isSome n.dir n.I n.H (fun d => gs.getD d g0) x state).bind fun out =>
  (yOutput n.dir n.layout n.H out.1).bind fun y =>
  (stateOutput n.dir out.2).map fun yh => (y, yh)

/-- The gates of GRU, loaded from the stored tensors. -/
def gruGates (H I : Nat) (W R : Tensor α) (B : Option (Tensor α)) (dir : RecDir) :
    Option (List (Burn.Gate α × Burn.Gate α × Burn.Gate α)) :=
  (snapshots false gruNames 3 H I W R B dir).bind fun snaps =>
    (List.range dir.count).mapM fun d => do
      let gz ← loadGate B.isSome snaps (Burn.cellPath dir d ++ "update_gate")
      let gr ← loadGate B.isSome snaps (Burn.cellPath dir d ++ "reset_gate")
      let gn ← loadGate B.isSome snaps (Burn.cellPath dir d ++ "new_gate")
      pure (gz, gr, gn)

/-- `forward_unidirectional` (`gru.rs` 203-314): the module is batch first and reads from the start; the reverse direction
turns the sequence around before and after. `run` is the call of the module. -/
def gruOne (rev layout : Bool) (run : Tensor α → Option (Tensor α)) (x : Tensor α) : Option (Tensor α × Tensor α) :=
  (if layout then some x else Burn.swapDims x 0 1).bind fun input =>
  (if rev then Burn.flip input 1 else some input).bind fun input =>
  (run input).bind fun out =>
  (if rev then Burn.flip out 1 else some out).bind fun out =>
  (if layout then Burn.unsqueezeDims out [2] 4 else (Burn.swapDims out 0 1).bind (Burn.unsqueezeDims · [1] 4)).bind fun y =>
  match out.shape with
  | [b, s, h] =>
    if s = 0 then none
    else
      (Burn.sliceBox out [(0, b), (if rev then (0, 1) else (s - 1, s)), (0, h)]).bind fun step =>
      (Burn.squeezeDim step 1).bind fun flat =>
      (Burn.unsqueezeDims flat [0] 3).map fun yh => (y, yh)
  | _ => none

/-- GRU (`gru.rs` 36-169 stored tensors, 203-396 forward code, 407-453 module): activations other than sigmoid and tanh and
a threshold panic. -/
def genGru (act : RecAct → Option α → Option α → α → α) (n : RecNode α) (x : Tensor α) (h0 : Option (Tensor α)) :
    Option (Tensor α × Tensor α) :=
  (Infer.gruActs n.dir n.acts).bind fun as =>
  if (Infer.recClip n.clip).isSome ∨ as.1 ≠ .sigmoid ∨ as.2 ≠ .tanh then none
  else
  (constants n).bind fun c =>
  (gruGates n.H n.I c.1 c.2.1 c.2.2 n.dir).bind fun gs =>
  gs.head?.bind fun g0 =>
  (hiddenState n.dir h0).bind fun state =>
  match n.dir with
  | .bidirectional =>
    (Burn.gru (act .sigmoid none none) (act .tanh none none) n.flag n.layout c.2.2.isSome .bidirectional n.I n.H
      (fun d => gs.getD d g0) x state).bind fun out =>
    (yOutput .bidirectional n.layout n.H out.1).map fun y => (y, out.2)
  | dir =>
    gruOne (dir = .reverse) n.layout (fun input =>
      (Burn.gru (act .sigmoid none none) (act .tanh none none) n.flag true c.2.2.isSome .forward n.I n.H
        (fun d => gs.getD d g0) input state).map (·.1)) x

end Gen

end OnnxIR
