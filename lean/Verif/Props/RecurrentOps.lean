import Verif.Props.Recurrent
import Verif.Props.Fill
import Mathlib.Algebra.Order.Ring.Rat

/-!
# C64: recurrent operators

Where the code generated for LSTM, GRU and RNN, with its stored parameters loaded into Burn's modules, computes what ONNX
prescribes, and where it does not.
-/

namespace OnnxIR

open Gen

variable {α : Type} [Inhabited α]

/-! ### What is right -/

/-- LSTM, sequence first: Y, Y_h and Y_c are ONNX's for every size, direction, weight, bias, initial state and with coupled
gates. Missing: one unit or feature, a threshold, parameters of activations, one of the two initial states alone, batch
first, and activations that the module does not have; see below. -/
theorem C64_lstm_partial [CommRing α] [LinearOrder α] {act : RecAct → Option α → Option α → α → α} {a : Onnx.RecIn α}
    {acts : Option (List RecAct)} {couple : Bool} (hok : a.Ok 4) (hI : 2 ≤ a.I) (hH : 2 ≤ a.H) (hS : 0 < a.S) (hN : 0 < a.N)
    (hl : a.layout = false) (hboth : a.h0.isSome = a.c0.isSome)
    (hacts : SameActs 3 a.dir (Onnx.allActs [.sigmoid, .tanh, .tanh] a.dir acts))
    (hsup : ∀ x ∈ Onnx.allActs [.sigmoid, .tanh, .tanh] a.dir acts, x ∈ moduleActs) :
    genLstm act (nodeOf a acts [] [] none couple) a.X a.h0 a.c0 =
      some (Onnx.lstmT a (fun d k => Onnx.activation act (Onnx.allActs [.sigmoid, .tanh, .tanh] a.dir acts) [] [] (3 * d + k)) none couple) := by
  rw [genLstm_eq hok hI hH hS hN (Or.inl hl) hboth hacts hsup]
  unfold Onnx.lstmT
  rw [hl]
  rfl

/-- LSTM, batch first, both directions and no initial state: Y is ONNX's. -/
theorem C64_lstm_batch_first_partial [CommRing α] [LinearOrder α] {act : RecAct → Option α → Option α → α → α} {a : Onnx.RecIn α}
    {acts : Option (List RecAct)} {couple : Bool} (hok : a.Ok 4) (hI : 2 ≤ a.I) (hH : 2 ≤ a.H) (hS : 0 < a.S) (hN : 0 < a.N)
    (hd : a.dir = .bidirectional) (h0 : a.h0 = none) (c0 : a.c0 = none)
    (hacts : SameActs 3 a.dir (Onnx.allActs [.sigmoid, .tanh, .tanh] a.dir acts))
    (hsup : ∀ x ∈ Onnx.allActs [.sigmoid, .tanh, .tanh] a.dir acts, x ∈ moduleActs) :
    (genLstm act (nodeOf a acts [] [] none couple) a.X a.h0 a.c0).map (·.1) =
      some (Onnx.lstmT a (fun d k => Onnx.activation act (Onnx.allActs [.sigmoid, .tanh, .tanh] a.dir acts) [] [] (3 * d + k)) none couple).1 := by
  rw [genLstm_eq hok hI hH hS hN (Or.inr ⟨hd, h0, c0⟩) (by rw [h0, c0]) hacts hsup]
  rfl

/-- RNN, sequence first. -/
theorem C64_rnn_partial [CommRing α] [LinearOrder α] {act : RecAct → Option α → Option α → α → α} {a : Onnx.RecIn α}
    {acts : Option (List RecAct)} {flag : Bool} (hok : a.Ok 1) (hI : 2 ≤ a.I) (hH : 2 ≤ a.H) (hS : 0 < a.S) (hN : 0 < a.N)
    (hl : a.layout = false) (hacts : SameActs 1 a.dir (Onnx.allActs [.tanh] a.dir acts))
    (hsup : ∀ x ∈ Onnx.allActs [.tanh] a.dir acts, x ∈ moduleActs) :
    genRnn act (nodeOf a acts [] [] none flag) a.X a.h0 =
      some (Onnx.rnnT a (fun d k => Onnx.activation act (Onnx.allActs [.tanh] a.dir acts) [] [] (1 * d + k)) none) := by
  rw [genRnn_eq hok hI hH hS hN (Or.inl hl) hacts hsup]
  unfold Onnx.rnnT
  rw [hl]
  rfl

/-- RNN, batch first, both directions and no initial state: Y is ONNX's. -/
theorem C64_rnn_batch_first_partial [CommRing α] [LinearOrder α] {act : RecAct → Option α → Option α → α → α} {a : Onnx.RecIn α}
    {acts : Option (List RecAct)} {flag : Bool} (hok : a.Ok 1) (hI : 2 ≤ a.I) (hH : 2 ≤ a.H) (hS : 0 < a.S) (hN : 0 < a.N)
    (hd : a.dir = .bidirectional) (h0 : a.h0 = none) (hacts : SameActs 1 a.dir (Onnx.allActs [.tanh] a.dir acts))
    (hsup : ∀ x ∈ Onnx.allActs [.tanh] a.dir acts, x ∈ moduleActs) :
    (genRnn act (nodeOf a acts [] [] none flag) a.X a.h0).map (·.1) =
      some (Onnx.rnnT a (fun d k => Onnx.activation act (Onnx.allActs [.tanh] a.dir acts) [] [] (1 * d + k)) none).1 := by
  rw [genRnn_eq hok hI hH hS hN (Or.inr ⟨hd, h0⟩) hacts hsup]
  rfl

/-- GRU with sigmoid and tanh, sequence first: Y and Y_h are ONNX's for every direction and for both orders of the linear map
and the reset gate. -/
theorem C64_gru_partial [CommRing α] [LinearOrder α] {act : RecAct → Option α → Option α → α → α} {a : Onnx.RecIn α}
    {acts : Option (List RecAct)} {lin : Bool} (hok : a.Ok 3) (hI : 2 ≤ a.I) (hH : 2 ≤ a.H) (hS : 0 < a.S) (hN : 0 < a.N)
    (hl : a.layout = false)
    (hacts : Onnx.allActs [.sigmoid, .tanh] a.dir acts = Onnx.allActs [.sigmoid, .tanh] a.dir none) :
    genGru act (nodeOf a acts [] [] none lin) a.X a.h0 =
      some (Onnx.gruT a (fun d k => Onnx.activation act (Onnx.allActs [.sigmoid, .tanh] a.dir acts) [] [] (2 * d + k)) none lin) := by
  rw [genGru_eq hok hI hH hS hN (Or.inl hl) hacts]
  unfold Onnx.gruT
  rw [hl]
  rfl

/-- GRU without an initial state: Y is ONNX's in both layouts and all directions. -/
theorem C64_gru_batch_first_partial [CommRing α] [LinearOrder α] {act : RecAct → Option α → Option α → α → α} {a : Onnx.RecIn α}
    {acts : Option (List RecAct)} {lin : Bool} (hok : a.Ok 3) (hI : 2 ≤ a.I) (hH : 2 ≤ a.H) (hS : 0 < a.S) (hN : 0 < a.N)
    (h0 : a.h0 = none)
    (hacts : Onnx.allActs [.sigmoid, .tanh] a.dir acts = Onnx.allActs [.sigmoid, .tanh] a.dir none) :
    (genGru act (nodeOf a acts [] [] none lin) a.X a.h0).map (·.1) =
      some (Onnx.gruT a (fun d k => Onnx.activation act (Onnx.allActs [.sigmoid, .tanh] a.dir acts) [] [] (2 * d + k)) none lin).1 := by
  rw [genGru_eq hok hI hH hS hN (Or.inr h0) hacts]
  rfl

/-! ### A concrete model -/

/-- Activations on integers: Relu as ONNX defines it, LeakyRelu with an integer slope (0 for the default of 0.01), the others
stand for any function. -/
def intAct : RecAct → Option Int → Option Int → Int → Int
  | .relu, _, _, x => max 0 x
  | .leakyRelu, al, _, x => if x < 0 then al.getD 0 * x else x
  | .sigmoid, _, _, x => if x < 0 then 0 else 1
  | .tanh, _, _, x => max (-1) (min 1 x)
  | _, _, _, x => x

/-- HardSigmoid on rational numbers. -/
def ratAct : RecAct → Option Rat → Option Rat → Rat → Rat
  | .hardSigmoid, al, be, x => max 0 (min 1 (al.getD (1 / 5) * x + be.getD (1 / 2)))
  | _, _, _, x => x

/-- One step of RNN on rational numbers. -/
def ratExample : Onnx.RecIn Rat where
  dir := .forward
  layout := false
  S := 1
  N := 1
  I := 2
  H := 2
  X := ⟨[1, 1, 2], [1, 1], rfl⟩
  W := ⟨[1, 2, 2], [-10, -10, 10, 10], rfl⟩
  R := ⟨[1, 2, 2], [0, 0, 0, 0], rfl⟩
  B := none
  h0 := none
  c0 := none

/-- A tensor of consecutive integers. -/
def count (s : List Nat) (first : Int) : Tensor Int := Tensor.ofFn s fun i => (flatIdx s i : Int) + first

/-- A node with `G` gates, two units and two features. -/
def recExample (G : Nat) (dir : RecDir) (layout : Bool) (S N : Nat) (h0 c0 : Option (Tensor Int)) : Onnx.RecIn Int where
  dir := dir
  layout := layout
  S := S
  N := N
  I := 2
  H := 2
  X := count (if layout then [N, S, 2] else [S, N, 2]) (-1)
  W := count [dir.count, G * 2, 2] (-3)
  R := count [dir.count, G * 2, 2] (-2)
  B := some (count [dir.count, 2 * G * 2] (-4))
  h0 := h0
  c0 := c0

example : (recExample 4 .bidirectional false 3 2 (some (count [2, 2, 2] 1)) (some (count [2, 2, 2] 3))).Ok 4 ∧
    SameActs 3 .bidirectional (Onnx.allActs [.sigmoid, .tanh, .tanh] .bidirectional (some [.relu, .tanh, .tanh, .relu, .tanh, .tanh])) ∧
    (∀ x ∈ Onnx.allActs [.sigmoid, .tanh, .tanh] .bidirectional (some [.relu, .tanh, .tanh, .relu, .tanh, .tanh]), x ∈ moduleActs) := by
  refine ⟨⟨rfl, rfl, rfl, ?_, ?_, ?_⟩, ⟨rfl, ?_⟩, by decide⟩
  · rintro B ⟨⟩; rfl
  · rintro B ⟨⟩; rfl
  · rintro B ⟨⟩; rfl
  · decide

example : (recExample 3 .reverse true 3 2 none none).Ok 3 ∧ (recExample 1 .reverse false 3 2 (some (count [1, 2, 2] 1)) none).Ok 1 ∧
    Onnx.allActs [.sigmoid, .tanh] .reverse (some [.sigmoid, .tanh]) = Onnx.allActs [.sigmoid, .tanh] .reverse none := by
  refine ⟨⟨rfl, rfl, rfl, ?_, ?_, ?_⟩, ⟨rfl, rfl, rfl, ?_, ?_, ?_⟩, rfl⟩ <;> first | (rintro B ⟨⟩; rfl) | (intro B hB; cases hB)

/-- The code run on the example, with the functions that ONNX prescribes beside it. -/
def runLstm (a : Onnx.RecIn Int) (acts : Option (List RecAct)) (alpha : List Int) (clip : Option Int) :
    Option (Tensor Int × Tensor Int × Tensor Int) :=
  genLstm intAct (nodeOf a acts alpha [] clip false) a.X a.h0 a.c0

/-- See `runLstm`. -/
def runRnn (a : Onnx.RecIn Int) (acts : Option (List RecAct)) (alpha : List Int) (clip : Option Int) : Option (Tensor Int × Tensor Int) :=
  genRnn intAct (nodeOf a acts alpha [] clip false) a.X a.h0

/-- See `runLstm`. -/
def runGru (a : Onnx.RecIn Int) (acts : Option (List RecAct)) (clip : Option Int) : Option (Tensor Int × Tensor Int) :=
  genGru intAct (nodeOf a acts [] [] clip false) a.X a.h0

/-- What ONNX prescribes for the example. -/
def wantLstm (a : Onnx.RecIn Int) (acts : Option (List RecAct)) (alpha : List Int) (clip : Option Int) :
    Tensor Int × Tensor Int × Tensor Int :=
  Onnx.lstmT a (fun d k => Onnx.activation intAct (Onnx.allActs [.sigmoid, .tanh, .tanh] a.dir acts) alpha [] (3 * d + k)) clip false

/-- See `wantLstm`. -/
def wantRnn (a : Onnx.RecIn Int) (acts : Option (List RecAct)) (alpha : List Int) (clip : Option Int) : Tensor Int × Tensor Int :=
  Onnx.rnnT a (fun d k => Onnx.activation intAct (Onnx.allActs [.tanh] a.dir acts) alpha [] (1 * d + k)) clip

/-- See `wantLstm`. -/
def wantGru (a : Onnx.RecIn Int) (acts : Option (List RecAct)) (clip : Option Int) : Tensor Int × Tensor Int :=
  Onnx.gruT a (fun d k => Onnx.activation intAct (Onnx.allActs [.sigmoid, .tanh] a.dir acts) [] [] (2 * d + k)) clip false

/-! ### What is not -/

/-- An initial state of LSTM is dropped when only one of its two parts is given. -/
theorem C64_lstm_one_state_ignored [CommRing α] [LinearOrder α] {act : RecAct → Option α → Option α → α → α} {n : RecNode α}
    {x : Tensor α} {h0 c0 : Option (Tensor α)} (h : h0.isSome ≠ c0.isSome) : genLstm act n x h0 c0 = genLstm act n x none none := by
  have e : lstmState n.dir h0 c0 = lstmState n.dir none none := by
    match h0, c0, h with
    | some _, none, _ => rfl
    | none, some _, _ => rfl
    | none, none, h => exact absurd rfl h
    | some _, some _, h => exact absurd rfl h
  unfold genLstm
  rw [e]

/-- The result is then not ONNX's: an initial hidden state alone, and an initial cell state alone. -/
theorem C64_lstm_one_state_wrong :
    (runLstm (recExample 4 .forward false 2 1 (some (count [1, 1, 2] 5)) none) (some [.relu, .relu, .relu]) [] none).isSome ∧
    runLstm (recExample 4 .forward false 2 1 (some (count [1, 1, 2] 5)) none) (some [.relu, .relu, .relu]) [] none ≠
      some (wantLstm (recExample 4 .forward false 2 1 (some (count [1, 1, 2] 5)) none) (some [.relu, .relu, .relu]) [] none) ∧
    runLstm (recExample 4 .forward false 2 1 none (some (count [1, 1, 2] 5))) (some [.relu, .relu, .relu]) [] none ≠
      some (wantLstm (recExample 4 .forward false 2 1 none (some (count [1, 1, 2] 5))) (some [.relu, .relu, .relu]) [] none) := by
  decide +kernel

/-- Batch first in one direction: Y comes as `[batch, 1, steps, units]` where ONNX has `[batch, steps, 1, units]`. -/
theorem C64_batch_first_y_wrong :
    (runLstm (recExample 4 .forward true 3 2 none none) none [] none).map (·.1.shape) = some [2, 1, 3, 2] ∧
    (wantLstm (recExample 4 .forward true 3 2 none none) none [] none).1.shape = [2, 3, 1, 2] ∧
    (runRnn (recExample 1 .reverse true 3 2 none none) none [] none).map (·.1.shape) = some [2, 1, 3, 2] ∧
    (wantRnn (recExample 1 .reverse true 3 2 none none) none [] none).1.shape = [2, 3, 1, 2] := by
  decide +kernel

/-- Batch first: Y_h and Y_c come as `[directions, batch, units]` where ONNX has `[batch, directions, units]`. -/
theorem C64_batch_first_state_wrong :
    (runLstm (recExample 4 .bidirectional true 2 3 none none) none [] none).map (fun o => (o.2.1.shape, o.2.2.shape)) =
      some ([2, 3, 2], [2, 3, 2]) ∧
    (wantLstm (recExample 4 .bidirectional true 2 3 none none) none [] none).2.1.shape = [3, 2, 2] ∧
    (runGru (recExample 3 .reverse true 2 3 none none) none none).map (·.2.shape) = some [1, 3, 2] ∧
    (wantGru (recExample 3 .reverse true 2 3 none none) none none).2.shape = [3, 1, 2] ∧
    (runRnn (recExample 1 .forward true 2 3 none none) none [] none).map (·.2.shape) = some [1, 3, 2] ∧
    (wantRnn (recExample 1 .forward true 2 3 none none) none [] none).2.shape = [3, 1, 2] := by
  decide +kernel

/-- Batch first with an initial state in ONNX's layout panics unless the batch has as many entries as there are directions;
with two of each the two axes are confused. -/
theorem C64_batch_first_initial_fails :
    runLstm (recExample 4 .forward true 2 3 (some (count [3, 1, 2] 1)) (some (count [3, 1, 2] 1))) none [] none = none ∧
    runGru (recExample 3 .forward true 2 3 (some (count [3, 1, 2] 1)) none) none none = none ∧
    runRnn (recExample 1 .bidirectional true 2 3 (some (count [3, 2, 2] 1)) none) none [] none = none ∧
    (runRnn (recExample 1 .bidirectional true 2 2 (some (count [2, 2, 2] 1)) none) (some [.relu, .relu]) [] none).isSome ∧
    (runRnn (recExample 1 .bidirectional true 2 2 (some (count [2, 2, 2] 1)) none) (some [.relu, .relu]) [] none).map (·.1) ≠
      some (wantRnn (recExample 1 .bidirectional true 2 2 (some (count [2, 2, 2] 1)) none) (some [.relu, .relu]) [] none).1 := by
  decide +kernel

/-- A threshold that is not positive is ignored by all three operators. -/
theorem C64_clip_nonpositive_ignored {α : Type} [Inhabited α] [CommRing α] [LinearOrder α] {act : RecAct → Option α → Option α → α → α} {n : RecNode α}
    {x : Tensor α} {h0 c0 : Option (Tensor α)} {c : α} (hc : c ≤ 0) :
    genLstm act { n with clip := some c } x h0 c0 = genLstm act { n with clip := none } x h0 c0 ∧
    genGru act { n with clip := some c } x h0 = genGru act { n with clip := none } x h0 ∧
    genRnn act { n with clip := some c } x h0 = genRnn act { n with clip := none } x h0 := by
  have e : Infer.recClip (some c) = Infer.recClip (none : Option α) := by simp [Infer.recClip, hc]
  refine ⟨?_, ?_, ?_⟩
  · simp only [genLstm, e]; rfl
  · simp only [genGru, e]; rfl
  · simp only [genRnn, e]; rfl

/-- A threshold: LSTM's module applies it to the cell state and RNN's to the hidden state, where ONNX applies it to the input of
the activation functions. -/
theorem C64_clip_wrong :
    (runLstm (recExample 4 .forward false 3 1 none none) (some [.relu, .relu, .relu]) [] (some 2)).isSome ∧
    runLstm (recExample 4 .forward false 3 1 none none) (some [.relu, .relu, .relu]) [] (some 2) ≠
      some (wantLstm (recExample 4 .forward false 3 1 none none) (some [.relu, .relu, .relu]) [] (some 2)) ∧
    (genRnn ratAct (nodeOf ratExample (some [.hardSigmoid]) [] [] (some 1) false) ratExample.X none).map (·.2.data) = some [0, 1] ∧
    (Onnx.rnnT ratExample (fun d k => Onnx.activation ratAct [.hardSigmoid] [] [] (1 * d + k)) (some 1)).2.data = [3 / 10, 7 / 10] := by
  decide +kernel

/-- The parameters of activations are dropped. -/
theorem C64_alpha_ignored [CommRing α] [LinearOrder α] {act : RecAct → Option α → Option α → α → α} {a : Onnx.RecIn α}
    {acts : Option (List RecAct)} {alpha beta : List α} {clip : Option α} {flag : Bool} :
    genLstm act (nodeOf a acts alpha beta clip flag) a.X a.h0 a.c0 = genLstm act (nodeOf a acts [] [] clip flag) a.X a.h0 a.c0 ∧
    genGru act (nodeOf a acts alpha beta clip flag) a.X a.h0 = genGru act (nodeOf a acts [] [] clip flag) a.X a.h0 ∧
    genRnn act (nodeOf a acts alpha beta clip flag) a.X a.h0 = genRnn act (nodeOf a acts [] [] clip flag) a.X a.h0 :=
  ⟨rfl, rfl, rfl⟩

/-- Hence LeakyRelu with its own slope is not ONNX's. -/
theorem C64_alpha_wrong :
    (runRnn (recExample 1 .forward false 2 1 none none) (some [.leakyRelu]) [2] none).isSome ∧
    runRnn (recExample 1 .forward false 2 1 none none) (some [.leakyRelu]) [2] none ≠
      some (wantRnn (recExample 1 .forward false 2 1 none none) (some [.leakyRelu]) [2] none) := by
  decide +kernel

theorem squeeze_short {T : Tensor α} {D a b d : Nat} (h : T.shape = [D, a, b]) (hd : d < D) (hb : b = 1) :
    (Burn.sliceBox T [(d, d + 1), (0, a), (0, b)]).bind (Burn.squeezeOnes · 2) = none := by
  rw [box3 h hd, Option.bind_some]
  unfold Burn.squeezeOnes
  refine if_neg ?_
  subst hb
  have : ((Tensor.ofFn [1, a, 1] fun i => T.get [d, i.getD 1 0, i.getD 2 0]).shape.filter (· ≠ 1)).length ≤ 1 := by
    by_cases ha : a = 1 <;> simp [Tensor.ofFn, ha]
  omega

theorem snapshots_none [Add α] [Zero α] {combine : Bool} {G H I : Nat} {W R : Tensor α} {B : Option (Tensor α)} {dir : RecDir}
    {names : List (String × Nat)} (hW : W.shape = [dir.count, G * H, I])
    (hR : R.shape = [dir.count, G * H, H]) (h : I = 1 ∨ H = 1) :
    snapshots combine names G H I W R B dir = none := by
  have hw : dirWeights G H I W R B 0 = none := by
    have h0 : 0 < dir.count := by cases dir <;> simp [RecDir.count]
    unfold dirWeights
    by_cases hI : I = 1
    · rw [squeeze_short hW h0 hI]
      rfl
    · rw [squeeze_short hR h0 (by omega)]
      cases (Burn.sliceBox W [(0, 0 + 1), (0, G * H), (0, I)]).bind (Burn.squeezeOnes · 2) <;> rfl
  obtain ⟨p, hp⟩ : ∃ p, (p, 0) ∈ (prefixes dir).zipIdx := by
    cases dir <;> exact ⟨_, List.mem_cons_self ..⟩
  unfold snapshots
  refine (congrArg (Option.bind · _) (mapM_none (x := (p, 0)) ?_ hp)).trans rfl
  simp only [hw]
  rfl

/-- One feature or one unit: storing the weights panics, since all dimensions of size one are dropped. -/
theorem C64_one_unit_panics [CommRing α] [LinearOrder α] {act : RecAct → Option α → Option α → α → α} {a : Onnx.RecIn α}
    {acts : Option (List RecAct)} {alpha beta : List α} {clip : Option α} {flag : Bool} (h : a.I = 1 ∨ a.H = 1) :
    (a.Ok 4 → genLstm act (nodeOf a acts alpha beta clip flag) a.X a.h0 a.c0 = none) ∧
    (a.Ok 3 → genGru act (nodeOf a acts alpha beta clip flag) a.X a.h0 = none) ∧
    (a.Ok 1 → genRnn act (nodeOf a acts alpha beta clip flag) a.X a.h0 = none) := by
  have hnone : ∀ {β γ : Type} (o : Option β), o.bind (fun _ => (none : Option γ)) = none := fun o => by cases o <;> rfl
  refine ⟨fun hok => ?_, fun hok => ?_, fun hok => ?_⟩
  · have hg : lstmGates a.H a.I a.W a.R a.B a.dir = none := by
      unfold lstmGates
      rw [snapshots_none hok.2.1 hok.2.2.1 h]
      rfl
    unfold genLstm
    simp only [constants_nodeOf, Option.bind_some]
    rw [show lstmGates (nodeOf a acts alpha beta clip flag).H (nodeOf a acts alpha beta clip flag).I a.W a.R a.B
      (nodeOf a acts alpha beta clip flag).dir = none from hg]
    simp only [Option.bind_none, hnone]
  · have hg : gruGates a.H a.I a.W a.R a.B a.dir = none := by
      unfold gruGates
      rw [snapshots_none hok.2.1 hok.2.2.1 h]
      rfl
    unfold genGru
    simp only [constants_nodeOf, Option.bind_some]
    rw [show gruGates (nodeOf a acts alpha beta clip flag).H (nodeOf a acts alpha beta clip flag).I a.W a.R a.B
      (nodeOf a acts alpha beta clip flag).dir = none from hg]
    simp only [Option.bind_none, ite_self, hnone]
  · have hg : rnnGates a.H a.I a.W a.R a.B a.dir = none := by
      unfold rnnGates
      rw [snapshots_none hok.2.1 hok.2.2.1 h]
      rfl
    unfold genRnn
    simp only [constants_nodeOf, Option.bind_some]
    rw [show rnnGates (nodeOf a acts alpha beta clip flag).H (nodeOf a acts alpha beta clip flag).I a.W a.R a.B
      (nodeOf a acts alpha beta clip flag).dir = none from hg]
    simp only [Option.bind_none, hnone]

/-- Weights that are not constants are not read: the module keeps its random initial parameters, which is no result here. -/
theorem C64_weights_not_read [CommRing α] [LinearOrder α] {act : RecAct → Option α → Option α → α → α} {n : RecNode α} {x : Tensor α}
    {h0 c0 : Option (Tensor α)} (h : n.W = none ∨ n.R = none ∨ n.B = some none) :
    genLstm act n x h0 c0 = none ∧ genGru act n x h0 = none ∧ genRnn act n x h0 = none := by
  have hnone : ∀ {β γ : Type} (o : Option β), o.bind (fun _ => (none : Option γ)) = none := fun o => by cases o <;> rfl
  have hc : constants n = none := by
    unfold constants
    obtain h | h | h := h
    · rw [h]
    · rw [h]; cases n.W <;> rfl
    · rw [h]; cases n.W <;> cases n.R <;> rfl
  refine ⟨?_, ?_, ?_⟩
  · unfold genLstm
    simp only [hc, Option.bind_none, hnone]
  · unfold genGru
    simp only [hc, Option.bind_none, ite_self, hnone]
  · unfold genRnn
    simp only [hc, Option.bind_none, hnone]

/-- GRU: every threshold and every function other than the default ones panics. -/
theorem C64_gru_options_panic [CommRing α] [LinearOrder α] {act : RecAct → Option α → Option α → α → α} {n : RecNode α} {x : Tensor α}
    {h0 : Option (Tensor α)} (h : (∃ c, n.clip = some c ∧ 0 < c) ∨ ∃ f g rest, n.acts = some (f :: g :: rest) ∧ (f ≠ .sigmoid ∨ g ≠ .tanh)) :
    genGru act n x h0 = none := by
  unfold genGru
  obtain ⟨c, hc, h0⟩ | ⟨f, g, rest, hac, hne⟩ := h
  · have : (Infer.recClip n.clip).isSome = true := by simp [hc, Infer.recClip, h0]
    cases Infer.gruActs n.dir n.acts <;> simp [this]
  · have : ∀ as ∈ Infer.gruActs n.dir n.acts, as = (f, g) := by
      intro as has
      rw [hac] at has
      simp only [Infer.gruActs] at has
      split at has
      · split at has
        · cases has
        · exact (Option.some.inj has).symm
      · exact (Option.some.inj has).symm
    match hm : Infer.gruActs n.dir n.acts with
    | none => rfl
    | some as =>
      rw [this as hm, Option.bind_some, if_pos (Or.inr hne)]

/-- Functions that the modules do not have panic in LSTM and RNN. -/
theorem C64_activation_panics [CommRing α] [LinearOrder α] {act : RecAct → Option α → Option α → α → α} {n : RecNode α} {x : Tensor α}
    {h0 c0 : Option (Tensor α)} {f : RecAct} {rest : List RecAct} (ha : n.acts = some (f :: rest)) (hf : f ∉ moduleActs) :
    genLstm act n x h0 c0 = none ∧ genRnn act n x h0 = none := by
  have hb : burnAct act f = none := by
    cases f <;> first | rfl | exact absurd (by decide) hf
  constructor
  · have : ∀ as ∈ Infer.lstmActs n.dir n.acts, as.1 = f := by
      intro as has
      rw [ha] at has
      unfold Infer.lstmActs at has
      split at has
      · next h => cases h
      · next h => cases h
      · next h =>
        cases h
        split at has
        · split at has
          · cases has
          · rw [← Option.some.inj has]
        · rw [← Option.some.inj has]
      · cases has
    unfold genLstm
    match hm : Infer.lstmActs n.dir n.acts with
    | none => rfl
    | some as => rw [Option.bind_some, this as hm, hb]; rfl
  · have : ∀ as ∈ Infer.rnnActs n.dir n.acts, as = f := by
      intro as has
      rw [ha] at has
      unfold Infer.rnnActs at has
      split at has
      · next h => cases h
      · next h => cases h
      · next h =>
        cases h
        split at has
        · split at has
          · cases has
          · exact (Option.some.inj has).symm
        · exact (Option.some.inj has).symm
    unfold genRnn
    match hm : Infer.rnnActs n.dir n.acts with
    | none => rfl
    | some as => rw [Option.bind_some, this as hm, hb]; rfl

end OnnxIR
