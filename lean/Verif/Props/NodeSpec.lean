import Verif.Model.NodeSpec
import Verif.Props.TypeInference
import Verif.Model.GraphBuild

/-!
# C49: unsupported operator versions are rejected
-/

namespace OnnxIR

variable {V : Type}

/-! ### Specification -/

/-- In a table of versions, the entry at position `i` is the one in force at an opset: its version is not
above the opset, and every other such entry has a lower version, or the same and comes earlier. -/
def InForce {α : Type} (opset : Nat) (l : List (Nat × α)) (i v : Nat) (s : α) : Prop :=
  l[i]? = some (v, s) ∧ v ≤ opset ∧
    ∀ (j w : Nat) (t : α), l[j]? = some (w, t) → w ≤ opset → w < v ∨ (w = v ∧ j ≤ i)

/-- A count is allowed by a specification at an opset. -/
inductive CountSpec.Allows (opset : Nat) : CountSpec → Nat → Prop
  | exact (n : Nat) : Allows opset (.exact n) n
  | atLeast {n k : Nat} (h : n ≤ k) : Allows opset (.atLeast n) k
  | range {a b k : Nat} (h1 : a ≤ k) (h2 : k ≤ b) : Allows opset (.range a b) k
  | opsetDependent {l : List (Nat × CountSpec)} {k : Nat}
      (h : ∀ i v s, InForce opset l i v s → Allows opset s k) : Allows opset (.opsetDependent l) k

/-- A node with `ins` inputs and `outs` outputs is within what a processor declares, at an opset. -/
structure NodeSpec.Allows (spec : NodeSpec) (opset ins outs : Nat) : Prop where
  min : spec.minOpset ≤ opset
  max : ∀ m, spec.maxOpset = some m → opset ≤ m
  inputs : spec.inputs.Allows opset ins
  outputs : spec.outputs.Allows opset outs

/-! ### The check is exact -/

theorem inForce_unique {α : Type} {opset : Nat} {l : List (Nat × α)} {i j v w : Nat} {s t : α}
    (h1 : InForce opset l i v s) (h2 : InForce opset l j w t) : i = j ∧ v = w ∧ s = t := by
  have a := h1.2.2 j w t h2.1 h2.2.1
  have b := h2.2.2 i v s h1.1 h1.2.1
  have hij : i = j := by omega
  subst hij
  have := h1.1.symm.trans h2.1
  simp only [Option.some.injEq, Prod.mk.injEq] at this
  exact ⟨rfl, this.1, this.2⟩

theorem applicable_none {opset k : Nat} : ∀ {l : List (Nat × CountSpec)},
    CountSpec.applicable opset k l = none → ∀ v s, (v, s) ∈ l → opset < v
  | [], _, v, s, h => by cases h
  | (w, t) :: l, h, v, s, hm => by
    simp only [CountSpec.applicable] at h
    cases ht : CountSpec.applicable opset k l with
    | none =>
      simp only [ht] at h
      split at h
      · cases h
      · next hw =>
        rcases List.mem_cons.1 hm with e | e
        · cases e; omega
        · exact applicable_none ht v s e
    | some p =>
      obtain ⟨a, r⟩ := p
      simp only [ht] at h
      split at h <;> cases h

theorem applicable_some {opset k : Nat} : ∀ {l : List (Nat × CountSpec)} {v : Nat} {r : Bool},
    CountSpec.applicable opset k l = some (v, r) →
      ∃ i s, InForce opset l i v s ∧ r = s.ok opset k
  | [], v, r, h => by simp [CountSpec.applicable] at h
  | (w, t) :: l, v, r, h => by
    simp only [CountSpec.applicable] at h
    cases ht : CountSpec.applicable opset k l with
    | none =>
      simp only [ht] at h
      split at h
      · next hw =>
        cases h
        refine ⟨0, t, ⟨rfl, hw, ?_⟩, rfl⟩
        intro j u x hj hu
        cases j with
        | zero => simp at hj; exact .inr ⟨hj.1.symm, Nat.le_refl _⟩
        | succ j =>
          have := applicable_none ht u x (List.mem_of_getElem? (by simpa using hj))
          omega
      · cases h
    | some p =>
      obtain ⟨a, b⟩ := p
      obtain ⟨i, s, hf, hr⟩ := applicable_some ht
      simp only [ht] at h
      split at h
      · next hw =>
        cases h
        refine ⟨0, t, ⟨rfl, hw.1, ?_⟩, rfl⟩
        intro j u x hj hu
        cases j with
        | zero => simp at hj; exact .inr ⟨hj.1.symm, Nat.le_refl _⟩
        | succ j =>
          have := hf.2.2 j u x (by simpa using hj) hu
          omega
      · next hw =>
        cases h
        refine ⟨i + 1, s, ⟨by simpa using hf.1, hf.2.1, ?_⟩, hr⟩
        intro j u x hj hu
        cases j with
        | zero =>
          simp at hj
          obtain ⟨rfl, rfl⟩ := hj
          omega
        | succ j =>
          have := hf.2.2 j u x (by simpa using hj) hu
          omega

mutual

theorem CountSpec.ok_iff (opset k : Nat) : ∀ s : CountSpec, s.ok opset k = true ↔ s.Allows opset k
  | .exact n => by
    simp only [CountSpec.ok, beq_iff_eq]
    constructor
    · rintro rfl; exact .exact _
    · intro h; cases h; rfl
  | .atLeast n => by
    simp only [CountSpec.ok, Bool.not_eq_true', decide_eq_false_iff_not, Nat.not_lt]
    constructor
    · exact .atLeast
    · intro h; cases h; assumption
  | .range a b => by
    simp only [CountSpec.ok, Bool.not_eq_true', Bool.or_eq_false_iff, decide_eq_false_iff_not,
      Nat.not_lt]
    constructor
    · rintro ⟨h1, h2⟩; exact .range h1 (by omega)
    · intro h; cases h; constructor <;> omega
  | .opsetDependent l => by
    have hl := CountSpec.okAll_iff opset k l
    simp only [CountSpec.ok]
    cases ha : CountSpec.applicable opset k l with
    | none =>
      simp only [true_iff]
      refine .opsetDependent fun i v s hf => ?_
      have := applicable_none ha v s (List.mem_of_getElem? hf.1)
      have := hf.2.1
      omega
    | some p =>
      obtain ⟨v, r⟩ := p
      obtain ⟨i, s, hf, hr⟩ := applicable_some ha
      have hs := hl (v, s) (List.mem_of_getElem? hf.1)
      simp only
      rw [hr, hs]
      constructor
      · intro h
        refine .opsetDependent fun j w t hf' => ?_
        obtain ⟨_, _, rfl⟩ := inForce_unique hf hf'
        exact h
      · intro h
        cases h with
        | opsetDependent h => exact h i v s hf

theorem CountSpec.okAll_iff (opset k : Nat) : ∀ (l : List (Nat × CountSpec)), ∀ p ∈ l,
    (p.2.ok opset k = true ↔ p.2.Allows opset k)
  | [], p, h => by cases h
  | (v, s) :: l, p, h => by
    rcases List.mem_cons.1 h with e | e
    · rw [e]; exact CountSpec.ok_iff opset k s
    · exact CountSpec.okAll_iff opset k l p e

end

/-- **C49.** The check accepts a node exactly when its opset and its numbers of inputs and outputs are
within what the processor declares, the entry in force being the newest one for version-dependent counts. -/
theorem C49_check_exact (spec : NodeSpec) (opset : Nat) (n : Node V) :
    validateNodeSpec spec opset n = true ↔
      spec.Allows opset (onnxInputCount n) n.outputs.length := by
  unfold validateNodeSpec
  constructor
  · intro h
    split at h
    · cases h
    · next h1 =>
      split at h
      · cases h
      · next h2 =>
        simp only [Bool.and_eq_true, CountSpec.ok_iff] at h
        refine ⟨by omega, ?_, h.1, h.2⟩
        intro m hm
        simp [hm] at h2
        exact h2
  · rintro ⟨h1, h2, h3, h4⟩
    rw [if_neg (by omega), if_neg, Bool.and_eq_true, CountSpec.ok_iff, CountSpec.ok_iff]
    · exact ⟨h3, h4⟩
    · cases hm : spec.maxOpset with
      | none => simp
      | some m => have := h2 m hm; simp; omega

/-- The number of inputs that is checked is the number in the file: unless the file itself carries the
importer's private attribute, and for control-flow nodes also after the values their subgraphs use have
been added as inputs. -/
theorem C49_count_is_the_files (n : Node V) (refs : List (Arg V)) (hlen : n.inputs.length < 2 ^ 63) :
    (mapGet n.attrs "__onnx_input_count" = none → onnxInputCount n = n.inputs.length) ∧
    onnxInputCount (addScopeRefs n refs) = n.inputs.length := by
  constructor
  · intro h; simp [onnxInputCount, h]
  · simp only [onnxInputCount, addScopeRefs, mapGet, if_true, List.length_append,
      Nat.add_sub_cancel]
    unfold Gen.i64AsUsize
    omega

/-! ### The phase -/

theorem skel_counts {n m : Node V} (h : n.skel = m.skel) :
    onnxInputCount n = onnxInputCount m ∧ n.outputs.length = m.outputs.length ∧ n.ty = m.ty := by
  have h1 : n.inputs.length = m.inputs.length := by
    have := congrArg (fun s => s.inputs.length) h
    simpa [Node.skel] using this
  have h2 : n.outputs.length = m.outputs.length := by
    have := congrArg (fun s => s.outputs.length) h
    simpa [Node.skel] using this
  have h3 : n.attrs = m.attrs := congrArg (fun s => s.attrs) h
  have h4 : n.ty = m.ty := congrArg (fun s => s.ty) h
  refine ⟨?_, h2, h4⟩
  unfold onnxInputCount
  rw [h3, h1]

/-- Whether a node is valid does not depend on types. -/
def SkelOnly (R : Rules V) : Prop := ∀ n m : Node V, n.skel = m.skel → R.valid n = R.valid m

theorem withSpecs_skelOnly (R : Rules V) (specs : NodeType → NodeSpec) (opset : Nat) :
    SkelOnly (R.withSpecs specs opset) := by
  intro n m h
  obtain ⟨h1, h2, h3⟩ := skel_counts h
  simp only [Rules.withSpecs, validateNodeSpec, h1, h2, h3]

theorem all_valid_skel {R : Rules V} (hR : SkelOnly R) {ns ms : List (Node V)}
    (h : ns.map Node.skel = ms.map Node.skel) (hv : ∀ n ∈ ns, R.valid n = true) :
    ∀ m ∈ ms, R.valid m = true := by
  intro m hm
  have : m.skel ∈ ns.map Node.skel := h ▸ List.mem_map_of_mem hm
  obtain ⟨n, hn, he⟩ := List.mem_map.1 this
  rw [← hR n m he]; exact hv n hn

theorem inferPass_valid {R : Rules V} (hR : SkelOnly R) {prefs : String → OutPrefs} :
    ∀ {fuel : Nat} {nodes : List (Node V)} {r : List (Node V) × Bool},
    inferPass R prefs fuel nodes = some r → ∀ n ∈ nodes, R.valid n = true
  | _, [], _, _, n, hn => by cases hn
  | 0, m :: rest, _, h, n, hn => by simp [inferPass] at h
  | fuel + 1, m :: rest, r, h, n, hn => by
    simp only [inferPass] at h
    split at h
    · cases h
    · next hv =>
      split at h
      · cases h
      · split at h
        · cases h
        · split at h
          · cases h
          · next tys htys hz done ch hp =>
            have ih := inferPass_valid hR hp
            rcases List.mem_cons.1 hn with e | e
            · rw [e]; simpa using hv
            · exact all_valid_skel hR (pushOutputs_skel _ rest) ih n e

theorem inferPass_unchecked {R : Rules V} (hR : SkelOnly R) {prefs : String → OutPrefs} :
    ∀ {fuel : Nat} {nodes : List (Node V)}, (∀ n ∈ nodes, R.valid n = true) →
    inferPass R prefs fuel nodes = inferPass R.unchecked prefs fuel nodes
  | fuel, [], _ => by cases fuel <;> rfl
  | 0, m :: rest, _ => rfl
  | fuel + 1, m :: rest, h => by
    simp only [inferPass]
    have hm := h m List.mem_cons_self
    have hu : R.unchecked.valid m = true := rfl
    have hi : R.unchecked.infer m (prefs m.name) = R.infer m (prefs m.name) := rfl
    rw [hm, hu, hi]
    simp only [Bool.not_true, Bool.false_eq_true, if_false]
    cases R.infer m (prefs m.name) with
    | none => rfl
    | some tys =>
      simp only
      split
      · rfl
      · rw [inferPass_unchecked hR (all_valid_skel hR (pushOutputs_skel _ rest).symm
          fun n hn => h n (List.mem_cons_of_mem _ hn))]

theorem inferRound_unchecked {R : Rules V} (hR : SkelOnly R) {first : Bool} {c : Collected}
    {nodes : List (Node V)} (h : ∀ n ∈ nodes, R.valid n = true) :
    inferRound R first c nodes = inferRound R.unchecked first c nodes := by
  unfold inferRound
  simp only
  rw [inferPass_unchecked hR]
  · rfl
  · split
    · exact h
    · exact all_valid_skel hR (syncNodes_skel _ _).symm h

theorem inferRounds_unchecked {R : Rules V} (hR : SkelOnly R) : ∀ (k : Nat) (first : Bool)
    (c : Collected) (nodes : List (Node V)), (∀ n ∈ nodes, R.valid n = true) →
    inferRounds R k first c nodes = inferRounds R.unchecked k first c nodes
  | 0, _, _, _, _ => rfl
  | k + 1, first, c, nodes, h => by
    simp only [inferRounds]
    rw [← inferRound_unchecked hR h]
    cases hr : inferRound R first c nodes with
    | none => rfl
    | some r =>
      obtain ⟨ns, c', again⟩ := r
      simp only
      split
      · exact inferRounds_unchecked hR k false c' ns
          (all_valid_skel hR (inferRound_skel hr).symm h)
      · rfl

/-- **C49.** A model whose type inference succeeds has only nodes within what their processors declare, at
the model's opset; and when all nodes are, inference does what it would do without any check, so no node is
rejected for that reason. -/
theorem C49_whole_graph (R : Rules V) (specs : NodeType → NodeSpec) (opset : Nat)
    (nodes : List (Node V)) :
    (∀ r, inferTypes (R.withSpecs specs opset) nodes = some r →
      ∀ n ∈ nodes, (specs n.ty).Allows opset (onnxInputCount n) n.outputs.length) ∧
    ((∀ n ∈ nodes, (specs n.ty).Allows opset (onnxInputCount n) n.outputs.length) →
      inferTypes (R.withSpecs specs opset) nodes = inferTypes R.unchecked nodes) := by
  have hR := withSpecs_skelOnly R specs opset
  have hv : ∀ n : Node V, (R.withSpecs specs opset).valid n = true ↔
      (specs n.ty).Allows opset (onnxInputCount n) n.outputs.length :=
    fun n => C49_check_exact (specs n.ty) opset n
  constructor
  · intro r h n hn
    rw [← hv]
    unfold inferTypes at h
    split at h
    · simp only [maxRounds, inferRounds] at h
      cases hr : inferRound (R.withSpecs specs opset) true [] nodes with
      | none => simp [hr] at h
      | some r' =>
        unfold inferRound at hr
        simp only [if_true] at hr
        split at hr
        · cases hr
        · next hp => exact inferPass_valid hR hp n hn
    · cases h
  · intro h
    unfold inferTypes
    have hreg : (fun n : Node V => (R.withSpecs specs opset).registered n.ty)
        = fun n => R.unchecked.registered n.ty := rfl
    rw [hreg, inferRounds_unchecked hR _ _ _ _ fun n hn => (hv n).2 (h n hn)]
    rfl

/-! ### Disagreements -/

/-- crates/onnx-ir/src/node/arithmetic.rs:82-89: Add needs two inputs. -/
def addSpec : NodeSpec := ⟨1, none, .exact 2, .exact 1⟩

/-- **C49, disagreement.** The number of inputs is taken from the attribute `__onnx_input_count`, which the
file can set on any node: an Add with one input that claims two is accepted. -/
theorem C49_forged_count :
    let n : Node Nat := { ty := .add, name := "add1", inputs := [argFromName "x"], outputs := [argFromName "y"],
                          attrs := [("__onnx_input_count", .i64 2)] }
    n.inputs.length = 1 ∧ validateNodeSpec addSpec 13 n = true ∧
      ¬ addSpec.Allows 13 n.inputs.length n.outputs.length := by
  refine ⟨rfl, by decide +kernel, ?_⟩
  intro h
  have := h.inputs
  cases this

/-- **C49, disagreement.** A negative opset version in the file becomes a huge one and passes every
minimum, such as Swish's 24 (crates/onnx-ir/src/node/swish.rs:41-48). -/
theorem C49_negative_opset :
    extractOpset [("ai.onnx.ml", 3), ("", -1)] = some (2 ^ 64 - 1) ∧
    validateNodeSpec (V := Nat) ⟨24, none, .exact 1, .exact 1⟩ (2 ^ 64 - 1)
      { ty := .other "Swish", attrs := [], name := "swish1", inputs := [argFromName "x"],
        outputs := [argFromName "y"] } = true := by
  decide +kernel

/-! Dropout's specification (crates/onnx-ir/src/node/dropout.rs:68-76) at three opsets. -/

example :
    let spec : NodeSpec := ⟨1, none, .opsetDependent [(1, .exact 1), (12, .range 1 3)], .range 1 2⟩
    ([(7, 1), (7, 2), (11, 2), (12, 2), (13, 3), (13, 4)].map fun p =>
      CountSpec.ok p.1 p.2 spec.inputs) = [true, false, false, true, true, false] := by
  decide +kernel

example : addSpec.Allows 13 2 1 := ⟨by decide, by simp [addSpec], .exact 2, .exact 1⟩
example : ¬ addSpec.Allows 0 2 1 := fun h => absurd h.min (by decide)

end OnnxIR
