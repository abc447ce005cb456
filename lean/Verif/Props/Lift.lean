import Verif.Model.Lift
import Verif.Spec.Lift

/-!
# C82: constants are embedded where they are read at import, and nowhere else
-/

namespace OnnxIR

open Onnx

variable {V : Type} {tbl : String → Option V} {as : List (Arg V)}

/-- Every constant operand has a value. -/
def Resolved (tbl : String → Option V) (as : List (Arg V)) : Prop := ∀ a ∈ as, a.src = .constant → ∃ v, tbl a.name = some v

theorem isConst_iff {a : Arg V} : a.isConst = true ↔ a.src = .constant := by
  unfold Arg.isConst
  cases a.src <;> simp

theorem liftInputs_getElem? (tbl : String → Option V) (ps : List Nat) :
    ∀ (j : Nat) (as : List (Arg V)) (k : Nat),
      (liftInputs tbl ps j as)[k]? = as[k]?.map fun a => if j + k ∈ ps then liftArg tbl a else a
  | _, [], _ => by simp [liftInputs]
  | j, a :: as, 0 => by simp [liftInputs]
  | j, a :: as, k + 1 => by
    simp only [liftInputs, List.getElem?_cons_succ]
    rw [liftInputs_getElem? tbl ps (j + 1) as k, show j + 1 + k = j + (k + 1) by omega]

theorem liftInputs_nil : liftInputs tbl [] 0 as = as := by
  apply List.ext_getElem?
  intro k
  rw [liftInputs_getElem?]
  simp

/-- An embedded operand is no constant any more. -/
theorem liftArg_isConst {a : Arg V} (h : a.src = .constant → ∃ v, tbl a.name = some v) : (liftArg tbl a).isConst = false := by
  unfold liftArg
  split
  · next hs =>
    obtain ⟨v, hv⟩ := h hs
    rw [hv]
    rfl
  · next hs =>
    have := mt isConst_iff.1 hs
    simpa using this

theorem toStatic_eq {a : Arg V} {v : V} (hs : a.src = .constant) (hv : tbl a.name = some v) :
    a.toStatic tbl = some (liftArg tbl a) := by
  simp [Arg.toStatic, liftArg, hs, hv]

theorem embed_eq {i : Nat} {a : Arg V} (hr : Resolved tbl as) (ha : as[i]? = some a) (hs : a.src = .constant) :
    embed tbl i as = (liftInputs tbl [i] 0 as, .ok) := by
  obtain ⟨v, hv⟩ := hr a (List.mem_of_getElem? ha) hs
  unfold embed
  rw [ha]
  simp only [toStatic_eq hs hv]
  congr 1
  apply List.ext_getElem?
  intro k
  rw [liftInputs_getElem?, List.getElem?_set]
  split
  · next h =>
    subst h
    have hl : i < as.length := (List.getElem?_eq_some_iff.1 ha).1
    simp only [if_pos hl, ha, Option.map_some, Nat.zero_add, List.mem_singleton, if_true]
  · next h =>
    have : ¬ k = i := fun e => h e.symm
    simp [this]

theorem liftInputs_noop {i : Nat} {a : Arg V} (ha : as[i]? = some a) (hs : a.src ≠ .constant) :
    liftInputs tbl [i] 0 as = as := by
  apply List.ext_getElem?
  intro k
  rw [liftInputs_getElem?]
  simp only [Nat.zero_add, List.mem_singleton]
  split
  · next h =>
    subst h
    rw [ha]
    have : liftArg tbl a = a := by
      unfold liftArg
      split
      · next h => exact absurd h hs
      · rfl
    simp [this]
  · simp

theorem liftInputs_short {i : Nat} (ha : as[i]? = none) : liftInputs tbl [i] 0 as = as := by
  apply List.ext_getElem?
  intro k
  rw [liftInputs_getElem?]
  simp only [Nat.zero_add, List.mem_singleton]
  split
  · next h =>
    subst h
    simp [ha]
  · simp

theorem run_one {i : Nat} (hr : Resolved tbl as) : (LiftStep.one i).run tbl as = (liftInputs tbl [i] 0 as, .ok) := by
  simp only [LiftStep.run]
  cases ha : as[i]? with
  | none => simp only [liftInputs_short ha]
  | some a =>
    simp only
    split
    · next h => exact embed_eq hr ha (isConst_iff.1 h)
    · next h => rw [liftInputs_noop ha (mt isConst_iff.2 h)]

theorem resolved_lift {ps : List Nat} (hr : Resolved tbl as) : Resolved tbl (liftInputs tbl ps 0 as) := by
  intro b hb hs
  obtain ⟨k, hk⟩ := List.getElem?_of_mem hb
  rw [liftInputs_getElem?] at hk
  cases ha : as[k]? with
  | none => rw [ha] at hk; cases hk
  | some a =>
    have hra := hr a (List.mem_of_getElem? ha)
    rw [ha, Option.map_some, Option.some.injEq] at hk
    split at hk
    · have := liftArg_isConst hra
      rw [hk] at this
      rw [isConst_iff.2 hs] at this
      cases this
    · subst hk
      exact hra hs

theorem liftArg_twice {a : Arg V} (h : a.src = .constant → ∃ v, tbl a.name = some v) :
    liftArg tbl (liftArg tbl a) = liftArg tbl a := by
  have := liftArg_isConst h
  generalize liftArg tbl a = b at this
  unfold liftArg
  split
  · next hs => rw [isConst_iff.2 hs] at this; cases this
  · rfl

theorem liftInputs_comp {ps qs : List Nat} (hr : Resolved tbl as) :
    liftInputs tbl qs 0 (liftInputs tbl ps 0 as) = liftInputs tbl (ps ++ qs) 0 as := by
  apply List.ext_getElem?
  intro k
  simp only [liftInputs_getElem?, Nat.zero_add, Option.map_map]
  cases ha : as[k]? with
  | none => rfl
  | some a =>
    simp only [Option.map_some, Function.comp, List.mem_append]
    by_cases h1 : k ∈ ps <;> by_cases h2 : k ∈ qs <;> simp [h1, h2, liftArg_twice (hr a (List.mem_of_getElem? ha))]

/-- A sequence of guarded statements. -/
theorem run_ones : ∀ {is : List Nat} {as : List (Arg V)}, Resolved tbl as →
    runSteps tbl (is.map .one) as = (liftInputs tbl is 0 as, .ok)
  | [], as, _ => by rw [liftInputs_nil]; rfl
  | i :: is, as, hr => by
    simp only [List.map_cons, runSteps, run_one hr]
    rw [run_ones (resolved_lift hr), liftInputs_comp hr]
    rfl

theorem run_unchecked : ∀ {is : List Nat} {as : List (Arg V)}, Resolved tbl as → (∀ i ∈ is, i < as.length) →
    runSteps tbl (is.map .unchecked) as = (liftInputs tbl is 0 as, .ok)
  | [], as, _, _ => by rw [liftInputs_nil]; rfl
  | i :: is, as, hr, hl => by
    have h1 : (LiftStep.unchecked i).run tbl as = (liftInputs tbl [i] 0 as, .ok) := by
      have := run_one (i := i) hr
      simp only [LiftStep.run, List.getElem?_eq_getElem (hl i (by simp))] at this ⊢
      exact this
    simp only [List.map_cons, runSteps, h1]
    rw [run_unchecked (resolved_lift hr), liftInputs_comp hr]
    · rfl
    · intro j hj
      have hj := hl j (List.mem_cons_of_mem _ hj)
      refine Classical.byContradiction fun h => ?_
      have h2 : (liftInputs tbl [i] 0 as)[j]? = none := List.getElem?_eq_none (Nat.not_lt.1 h)
      rw [liftInputs_getElem?, List.getElem?_eq_getElem hj] at h2
      cases h2

theorem embed_all : ∀ {is : List Nat} {as : List (Arg V)}, is.Nodup → Resolved tbl as →
    (∀ i ∈ is, (as[i]?).any Arg.isConst = true) → embedAll tbl is as = (liftInputs tbl is 0 as, .ok)
  | [], as, _, _, _ => by rw [liftInputs_nil]; rfl
  | i :: is, as, hn, hr, h => by
    have hi := h i (by simp)
    cases ha : as[i]? with
    | none => rw [ha] at hi; cases hi
    | some a =>
      rw [ha] at hi
      simp only [embedAll, embed_eq hr ha (isConst_iff.1 hi)]
      rw [embed_all (List.nodup_cons.1 hn).2 (resolved_lift hr), liftInputs_comp hr]
      · rfl
      · intro j hj
        have hne : j ≠ i := fun e => (List.nodup_cons.1 hn).1 (e ▸ hj)
        have := h j (List.mem_cons_of_mem _ hj)
        rw [liftInputs_getElem?]
        simpa [hne] using this

/-- The positions of the statements of a node. -/
def positions : List LiftStep → List Nat
  | [] => []
  | .one i :: ss | .unchecked i :: ss | .always i :: ss => i :: positions ss
  | .together is :: ss => is ++ positions ss

/-- The positions of the parameters. -/
def parameterAt (l : List (String × Role)) : List Nat :=
  (List.range l.length).filter fun k => (l[k]?).any fun p => p.2 == .parameter

theorem mem_parameterAt {l : List (String × Role)} {k : Nat} : k ∈ parameterAt l ↔ ∃ s, l[k]? = some (s, .parameter) := by
  simp only [parameterAt, List.mem_filter, List.mem_range]
  constructor
  · rintro ⟨h1, h2⟩
    rw [List.getElem?_eq_getElem h1] at h2 ⊢
    simp only [Option.any_some, beq_iff_eq] at h2
    exact ⟨l[k].1, by rw [← h2]⟩
  · rintro ⟨s, h⟩
    refine ⟨(List.getElem?_eq_some_iff.1 h).1, by rw [h]; rfl⟩

theorem positions_eq (opset : Nat) (ty : NodeType) : positions (liftSteps opset ty) =
    if (ty = .squeeze ∨ ty = .unsqueeze) ∧ opset < 13 then [] else parameterAt (operandRoles ty) := by
  unfold liftSteps
  split
  case h_40 =>
    split
    · next h => rw [if_neg (by omega)]; decide +kernel
    · next h => rw [if_pos (by simp; omega)]; rfl
  case h_44 =>
    split
    · next h => rw [if_neg (by omega)]; decide +kernel
    · next h => rw [if_pos (by simp; omega)]; rfl
  case h_45 => 
    have : operandRoles ty = [] := by
      unfold operandRoles
      split
      all_goals first | rfl | contradiction
    rw [this]
    simp [parameterAt, positions]
  all_goals
    rw [if_neg (by simp)]
    decide +kernel

theorem mem_positions {opset : Nat} {ty : NodeType} {k : Nat} :
    k ∈ positions (liftSteps opset ty) ↔ ReadAtImport opset ty k := by
  rw [positions_eq, ReadAtImport]
  split
  · next h =>
    refine ⟨fun h => (by cases h), fun hr => ?_⟩
    have := hr.2 h.1
    omega
  · next h =>
    rw [mem_parameterAt]
    refine ⟨fun h1 => ⟨h1, fun h2 => ?_⟩, fun h => h.1⟩
    exact Nat.not_lt.1 fun h3 => h ⟨h2, h3⟩

theorem steps_ones (opset : Nat) (ty : NodeType) (h1 : ty ≠ .other "BatchNormalization") (h2 : ty ≠ .other "Col2Im")
    (h3 : ty ≠ .other "PRelu") : liftSteps opset ty = (positions (liftSteps opset ty)).map .one := by
  unfold liftSteps
  split <;> (try split) <;> first | rfl | contradiction

/-- Does the node embed its operand number `k`? It is a constant that is read at import, and for `BatchNormalization` all four
parameters are constants. -/
def Embeds (opset : Nat) (n : Node V) (k : Nat) : Prop :=
  ReadAtImport opset n.ty k ∧ (∃ a, n.inputs[k]? = some a ∧ a.src = .constant) ∧
    (n.ty = .other "BatchNormalization" → ∀ j, 1 ≤ j → j ≤ 4 → ∃ a, n.inputs[j]? = some a ∧ a.src = .constant)

/-- `m` is the node with the values of some of its operands embedded in it, those of `E`, and nothing else changed. -/
structure EmbeddedIn (tbl : String → Option V) (E : Nat → Prop) (n m : Node V) : Prop where
  rest : m = { n with inputs := m.inputs }
  length : m.inputs.length = n.inputs.length
  embedded : ∀ (k : Nat) (a : Arg V), n.inputs[k]? = some a → E k →
    ∃ v, tbl a.name = some v ∧ m.inputs[k]? = some ⟨"", a.ty, .static v⟩
  kept : ∀ k, ¬ E k → m.inputs[k]? = n.inputs[k]?

theorem embeddedIn_lift {E : Nat → Prop} {n : Node V} {ps : List Nat} (hr : Resolved tbl n.inputs)
    (hE : ∀ k, E k ↔ k ∈ ps ∧ ∃ a, n.inputs[k]? = some a ∧ a.src = .constant) :
    EmbeddedIn tbl E n { n with inputs := liftInputs tbl ps 0 n.inputs } where
  rest := rfl
  length := by
    have h := fun k => liftInputs_getElem? tbl ps 0 n.inputs k
    have h1 : ∀ k, (liftInputs tbl ps 0 n.inputs).length ≤ k ↔ n.inputs.length ≤ k := by
      intro k
      rw [← List.getElem?_eq_none_iff, ← List.getElem?_eq_none_iff, h k, Option.map_eq_none_iff]
    exact Nat.le_antisymm ((h1 _).2 (Nat.le_refl _)) ((h1 _).1 (Nat.le_refl _))
  embedded k a ha he := by
    obtain ⟨hk, a', ha', hs⟩ := (hE k).1 he
    rw [ha] at ha'
    cases ha'
    obtain ⟨v, hv⟩ := hr a (List.mem_of_getElem? ha) hs
    refine ⟨v, hv, ?_⟩
    simp only
    rw [liftInputs_getElem?, ha]
    simp [hk, liftArg, hs, hv]
  kept k he := by
    simp only
    rw [liftInputs_getElem?]
    cases ha : n.inputs[k]? with
    | none => rfl
    | some a =>
      simp only [Nat.zero_add, Option.map_some, Option.some.injEq]
      split
      · next hk =>
        unfold liftArg
        split
        · next hs => exact absurd ((hE k).2 ⟨hk, a, ha, hs⟩) he
        · rfl
      · rfl

/-- What `lift_constants` does. -/
theorem lift_ok {opset : Nat} {n : Node V} (hr : Resolved tbl n.inputs)
    (hc : n.ty = .other "Col2Im" → 3 ≤ n.inputs.length)
    (hp : n.ty = .other "PRelu" → ∀ a, n.inputs[1]? = some a → a.src = .constant) :
    ∃ m, liftConstants tbl opset n = (m, .ok) ∧ EmbeddedIn tbl (Embeds opset n) n m := by
  by_cases h1 : n.ty = .other "BatchNormalization"
  · have hst : liftSteps opset n.ty = [.together [1, 2, 3, 4]] := by rw [h1]; rfl
    have hmem : ∀ k, ReadAtImport opset n.ty k ↔ k ∈ [1, 2, 3, 4] := fun k => by
      rw [← mem_positions, hst]; rfl
    by_cases hall : ∀ j, 1 ≤ j → j ≤ 4 → ∃ a, n.inputs[j]? = some a ∧ a.src = .constant
    · have hany : ∀ i ∈ [1, 2, 3, 4], (n.inputs[i]?).any Arg.isConst = true := by
        intro i hi
        simp only [List.mem_cons, List.not_mem_nil, or_false] at hi
        obtain ⟨a, ha, hs⟩ := hall i (by omega) (by omega)
        rw [ha, Option.any_some, isConst_iff.2 hs]
      refine ⟨{ n with inputs := liftInputs tbl [1, 2, 3, 4] 0 n.inputs }, ?_, embeddedIn_lift hr fun k => ?_⟩
      · simp only [liftConstants, hst, runSteps, LiftStep.run]
        rw [if_pos (List.all_eq_true.2 hany), embed_all (by decide) hr hany]
      · rw [Embeds, hmem]
        exact ⟨fun h => ⟨h.1, h.2.1⟩, fun h => ⟨h.1, h.2, fun _ => hall⟩⟩
    · refine ⟨n, ?_, ?_⟩
      · simp only [liftConstants, hst, runSteps, LiftStep.run]
        rw [if_neg]
        intro h
        apply hall
        intro j hj1 hj4
        have := List.all_eq_true.1 h j (by simp; omega)
        cases ha : n.inputs[j]? with
        | none => rw [ha] at this; cases this
        | some a => rw [ha] at this; exact ⟨a, rfl, isConst_iff.1 this⟩
      · exact ⟨rfl, rfl, fun k a _ he => absurd (he.2.2 h1) hall, fun k _ => rfl⟩
  · have hE : ∀ k, Embeds opset n k ↔ k ∈ positions (liftSteps opset n.ty) ∧ ∃ a, n.inputs[k]? = some a ∧ a.src = .constant :=
      fun k => by
        rw [mem_positions, Embeds]
        exact ⟨fun h => ⟨h.1, h.2.1⟩, fun h => ⟨h.1, h.2, fun e => absurd e h1⟩⟩
    refine ⟨{ n with inputs := liftInputs tbl (positions (liftSteps opset n.ty)) 0 n.inputs }, ?_, embeddedIn_lift hr hE⟩
    suffices h : runSteps tbl (liftSteps opset n.ty) n.inputs =
        (liftInputs tbl (positions (liftSteps opset n.ty)) 0 n.inputs, .ok) by
      simp only [liftConstants, h]
    by_cases h2 : n.ty = .other "Col2Im"
    · have hst : liftSteps opset n.ty = [1, 2].map .unchecked := by rw [h2]; rfl
      rw [hst, run_unchecked hr]
      · rfl
      · have := hc h2
        simp only [List.mem_cons, List.not_mem_nil, or_false]
        omega
    · by_cases h3 : n.ty = .other "PRelu"
      · have hst : liftSteps opset n.ty = [.always 1] := by rw [h3]; rfl
        rw [hst]
        simp only [runSteps, LiftStep.run, positions]
        cases ha : n.inputs[1]? with
        | none => rw [if_neg (Nat.not_lt.2 (List.getElem?_eq_none_iff.1 ha)), liftInputs_short ha]
        | some a =>
          rw [if_pos (List.getElem?_eq_some_iff.1 ha).1, embed_eq hr ha (hp h3 a ha)]
      · have h := steps_ones opset n.ty h1 h2 h3
        rw [h, run_ones hr, ← h]

/-- C82. When a node is converted, the constants it reads at import are embedded in it, each with its value, and nothing else about the
node changes. Every constant operand has a value (`hr`), `Col2Im` has its three operands, and the slope of `PRelu` is a constant,
without which the import panics (`C82_prelu_slope_panics`). -/
theorem C82_embedded_partial {opset : Nat} {n : Node V}
    (hr : ∀ a ∈ n.inputs, a.src = .constant → ∃ v, tbl a.name = some v)
    (hc : n.ty = .other "Col2Im" → 3 ≤ n.inputs.length)
    (hp : n.ty = .other "PRelu" → ∀ a, n.inputs[1]? = some a → a.src = .constant) :
    ∃ m, liftFirst tbl opset n = some m ∧ EmbeddedIn tbl (Embeds opset n) n m := by
  obtain ⟨m, h1, h2⟩ := lift_ok (opset := opset) hr hc hp
  exact ⟨m, by simp only [liftFirst, h1], h2⟩

/-- C82. After no-ops are gone the same happens to the constants that have come to light, whatever the slope of `PRelu` is. -/
theorem C82_embedded_again {n : Node V} (hr : ∀ a ∈ n.inputs, a.src = .constant → ∃ v, tbl a.name = some v)
    (hc : n.ty = .other "Col2Im" → 3 ≤ n.inputs.length) :
    ∃ m, liftAgain tbl n = some m ∧ EmbeddedIn tbl (Embeds 16 n) n m := by
  by_cases hp : n.ty = .other "PRelu" → ∀ a, n.inputs[1]? = some a → a.src = .constant
  · obtain ⟨m, h1, h2⟩ := lift_ok (opset := 16) hr hc hp
    exact ⟨m, by simp only [liftAgain, h1], h2⟩
  · obtain ⟨h3, hp⟩ := Classical.not_imp.1 hp
    obtain ⟨a, hp⟩ := Classical.not_forall.1 hp
    obtain ⟨ha, hs⟩ := Classical.not_imp.1 hp
    have hst : liftSteps 16 n.ty = [.always 1] := by rw [h3]; rfl
    refine ⟨n, ?_, rfl, rfl, fun k b hb he => ?_, fun k _ => rfl⟩
    · have : a.toStatic tbl = none := by
        unfold Arg.toStatic
        split
        · next h => exact absurd h hs
        · rfl
      simp only [liftAgain, liftConstants, hst, runSteps, LiftStep.run, if_pos (List.getElem?_eq_some_iff.1 ha).1, embed, ha,
        this]
    · obtain ⟨h1, ⟨b', hb', hbs⟩, -⟩ := he
      rw [← mem_positions, hst] at h1
      obtain rfl : k = 1 := by simpa [positions] using h1
      rw [ha] at hb'
      cases hb'
      exact absurd hbs hs

/-- C82. The import of a `PRelu` whose slope is not a constant panics: a slope computed at run time, a graph input, and even a
constant that passed through an `Identity` node, which is removed only later. ONNX has no such restriction. -/
theorem C82_prelu_slope_panics {opset : Nat} {n : Node V} {a : Arg V} (hn : n.ty = .other "PRelu")
    (ha : n.inputs[1]? = some a) (hs : a.src ≠ .constant) : liftFirst tbl opset n = none := by
  have hst : liftSteps opset n.ty = [.always 1] := by rw [hn]; rfl
  have : a.toStatic tbl = none := by
    unfold Arg.toStatic
    split
    · next h => exact absurd h hs
    · rfl
  simp only [liftFirst, liftConstants, hst, runSteps, LiftStep.run, if_pos (List.getElem?_eq_some_iff.1 ha).1, embed, ha, this]

/-- C82. It is the only operator that panics so, apart from an invalid `Col2Im`: with run-time operands in all places, every other node
is left as it is. -/
theorem C82_run_time_operands {opset : Nat} {n : Node V} (hn : n.ty ≠ .other "PRelu")
    (hc : n.ty = .other "Col2Im" → 3 ≤ n.inputs.length) (hs : ∀ a ∈ n.inputs, a.src ≠ .constant) :
    liftFirst tbl opset n = some n := by
  obtain ⟨m, h1, h2⟩ := C82_embedded_partial (tbl := tbl) (opset := opset) (n := n) (fun a ha h => absurd h (hs a ha)) hc
    (fun h => absurd h hn)
  have : m.inputs = n.inputs := List.ext_getElem? fun k => h2.kept k fun ⟨_, ⟨a, ha, h⟩, _⟩ =>
    hs a (List.mem_of_getElem? ha) h
  rw [h1, h2.rest, this]

theorem EmbeddedIn.unique {E : Nat → Prop} {n m m' : Node V} (h : EmbeddedIn tbl E n m) (h' : EmbeddedIn tbl E n m') :
    m = m' := by
  have : m.inputs = m'.inputs := by
    apply List.ext_getElem?
    intro k
    by_cases he : E k
    · cases ha : n.inputs[k]? with
      | none =>
        have hk := List.getElem?_eq_none_iff.1 ha
        rw [List.getElem?_eq_none (h.length ▸ hk), List.getElem?_eq_none (h'.length ▸ hk)]
      | some a =>
        obtain ⟨v, hv, h1⟩ := h.embedded k a ha he
        obtain ⟨w, hw, h2⟩ := h'.embedded k a ha he
        rw [hv] at hw
        cases hw
        rw [h1, h2]
    · rw [h.kept k he, h'.kept k he]
  rw [h.rest, h'.rest, this]

/-- The positions of the constants a node embeds. -/
def liftPositions (opset : Nat) (n : Node V) : List Nat :=
  if n.ty = .other "BatchNormalization" ∧ ¬ [1, 2, 3, 4].all (fun i => (n.inputs[i]?).any Arg.isConst) then []
  else positions (liftSteps opset n.ty)

/-- C82. The conversion of a node embeds what `Verif.Model.Pipeline` embeds with these positions, so that what C52 says of the import, for
whatever positions, holds of the constants embedded by the processors. -/
theorem C82_is_lifting {opset : Nat} {n m : Node V} (hr : ∀ a ∈ n.inputs, a.src = .constant → ∃ v, tbl a.name = some v)
    (hc : n.ty = .other "Col2Im" → 3 ≤ n.inputs.length) (h : liftFirst tbl opset n = some m) :
    m = liftNode tbl (liftPositions opset) n := by
  have hp : n.ty = .other "PRelu" → ∀ a, n.inputs[1]? = some a → a.src = .constant := by
    intro h1 a ha
    refine Classical.byContradiction fun hs => ?_
    rw [C82_prelu_slope_panics h1 ha hs] at h
    cases h
  obtain ⟨m', h1, h2⟩ := C82_embedded_partial (opset := opset) hr hc hp
  rw [h] at h1
  cases h1
  refine h2.unique (embeddedIn_lift hr fun k => ?_)
  simp only [liftPositions, Embeds]
  split
  · next hb =>
    refine ⟨fun he => absurd ?_ hb.2, fun he => (by cases he.1)⟩
    rw [List.all_eq_true]
    intro i hi
    simp only [List.mem_cons, List.not_mem_nil, or_false] at hi
    obtain ⟨a, ha, hs⟩ := he.2.2 hb.1 i (by omega) (by omega)
    rw [ha, Option.any_some, isConst_iff.2 hs]
  · next hb =>
    rw [mem_positions]
    refine ⟨fun he => ⟨he.1, he.2.1⟩, fun he => ⟨he.1, he.2, fun h1 j hj hj' => ?_⟩⟩
    have hall : [1, 2, 3, 4].all (fun i => (n.inputs[i]?).any Arg.isConst) = true :=
      Classical.byContradiction fun hn => hb ⟨h1, hn⟩
    have := List.all_eq_true.1 hall j (by simp; omega)
    cases ha : n.inputs[j]? with
    | none => rw [ha] at this; cases this
    | some a => rw [ha] at this; exact ⟨a, rfl, isConst_iff.1 this⟩

/-- A `Slice` with constant starts and ends, no axes and steps computed at run time. -/
example : liftFirst (fun s => if s = "c1" then some [1] else if s = "c2" then some [5] else none) 13
      (⟨.slice, "slice1", [⟨"x", .tensor ⟨.f32, 2, none⟩, .dynamic⟩, ⟨"c1", .shape 1, .constant⟩, ⟨"c2", .shape 1, .constant⟩,
        ⟨"", .tensor ⟨.f32, 0, none⟩, .optional⟩, ⟨"s", .shape 1, .dynamic⟩], [⟨"y", .tensor ⟨.f32, 2, none⟩, .dynamic⟩], []⟩ :
        Node (List Int)) =
    some ⟨.slice, "slice1", [⟨"x", .tensor ⟨.f32, 2, none⟩, .dynamic⟩, ⟨"", .shape 1, .static [1]⟩, ⟨"", .shape 1, .static [5]⟩,
        ⟨"", .tensor ⟨.f32, 0, none⟩, .optional⟩, ⟨"s", .shape 1, .dynamic⟩], [⟨"y", .tensor ⟨.f32, 2, none⟩, .dynamic⟩], []⟩ := by
  decide +kernel

/-- `PRelu` with the slope of a graph input. -/
example : ∃ n : Node (List Int), n.ty = .other "PRelu" ∧ ∃ a, n.inputs[1]? = some a ∧ a.src ≠ .constant :=
  ⟨⟨.other "PRelu", "prelu1", [⟨"x", .tensor ⟨.f32, 2, none⟩, .dynamic⟩, ⟨"s", .tensor ⟨.f32, 1, none⟩, .dynamic⟩],
    [⟨"y", .tensor ⟨.f32, 2, none⟩, .dynamic⟩], []⟩, rfl, ⟨"s", .tensor ⟨.f32, 1, none⟩, .dynamic⟩, rfl, by simp⟩

end OnnxIR
