import Verif.Props.ConstantShape

/-!
# Decidable checks of the hypotheses, used to exhibit concrete cases
-/

namespace OnnxIR

variable {V : Type}

/-- Check a property of every step of a run. -/
def checkRun (S : Sem V) (f : Env V → Node V → Env V → Bool) : Env V → List (Node V) → Bool
  | _, [] => true
  | e, n :: ns =>
    match evalNode S e n with
    | none => true
    | some e' => f e n e' && checkRun S f e' ns

theorem checkRun_sound {S : Sem V} {f : Env V → Node V → Env V → Bool} :
    ∀ {nodes : List (Node V)} {env : Env V}, checkRun S f env nodes = true →
      ∀ p n q e1 e2, nodes = p ++ n :: q → evalNodes S env p = some e1 →
        evalNode S e1 n = some e2 → f e1 n e2 = true
  | [], env, _, p, n, q, _, _, h, _, _ => by simp at h
  | m :: ns, env, hc, p, n, q, e1, e2, hn, h1, h2 => by
    cases p with
    | nil =>
      simp only [List.nil_append, List.cons.injEq] at hn
      obtain ⟨rfl, rfl⟩ := hn
      simp only [evalNodes, Option.some.injEq] at h1
      subst h1
      simp only [checkRun, h2, Bool.and_eq_true] at hc
      exact hc.1
    | cons m' p =>
      simp only [List.cons_append, List.cons.injEq] at hn
      obtain ⟨rfl, rfl⟩ := hn
      simp only [evalNodes] at h1
      cases hm : evalNode S env m with
      | none => simp [hm] at h1
      | some e =>
        simp only [hm] at h1
        simp only [checkRun, hm, Bool.and_eq_true] at hc
        exact checkRun_sound hc.2 p n q e1 e2 rfl h1 h2

/-- `PShape.Describes` as a check. -/
def describesB : PShape → List Nat → Bool
  | [], [] => true
  | p :: ps, d :: ds => (match p with | some k => k == d | none => true) && describesB ps ds
  | _, _ => false

theorem describesB_sound : ∀ {p : PShape} {s : List Nat}, describesB p s = true → p.Describes s
  | [], [], _ => trivial
  | [], _ :: _, h => by simp [describesB] at h
  | _ :: _, [], h => by simp [describesB] at h
  | p :: ps, d :: ds, h => by
    simp only [describesB, Bool.and_eq_true] at h
    refine ⟨?_, describesB_sound h.2⟩
    intro k hk
    subst hk
    simpa using h.1

/-- `ArgType.Admits` as a check. -/
def admitsB : ArgType → List Nat → Bool
  | .scalarNative _, s => s == []
  | .scalarTensor _, s => s == []
  | .shape k, s => s == [k]
  | .tensor t, s => s.length == t.rank && (match t.staticShape with
    | none => true
    | some p => describesB p s)

theorem admitsB_sound {t : ArgType} {s : List Nat} (h : admitsB t s = true) : t.Admits s := by
  cases t with
  | tensor t =>
    simp only [admitsB, Bool.and_eq_true, beq_iff_eq] at h
    refine ⟨h.1, fun p hp => ?_⟩
    rw [hp] at h
    exact describesB_sound h.2
  | _ => simpa [admitsB, ArgType.Admits] using h

/-- The annotations of one step are right. -/
def typedStepB (tv : TensorView V) (e1 : Env V) (n : Node V) (e2 : Env V) : Bool :=
  (n.inputs.all fun a => match evalArg e1 a with
    | some (some v) => admitsB a.ty (tv.shape v)
    | _ => true) &&
  (n.outputs.all fun o => match e2 o.name with
    | some v => admitsB o.ty (tv.shape v)
    | none => true)

theorem typedRun_of_check {S : Sem V} {tv : TensorView V} {env : Env V} {nodes : List (Node V)}
    (h : checkRun S (typedStepB tv) env nodes = true) : TypedRun S tv env nodes := by
  intro p n q e1 e2 hn h1 h2
  have := checkRun_sound h p n q e1 e2 hn h1 h2
  simp only [typedStepB, Bool.and_eq_true, List.all_eq_true] at this
  constructor
  · intro a ha v hv
    have h3 := this.1 a ha
    rw [hv] at h3
    exact admitsB_sound h3
  · intro o ho v hv
    have h3 := this.2 o ho
    rw [hv] at h3
    exact admitsB_sound h3

/-- `SSA` as a check. -/
def ssaB (env : Env V) (nodes : List (Node V)) : Bool :=
  decide ((nodes.flatMap Node.outNames).Nodup) &&
    nodes.all fun n => n.outNames.all fun x => (env x).isNone

theorem ssa_of_check {env : Env V} {nodes : List (Node V)} (h : ssaB env nodes = true) :
    SSA env nodes := by
  simp only [ssaB, Bool.and_eq_true, decide_eq_true_eq, List.all_eq_true,
    Option.isNone_iff_eq_none] at h
  exact ⟨h.1, h.2⟩

/-- `WfArg` as a check. -/
def wfArgB (a : Arg V) : Bool :=
  match a.src with
  | .static _ => true
  | .optional => a.name == ""
  | _ => a.name != ""

theorem wfArg_of_check {a : Arg V} (h : wfArgB a = true) : WfArg a := by
  unfold wfArgB at h
  unfold WfArg
  cases hs : a.src <;> simp [hs] at h ⊢ <;> exact h

/-- `WfNames` as a check. -/
def wfB (nodes : List (Node V)) : Bool :=
  (nodes.all fun n => n.inputs.all wfArgB) &&
  (nodes.all fun n => n.inputs.all fun a => match a.src with
    | .static _ => nodes.all fun m => !m.outNames.contains a.name
    | _ => true) &&
  (nodes.all fun n => !n.outNames.contains "")

theorem wf_of_check {nodes : List (Node V)} (h : wfB nodes = true) : WfNames nodes := by
  simp only [wfB, Bool.and_eq_true, List.all_eq_true] at h
  obtain ⟨⟨h1, h2⟩, h3⟩ := h
  refine ⟨fun n hn a ha => wfArg_of_check (h1 n hn a ha), ?_, ?_⟩
  · intro n hn a ha v hv m hm
    have := h2 n hn a ha
    rw [hv] at this
    have := List.all_eq_true.1 this m hm
    simpa using this
  · intro n hn
    simpa using h3 n hn

end OnnxIR
