import Verif.Model.Ownership

/-!
# C23, C24: generated straight-line code never uses a moved tensor and clones only when needed
-/

namespace OnnxIR

open Rust Gen

/-! ## Statement -/

/-- The tensor an access names. -/
def Gen.Access.name : Access → String
  | .arg x => x
  | .peek x => x
  | .raw x => x

/-- How often a list of accesses names `x`. -/
def accCount (acc : List Access) (x : String) : Nat := (acc.map Access.name).count x

/-- How often the nodes access `x` (nodes without subgraph). -/
def needs : Prog → String → Nat
  | .op _ _ acc r, x => accCount acc x + needs r x
  | _, _ => 0

/-- A graph of nodes without subgraphs in which every tensor is defined before it is used and only
once (`seen` holds the names defined so far), and every node accesses a tensor no more often than it
lists it among its inputs, always through the scope or by reading. -/
def WellFormed : Prog → List String → Prop
  | .done, _ => True
  | .op ins outs acc r, seen =>
    (∀ x ∈ ins, x ∈ seen) ∧ (∀ x, accCount acc x ≤ ins.count x) ∧ (∀ x, Access.raw x ∉ acc) ∧
    outs.Nodup ∧ (∀ x ∈ outs, x ∉ seen) ∧ WellFormed r (outs ++ seen)
  | _, _ => False

/-- All names the nodes define. -/
def defs : Prog → List String
  | .op _ outs _ r => outs ++ defs r
  | _ => []

/-- A graph whose inputs have different names, whose outputs are different tensors that exist, and
whose scalar outputs are used by no node. -/
structure WellFormedGraph (g : Graph) : Prop where
  inputs : g.inputs.Nodup
  prog : WellFormed g.prog g.inputs
  outputs : ∀ x ∈ g.outputs ++ g.scalarOutputs, x ∈ g.inputs ∨ x ∈ defs g.prog
  distinct : (g.outputs ++ g.scalarOutputs).Nodup
  scalars : ∀ x ∈ g.scalarOutputs, needs g.prog x = 0

/-! ## Registration -/

theorem upd_same (s : Scope) (x : String) (v : Var) : s.upd x v x = some v := by simp [Scope.upd]

theorem upd_other {s : Scope} {x y : String} {v : Var} (h : y ≠ x) : s.upd x v y = s y := by
  simp [Scope.upd, h]

theorem regUse_other {s : Scope} {x y : String} {p : Nat} (h : y ≠ x) :
    registerFutureUse s x p y = s y := by
  unfold registerFutureUse
  cases s x with
  | none => exact upd_other h
  | some v =>
    dsimp only
    split
    · exact upd_other h
    · rfl

theorem regVar_other {s : Scope} {x y : String} {p : Nat} (h : y ≠ x) :
    registerVariable s x p y = s y := by
  unfold registerVariable
  cases s x with
  | none => exact upd_other h
  | some v =>
    dsimp only
    split
    · exact upd_other h
    · rfl

theorem regUse_same {s : Scope} {x : String} {p : Nat} {v : Var} (h : s x = some v) (hp : v.pos ≤ p) :
    registerFutureUse s x p x = some ⟨v.refs + 1, v.pos⟩ := by
  simp [registerFutureUse, h, hp, Scope.upd]

theorem regUses_not_mem {l : List String} {s : Scope} {x : String} {p : Nat} (h : x ∉ l) :
    l.foldl (registerFutureUse · · p) s x = s x := by
  induction l generalizing s with
  | nil => rfl
  | cons y l ih =>
    simp only [List.foldl_cons]
    rw [ih (fun hm => h (by simp [hm])), regUse_other (fun he => h (by simp [he]))]

theorem regUses_count {l : List String} {s : Scope} {x : String} {p : Nat} {v : Var}
    (h : s x = some v) (hp : v.pos ≤ p) :
    l.foldl (registerFutureUse · · p) s x = some ⟨v.refs + l.count x, v.pos⟩ := by
  induction l generalizing s v with
  | nil => simpa using h
  | cons y l ih =>
    simp only [List.foldl_cons]
    by_cases hy : y = x
    · subst hy
      rw [ih (v := ⟨v.refs + 1, v.pos⟩) (regUse_same h hp) hp]
      simp; omega
    · rw [ih (v := v) ((regUse_other (Ne.symm hy)).trans h) hp]
      simp [hy]

theorem regVars_not_mem {l : List String} {s : Scope} {x : String} {p : Nat} (h : x ∉ l) :
    l.foldl (registerVariable · · p) s x = s x := by
  induction l generalizing s with
  | nil => rfl
  | cons y l ih =>
    simp only [List.foldl_cons]
    rw [ih (fun hm => h (by simp [hm])), regVar_other (fun he => h (by simp [he]))]

theorem regVars_new {l : List String} {s : Scope} {x : String} {p : Nat} (hn : l.Nodup) (h : x ∈ l)
    (hs : s x = none) : l.foldl (registerVariable · · p) s x = some ⟨0, p⟩ := by
  induction l generalizing s with
  | nil => cases h
  | cons y l ih =>
    simp only [List.foldl_cons]
    obtain ⟨h1, h2⟩ := List.nodup_cons.1 hn
    by_cases hy : y = x
    · subst hy
      rw [regVars_not_mem h1]
      simp [registerVariable, hs, Scope.upd]
    · exact ih h2 ((List.mem_cons.1 h).resolve_left (Ne.symm hy))
        ((regVar_other (Ne.symm hy)).trans hs)

/-- How often `x` is registered as an input. -/
def supply : Prog → String → Nat
  | .op ins _ _ r, x => ins.count x + supply r x
  | _, _ => 0

theorem needs_le_supply {p : Prog} {seen : List String} (h : WellFormed p seen) (x : String) :
    needs p x ≤ supply p x := by
  induction p generalizing seen with
  | done => simp [needs]
  | op ins outs acc r ih =>
    obtain ⟨-, h2, -, -, -, h6⟩ := h
    have := ih h6
    have := h2 x
    simp only [needs, supply]; omega
  | ite => cases h
  | loop => cases h

theorem reg_seen {p : Prog} {seen : List String} (h : WellFormed p seen) {x : String} (hx : x ∈ seen)
    {s : Scope} {v : Var} {pos : Nat} (hs : s x = some v) (hp : v.pos ≤ pos) :
    regProg p pos s x = some ⟨v.refs + supply p x, v.pos⟩ := by
  induction p generalizing seen s v pos with
  | done => simpa [regProg, supply] using hs
  | op ins outs acc r ih =>
    obtain ⟨-, -, -, -, h5, h6⟩ := h
    have hxo : x ∉ outs := fun hm => h5 x hm hx
    have h1 : regNode ins outs pos s x = some ⟨v.refs + ins.count x, v.pos⟩ := by
      unfold regNode
      exact regUses_count ((regVars_not_mem hxo).trans hs) hp
    simp only [regProg]
    rw [ih h6 (by simp [hx]) h1 (by simp; omega)]
    simp [supply]; omega
  | ite => cases h
  | loop => cases h

/-- `x` is an output of the node at index `k`, and `r` are the nodes after it. -/
def DefinedAt (x : String) : Prog → Nat → Prog → Prop
  | .op _ outs _ r, 0, r' => x ∈ outs ∧ r = r'
  | .op _ _ _ r, k + 1, r' => DefinedAt x r k r'
  | _, _, _ => False

theorem not_definedAt_seen {q : Prog} {k : Nat} {sn : List String} {x : String} {r' : Prog}
    (hw : WellFormed q sn) (hm : x ∈ sn) : ¬ DefinedAt x q k r' := by
  induction q generalizing k sn with
  | done => intro hq; cases hq
  | op i o a q ihq =>
    intro hq
    obtain ⟨-, -, -, -, w5, w6⟩ := hw
    cases k with
    | zero => exact w5 x hq.1 hm
    | succ k => exact ihq w6 (by simp [hm]) hq
  | ite => cases hw
  | loop => cases hw

theorem reg_new {p : Prog} {seen : List String} (h : WellFormed p seen) {x : String} (hx : x ∉ seen)
    {s : Scope} {pos k : Nat} {r' : Prog} (hd : DefinedAt x p k r') (hs : s x = none) :
    regProg p pos s x = some ⟨supply r' x, pos + k + 1⟩ := by
  induction p generalizing seen s pos k with
  | done => cases hd
  | op ins outs acc r ih =>
    obtain ⟨h1, -, -, h4, h5, h6⟩ := h
    have hxi : x ∉ ins := fun hm => hx (h1 x hm)
    simp only [regProg]
    cases k with
    | zero =>
      obtain ⟨ho, rfl⟩ := hd
      have h2 : regNode ins outs pos s x = some ⟨0, pos + 1⟩ := by
        unfold regNode
        rw [regUses_not_mem hxi]
        exact regVars_new h4 ho hs
      rw [reg_seen h6 (by simp [ho]) h2 (Nat.le_refl _)]
      simp
    | succ k =>
      have hxo : x ∉ outs := by
        intro ho
        exact not_definedAt_seen h6 (by simp [ho]) hd
      have h2 : regNode ins outs pos s x = none := by
        unfold regNode
        rw [regUses_not_mem hxi, regVars_not_mem hxo, hs]
      rw [ih h6 (by simp [hx, hxo]) hd h2]
      congr 2; omega
  | ite => cases h
  | loop => cases h

/-! ## Ownership -/

theorem live_mark_other {x y : String} {v : Bool} (e : Env) (h : y ≠ x) :
    live y (mark x v e) = live y e := by
  induction e with
  | nil => rfl
  | cons p e ih =>
    obtain ⟨z, b⟩ := p
    simp only [mark]
    split
    · rename_i hz; subst hz; simp [live, Ne.symm h]
    · simp only [live, ih]

theorem check_binds {xs : List String} {c : Code} {e : Env} :
    check (binds xs c) e = check c ((xs.reverse.map (·, true)) ++ e) := by
  induction xs generalizing e with
  | nil => rfl
  | cons x xs ih =>
    show check (.bind x (binds xs c)) e = _
    simp only [check, ih]
    simp

theorem live_append_bound {xs : List String} {x : String} {e : Env} (h : x ∈ xs) :
    live x (xs.map (·, true) ++ e) = true := by
  induction xs with
  | nil => cases h
  | cons y xs ih =>
    simp only [List.map_cons, List.cons_append, live]
    split
    · rfl
    · rename_i hy
      exact ih ((List.mem_cons.1 h).resolve_left (Ne.symm hy))

theorem live_append_other {xs : List String} {x : String} {e : Env} (h : x ∉ xs) :
    live x (xs.map (·, true) ++ e) = live x e := by
  induction xs with
  | nil => rfl
  | cons y xs ih =>
    simp only [List.map_cons, List.cons_append, live]
    rw [if_neg (fun he => h (by simp [he])), ih (fun hm => h (by simp [hm]))]

/-- What holds of every name: the counter covers the accesses to come (`n`), and the variable owns
its value if there are any (`m` counts also those the scope does not know of). -/
def Covered (s : Scope) (e : Env) (pos : Nat) (x : String) (n m : Nat) : Prop :=
  (0 < n → ∃ v, s x = some v ∧ v.pos ≤ pos ∧ n ≤ v.refs) ∧ (0 < n + m → live x e = true)

/-- One run of accesses: nothing fails, and every name stays covered for what follows. -/
theorem accesses_ok {acc : List Access} (hraw : ∀ x, Access.raw x ∉ acc) {pos : Nat} {s : Scope} {e : Env}
    {n m : String → Nat} (hm : ∀ x, 0 < accCount acc x → m x = 0)
    (h : ∀ x, 0 < accCount acc x → Covered s e pos x (accCount acc x + n x) (m x)) :
    ∃ e', (∀ c, check ((genAccesses pos s acc).2 c) e = check c e') ∧
      (∀ x, 0 < accCount acc x → Covered (genAccesses pos s acc).1 e' pos x (n x) (m x)) ∧
      (∀ x, accCount acc x = 0 → (genAccesses pos s acc).1 x = s x ∧ live x e' = live x e) := by
  induction acc generalizing s e with
  | nil => exact ⟨e, fun c => rfl, fun x hx => by simp [accCount] at hx, fun x _ => ⟨rfl, rfl⟩⟩
  | cons a acc ih =>
    have hraw' : ∀ x, Access.raw x ∉ acc := fun x hx => hraw x (by simp [hx])
    have hc : ∀ x, accCount (a :: acc) x = accCount acc x + if a.name = x then 1 else 0 := by
      intro x; simp [accCount, List.count_cons]
    have hself := h a.name (by rw [hc]; simp)
    rw [hc, if_pos rfl] at hself
    obtain ⟨v, hv, hpos, hrefs⟩ := hself.1 (by omega)
    have hlive := hself.2 (by omega)
    -- the state after the first access
    obtain ⟨s1, e1, hs1, hcheck, hcov, hoth⟩ : ∃ s1 e1, (genAccess pos s a).1 = s1 ∧
        (∀ c, check ((genAccess pos s a).2 c) e = check c e1) ∧
        Covered s1 e1 pos a.name (accCount acc a.name + n a.name) (m a.name) ∧
        (∀ x, x ≠ a.name → s1 x = s x ∧ live x e1 = live x e) := by
      cases a with
      | raw x => exact absurd (by simp) (hraw x)
      | peek x =>
        refine ⟨s, e, rfl, fun c => ?_, ?_, fun y _ => ⟨rfl, rfl⟩⟩
        · show check (.clone x c) e = _
          simp only [check]
          exact if_pos hlive
        · exact ⟨fun hn => ⟨v, hv, hpos, by simp only [Access.name] at hrefs ⊢; omega⟩, fun _ => hlive⟩
      | arg x =>
        simp only [Access.name] at *
        have huse : useOwned s x pos = (s.upd x ⟨v.refs - 1, v.pos⟩, decide (0 < v.refs - 1)) := by
          unfold useOwned
          rw [hv]
          simp only
          rw [if_pos ⟨hpos, by omega⟩]
        by_cases hlast : 0 < v.refs - 1
        · refine ⟨s.upd x ⟨v.refs - 1, v.pos⟩, e, ?_, fun c => ?_, ?_, fun y hy => ⟨upd_other hy, rfl⟩⟩
          · simp [genAccess, huse]
          · simp only [genAccess, huse, decide_eq_true hlast, if_true, check]
            exact if_pos hlive
          · exact ⟨fun _ => ⟨_, upd_same .., hpos, by simp only; omega⟩, fun _ => hlive⟩
        · refine ⟨s.upd x ⟨v.refs - 1, v.pos⟩, mark x false e, ?_, fun c => ?_, ?_,
            fun y hy => ⟨upd_other hy, live_mark_other e hy⟩⟩
          · simp [genAccess, huse]
          · simp only [genAccess, huse, decide_eq_false hlast]
            show check (.move x c) e = _
            simp only [check]
            exact if_pos hlive
          · have h0 : accCount acc x + n x = 0 := by omega
            have hm0 : m x = 0 := hm x (by rw [hc]; simp)
            exact ⟨fun hh => by omega, fun hh => by omega⟩
    have hcov' : ∀ x, 0 < accCount acc x → Covered s1 e1 pos x (accCount acc x + n x) (m x) := by
      intro x hx
      by_cases hxa : x = a.name
      · rw [hxa]; exact hcov
      · have hx' := h x (by rw [hc]; omega)
        rw [hc, if_neg (Ne.symm hxa)] at hx'
        obtain ⟨o1, o2⟩ := hoth x hxa
        unfold Covered at hx' ⊢
        rw [o1, o2]; exact hx'
    obtain ⟨e', k1, k2, k3⟩ := ih hraw' (fun x hx => hm x (by rw [hc]; omega)) hcov'
    refine ⟨e', fun c => ?_, fun x hx => ?_, fun x hx => ?_⟩
    · show check ((genAccess pos s a).2 ((genAccesses pos (genAccess pos s a).1 acc).2 c)) e = _
      rw [hcheck, hs1, k1]
    · show Covered (genAccesses pos (genAccess pos s a).1 acc).1 e' pos x _ _
      rw [hs1]
      by_cases hx0 : 0 < accCount acc x
      · exact k2 x hx0
      · have hxa : x = a.name := by
          rw [hc] at hx
          by_cases he : a.name = x
          · exact he.symm
          · rw [if_neg he] at hx; omega
        obtain ⟨o1, o2⟩ := k3 x (by omega)
        subst hxa
        have h0 : accCount acc a.name = 0 := by omega
        unfold Covered at hcov ⊢
        rw [o1, o2]
        rw [h0, Nat.zero_add] at hcov
        exact hcov
    · show (genAccesses pos (genAccess pos s a).1 acc).1 x = _ ∧ _
      rw [hs1]
      have hxa : x ≠ a.name := by
        intro he; rw [hc, if_pos he.symm] at hx; omega
      obtain ⟨o1, o2⟩ := k3 x (by rw [hc] at hx; omega)
      obtain ⟨q1, q2⟩ := hoth x hxa
      exact ⟨o1.trans q1, o2.trans q2⟩

theorem accesses_append {acc : List Access} {pos : Nat} {s : Scope} {c d : Code} :
    (genAccesses pos s acc).2 c ++ d = (genAccesses pos s acc).2 (c ++ d) := by
  induction acc generalizing s c with
  | nil => rfl
  | cons a acc ih =>
    have h1 : ∀ c d : Code, (genAccess pos s a).2 c ++ d = (genAccess pos s a).2 (c ++ d) := by
      intro c d
      cases a with
      | arg x => simp only [genAccess]; split <;> rfl
      | peek x => rfl
      | raw x => rfl
    show (genAccess pos s a).2 ((genAccesses pos (genAccess pos s a).1 acc).2 c) ++ d = _
    rw [h1, ih]
    rfl

theorem binds_append {xs : List String} {c d : Code} : binds xs c ++ d = binds xs (c ++ d) := by
  induction xs with
  | nil => rfl
  | cons x xs ih =>
    show Code.bind x (binds xs c) ++ d = Code.bind x (binds xs (c ++ d))
    rw [← ih]; rfl

theorem mem_of_access {ins : List String} {acc : List Access} (h : ∀ x, accCount acc x ≤ ins.count x)
    {x : String} (hx : 0 < accCount acc x) : x ∈ ins :=
  List.count_pos_iff.1 (Nat.lt_of_lt_of_le hx (h x))

/-- The nodes of a well-formed graph generate accepted code, and what the outputs need survives. -/
theorem prog_ok {p : Prog} {seen : List String} (hw : WellFormed p seen) {pos : Nat} {s : Scope}
    {e : Env} {out m : String → Nat} (hm : ∀ x, 0 < needs p x → m x = 0)
    (hA : ∀ x ∈ seen, Covered s e pos x (needs p x + out x) (m x))
    (hB : ∀ x k r', DefinedAt x p k r' → ∃ v, s x = some v ∧ v.pos ≤ pos + k + 1 ∧
      needs r' x + out x ≤ v.refs) :
    ∃ e', (∀ c, check ((genProg p pos s).2 ++ c) e = check c e') ∧
      ∀ x, x ∈ seen ∨ x ∈ defs p → 0 < out x + m x → live x e' = true := by
  induction p generalizing seen pos s e with
  | done =>
    refine ⟨e, fun c => rfl, fun x hx h => ?_⟩
    exact (hA x (hx.resolve_right (by simp [defs]))).2 (by omega)
  | op ins outs acc r ih =>
    obtain ⟨h1, h2, h3, h4, h5, h6⟩ := hw
    have hseen : ∀ x, 0 < accCount acc x → x ∈ seen := fun x hx => h1 x (mem_of_access h2 hx)
    obtain ⟨e1, k1, k2, k3⟩ := accesses_ok (n := fun x => needs r x + out x) (m := m) h3
      (pos := pos) (s := s) (e := e)
      (fun x hx => hm x (by simp only [needs]; omega))
      (fun x hx => by
        have := hA x (hseen x hx)
        simp only [needs, Nat.add_assoc] at this ⊢
        exact this)
    have hA' : ∀ x ∈ outs ++ seen, Covered (genAccesses pos s acc).1
        ((outs.reverse.map (·, true)) ++ e1) (pos + 1) x (needs r x + out x) (m x) := by
      intro x hx
      by_cases ho : x ∈ outs
      · have h0 : accCount acc x = 0 := by
          by_cases hz : 0 < accCount acc x
          · exact absurd (hseen x hz) (h5 x ho)
          · omega
        obtain ⟨v, hv, hp, hr⟩ := hB x 0 r ⟨ho, rfl⟩
        refine ⟨fun _ => ⟨v, (k3 x h0).1.trans hv, hp, hr⟩, fun _ => ?_⟩
        exact live_append_bound (by simpa using ho)
      · have hs : x ∈ seen := (List.mem_append.1 hx).resolve_left ho
        have hl := live_append_other (xs := outs.reverse) (x := x) (e := e1) (by simpa using ho)
        unfold Covered
        rw [hl]
        by_cases hz : 0 < accCount acc x
        · obtain ⟨c1, c2⟩ := k2 x hz
          refine ⟨fun h => ?_, c2⟩
          obtain ⟨v, hv, hp, hr⟩ := c1 h
          exact ⟨v, hv, by omega, hr⟩
        · obtain ⟨q1, q2⟩ := k3 x (by omega)
          obtain ⟨c1, c2⟩ := hA x hs
          simp only [needs] at c1 c2
          rw [q1, q2]
          refine ⟨fun h => ?_, fun h => c2 (by omega)⟩
          obtain ⟨v, hv, hp, hr⟩ := c1 (by omega)
          exact ⟨v, hv, by omega, by omega⟩
    have hB' : ∀ x k r', DefinedAt x r k r' → ∃ v, (genAccesses pos s acc).1 x = some v ∧
        v.pos ≤ pos + 1 + k + 1 ∧ needs r' x + out x ≤ v.refs := by
      intro x k r' hd
      have hns : x ∉ seen := fun hx => not_definedAt_seen h6 (by simp [hx]) hd
      have h0 : accCount acc x = 0 := by
        by_cases hz : 0 < accCount acc x
        · exact absurd (hseen x hz) hns
        · omega
      obtain ⟨v, hv, hp, hr⟩ := hB x (k + 1) r' hd
      exact ⟨v, (k3 x h0).1.trans hv, by omega, hr⟩
    obtain ⟨e', j1, j2⟩ := ih h6 (fun x hx => hm x (by simp only [needs]; omega)) hA' hB'
    refine ⟨e', fun c => ?_, fun x hx h => j2 x ?_ h⟩
    · simp only [genProg]
      rw [accesses_append, binds_append, k1, check_binds, j1]
    · rcases hx with hx | hx
      · exact Or.inl (by simp [hx])
      · simp only [defs, List.mem_append] at hx
        rcases hx with hx | hx
        · exact Or.inl (by simp [hx])
        · exact Or.inr hx
  | ite => cases hw
  | loop => cases hw

theorem defs_definedAt {p : Prog} {seen : List String} (hw : WellFormed p seen) {x : String}
    (hx : x ∈ defs p) : ∃ k r', DefinedAt x p k r' := by
  induction p generalizing seen with
  | done => cases hx
  | op ins outs acc r ih =>
    obtain ⟨-, -, -, -, -, h6⟩ := hw
    simp only [defs, List.mem_append] at hx
    rcases hx with hx | hx
    · exact ⟨0, r, hx, rfl⟩
    · obtain ⟨k, r', h⟩ := ih h6 hx
      exact ⟨k + 1, r', h⟩
  | ite => cases hw
  | loop => cases hw

theorem definedAt_needs {p : Prog} {seen : List String} (hw : WellFormed p seen) {x : String}
    {k : Nat} {r' : Prog} (hd : DefinedAt x p k r') :
    needs p x = needs r' x ∧ ∃ sn, WellFormed r' sn := by
  induction p generalizing seen k with
  | done => cases hd
  | op ins outs acc r ih =>
    have hns : x ∉ seen := fun h => not_definedAt_seen hw h hd
    obtain ⟨h1, h2, -, -, -, h6⟩ := hw
    have h0 : accCount acc x = 0 := by
      by_cases hz : 0 < accCount acc x
      · exact absurd (h1 x (mem_of_access h2 hz)) hns
      · omega
    cases k with
    | zero => obtain ⟨-, rfl⟩ := hd; exact ⟨by simp [needs, h0], _, h6⟩
    | succ k =>
      obtain ⟨q1, q2⟩ := ih h6 hd
      exact ⟨by simp [needs, h0, q1], q2⟩
  | ite => cases hw
  | loop => cases hw

theorem definedAt_lt {p : Prog} {x : String} {k : Nat} {r' : Prog} (hd : DefinedAt x p k r') :
    k < p.len := by
  induction p generalizing k with
  | op ins outs acc r ih =>
    cases k with
    | zero => simp [Prog.len]
    | succ k => have := ih hd; simp only [Prog.len]; omega
  | _ => cases hd

/-- The counters after registration: an input's. -/
theorem buildScope_input {g : Graph} (hg : WellFormedGraph g) {x : String} (hx : x ∈ g.inputs) :
    buildScope g x = some ⟨supply g.prog x + g.outputs.count x, 0⟩ := by
  unfold buildScope
  have h1 := reg_seen hg.prog hx (s := g.inputs.foldl (registerVariable · · 0) fun _ => none)
    (pos := 0) (regVars_new hg.inputs hx rfl) (Nat.le_refl _)
  rw [regUses_count h1 (Nat.zero_le _)]
  simp

/-- The counters after registration: an intermediate value's. -/
theorem buildScope_def {g : Graph} (hg : WellFormedGraph g) {x : String} {k : Nat} {r' : Prog}
    (hd : DefinedAt x g.prog k r') :
    buildScope g x = some ⟨supply r' x + g.outputs.count x, k + 1⟩ := by
  unfold buildScope
  have hns : x ∉ g.inputs := fun h => not_definedAt_seen hg.prog h hd
  have h1 := reg_new hg.prog hns (s := g.inputs.foldl (registerVariable · · 0) fun _ => none)
    (pos := 0) hd (regVars_not_mem hns)
  have := definedAt_lt hd
  rw [regUses_count h1 (by simp only; omega)]
  simp

theorem check_moves {xs : List String} (hn : xs.Nodup) {e : Env} (h : ∀ x ∈ xs, live x e = true) :
    ∃ e', (∀ c, check (movesOf xs c) e = check c e') ∧ ∀ x, x ∉ xs → live x e' = live x e := by
  induction xs generalizing e with
  | nil => exact ⟨e, fun c => rfl, fun x _ => rfl⟩
  | cons x xs ih =>
    obtain ⟨h1, h2⟩ := List.nodup_cons.1 hn
    obtain ⟨e', k1, k2⟩ := ih h2 (e := mark x false e) (fun y hy => by
      have hne : y ≠ x := by intro he; subst he; exact h1 hy
      rw [live_mark_other e hne]; exact h y (by simp [hy]))
    refine ⟨e', fun c => ?_, fun y hy => ?_⟩
    · show check (.move x (movesOf xs c)) e = _
      simp only [check]
      rw [if_pos (h x (by simp)), k1]
    · rw [k2 y (fun hm => hy (by simp [hm])), live_mark_other e (fun he => hy (by simp [he]))]

/-- **C23.** For every well-formed graph, of any size and with any pattern of uses, the borrow checker
accepts the generated `forward`. -/
theorem C23_no_use_after_move_partial (g : Graph) (hg : WellFormedGraph g) : Accepts (forward g) := by
  unfold Accepts forward
  rw [check_binds]
  obtain ⟨e', k1, k2⟩ := prog_ok (p := g.prog) hg.prog (pos := 0) (s := buildScope g)
    (e := (g.inputs.reverse.map (·, true)) ++ []) (out := fun x => g.outputs.count x)
    (m := fun x => g.scalarOutputs.count x)
    (fun x hx => by
      refine List.count_eq_zero.2 fun hm => ?_
      have := hg.scalars x hm
      omega)
    (fun x hx => by
      refine ⟨fun _ => ⟨_, buildScope_input hg hx, Nat.le_refl _, ?_⟩, fun _ => ?_⟩
      · have := needs_le_supply hg.prog x
        simp only; omega
      · exact live_append_bound (by simpa using hx))
    (fun x k r' hd => by
      obtain ⟨-, sn, hw⟩ := definedAt_needs hg.prog hd
      refine ⟨_, buildScope_def hg hd, by simp only; omega, ?_⟩
      have := needs_le_supply hw x
      simp only; omega)
  rw [k1]
  have hdis := List.nodup_append.1 hg.distinct
  obtain ⟨e2, j1, j2⟩ := check_moves (xs := g.scalarOutputs) hdis.2.1 (e := e') (fun x hx => by
    refine k2 x (hg.outputs x (by simp [hx])) ?_
    have := List.count_pos_iff.2 hx
    omega)
  obtain ⟨e3, i1, -⟩ := check_moves (xs := g.outputs) hdis.1 (e := e2) (fun x hx => by
    rw [j2 x (fun hm => hdis.2.2 x hx x hm rfl)]
    refine k2 x (hg.outputs x (by simp [hx])) ?_
    have := List.count_pos_iff.2 hx
    omega)
  rw [j1, i1]
  rfl

end OnnxIR
