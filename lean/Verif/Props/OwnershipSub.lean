import Verif.Props.Ownership

/-!
# C25: tensors captured by If and Loop bodies stay usable

The general theorem: for graphs with If and Loop nodes, nested to any depth, under the conditions the
counterexamples in `Verif.Props.OwnershipClones` show to be needed, generated code is accepted.
-/

namespace OnnxIR.Sub

open Rust Gen

/-! ## Statement -/

/-- The captures a body knows under another name than the enclosing graph. -/
def renamed (b : List (String × String)) : List String := (b.filter fun q => q.1 ≠ q.2).map Prod.fst

/-- Every name a graph introduces, bodies included: outputs of nodes, loop variables and renamed
captures. -/
def introduced : Prog → List String
  | .done => []
  | .op _ outs _ r => outs ++ introduced r
  | .ite _ outs _ b1 p1 _ b2 p2 _ r =>
    outs ++ ((renamed b1 ++ introduced p1) ++ ((renamed b2 ++ introduced p2) ++ introduced r))
  | .loop _ outs _ vars _ _ b body _ r =>
    outs ++ ((vars ++ (renamed b ++ introduced body)) ++ introduced r)

/-- The outputs of the nodes of a graph, bodies not included. -/
def level : Prog → List String
  | .done => []
  | .op _ outs _ r => outs ++ level r
  | .ite _ outs _ _ _ _ _ _ _ r => outs ++ level r
  | .loop _ outs _ _ _ _ _ _ _ r => outs ++ level r

/-- The tensors the nodes of a graph take, bodies not included. -/
def taken : Prog → List String
  | .done => []
  | .op ins _ _ r => ins ++ taken r
  | .ite ins _ _ _ _ _ _ _ _ r => ins ++ taken r
  | .loop ins _ _ _ _ _ _ _ _ r => ins ++ taken r

/-- Every tensor is defined before it is used (`seen` holds the names defined so far, `after` the
outputs of the graph), a body uses nothing but its captures, its variables and its own values, and

* a node accesses a tensor no more often than it lists it among its inputs; for If the captures of both
  branches count, so that a tensor captured by both has to be listed twice;
* the results of a body are different tensors;
* the trip count of a Loop is a native number, the initial values of its variables are different
  tensors not used otherwise by the Loop or after it, and no variable receives another variable. -/
def Scoped : Prog → List String → List String → Prop
  | .done, _, _ => True
  | .op ins outs acc r, seen, after =>
    (∀ x ∈ ins, x ∈ seen) ∧ (∀ x, accCount acc x ≤ ins.count x) ∧ (∀ x, Access.raw x ∉ acc) ∧
    Scoped r (outs ++ seen) after
  | .ite ins outs cond b1 p1 r1 b2 p2 r2 r, seen, after =>
    (∀ x ∈ ins, x ∈ seen) ∧ (∀ x, Access.raw x ∉ cond) ∧
    (∀ x, accCount cond x + ((b1.map Prod.snd).count x + (b2.map Prod.snd).count x) ≤ ins.count x) ∧
    (Scoped p1 (b1.map Prod.fst) r1 ∧ r1.Nodup ∧ ∀ x ∈ r1, x ∈ b1.map Prod.fst ∨ x ∈ level p1) ∧
    (Scoped p2 (b2.map Prod.fst) r2 ∧ r2.Nodup ∧ ∀ x ∈ r2, x ∈ b2.map Prod.fst ∨ x ∈ level p2) ∧
    Scoped r (outs ++ seen) after
  | .loop ins outs init vars guard cond b body rets r, seen, after =>
    (∀ x ∈ ins, x ∈ seen) ∧ (∀ x, Access.raw x ∉ cond) ∧ guard = [] ∧
    (∀ x, init.count x + (accCount cond x + (b.map Prod.snd).count x) ≤ ins.count x) ∧
    (init.Nodup ∧ ∀ x ∈ init, accCount cond x = 0 ∧ x ∉ b.map Prod.snd ∧ x ∉ taken r ∧ x ∉ after) ∧
    (init.length = vars.length ∧ rets.length = vars.length ∧
      ∀ q ∈ vars.zip rets, q.2 = q.1 ∨ q.2 ∉ vars) ∧
    (Scoped body (vars ++ b.map Prod.fst) rets ∧ rets.Nodup ∧
      ∀ x ∈ rets, x ∈ vars ++ b.map Prod.fst ∨ x ∈ level body) ∧
    Scoped r (outs ++ seen) after

/-- A graph in which no name is introduced twice, and whose outputs are different tensors that exist;
outputs converted to native scalars are used by no node. -/
structure WellFormedGraph (g : Graph) : Prop where
  names : (g.inputs ++ introduced g.prog).Nodup
  prog : Scoped g.prog g.inputs g.outputs
  outputs : ∀ x ∈ g.outputs ++ g.scalarOutputs, x ∈ g.inputs ∨ x ∈ level g.prog
  distinct : (g.outputs ++ g.scalarOutputs).Nodup
  scalars : ∀ x ∈ g.scalarOutputs, x ∉ taken g.prog

/-! ## Names -/

/-- The names introduced by bodies. -/
def hidden : Prog → List String
  | .done => []
  | .op _ _ _ r => hidden r
  | .ite _ _ _ b1 p1 _ b2 p2 _ r =>
    (renamed b1 ++ introduced p1) ++ ((renamed b2 ++ introduced p2) ++ hidden r)
  | .loop _ _ _ vars _ _ b body _ r => (vars ++ (renamed b ++ introduced body)) ++ hidden r

theorem mem_introduced {p : Prog} {x : String} : x ∈ introduced p ↔ x ∈ level p ∨ x ∈ hidden p := by
  induction p with
  | done => simp [introduced, level, hidden]
  | op ins outs acc r ih => simp [introduced, level, hidden, ih, or_assoc]
  | ite ins outs cond b1 p1 r1 b2 p2 r2 r _ _ ih =>
    simp only [introduced, level, hidden, List.mem_append, ih]
    constructor <;> intro h <;> grind
  | loop ins outs init vars gd cond b body rets r _ ih =>
    simp only [introduced, level, hidden, List.mem_append, ih]
    constructor <;> intro h <;> grind

theorem mem_inner {b : List (String × String)} {x : String} (h : x ∈ b.map Prod.fst) :
    x ∈ renamed b ∨ ((x, x) ∈ b ∧ x ∈ b.map Prod.snd) := by
  obtain ⟨q, hq, rfl⟩ := List.mem_map.1 h
  by_cases he : q.1 = q.2
  · refine Or.inr ⟨?_, List.mem_map.2 ⟨q, hq, he.symm⟩⟩
    obtain ⟨a, c⟩ := q
    simp only at he; subst he; exact hq
  · exact Or.inl (List.mem_map.2 ⟨q, List.mem_filter.2 ⟨hq, by simpa using he⟩, rfl⟩)

theorem renamed_inner {b : List (String × String)} {x : String} (h : x ∈ renamed b) :
    x ∈ b.map Prod.fst := by
  obtain ⟨q, hq, rfl⟩ := List.mem_map.1 h
  exact List.mem_map.2 ⟨q, (List.mem_filter.1 hq).1, rfl⟩

/-! ## Registration -/

/-- Inputs and outputs of the nodes, bodies not included. -/
def nodesOf : Prog → List (List String × List String)
  | .done => []
  | .op ins outs _ r => (ins, outs) :: nodesOf r
  | .ite ins outs _ _ _ _ _ _ _ r => (ins, outs) :: nodesOf r
  | .loop ins outs _ _ _ _ _ _ _ r => (ins, outs) :: nodesOf r

def regL : List (List String × List String) → Nat → Scope → Scope
  | [], _, s => s
  | n :: ns, p, s => regL ns (p + 1) (regNode n.1 n.2 p s)

theorem regProg_eq {p : Prog} {pos : Nat} {s : Scope} : regProg p pos s = regL (nodesOf p) pos s := by
  induction p generalizing pos s with
  | done => rfl
  | op ins outs acc r ih => exact ih
  | ite ins outs cond b1 p1 r1 b2 p2 r2 r _ _ ih => exact ih
  | loop ins outs init vars gd cond b body rets r _ ih => exact ih

theorem len_eq {p : Prog} : p.len = (nodesOf p).length := by
  induction p with
  | done => rfl
  | op ins outs acc r ih => simp [Prog.len, nodesOf, ih]
  | ite ins outs cond b1 p1 r1 b2 p2 r2 r _ _ ih => simp [Prog.len, nodesOf, ih]
  | loop ins outs init vars gd cond b body rets r _ ih => simp [Prog.len, nodesOf, ih]

/-- How often `x` is registered as an input. -/
def supply : List (List String × List String) → String → Nat
  | [], _ => 0
  | n :: ns, x => n.1.count x + supply ns x

/-- How many nodes come before the first that takes `x`. -/
def skip : List (List String × List String) → String → Nat
  | [], _ => 0
  | n :: ns, x => if x ∈ n.1 then 0 else skip ns x + 1

/-- How many nodes there are up to the one that defines `x`, included. -/
def defPos : List (List String × List String) → String → Nat
  | [], _ => 0
  | n :: ns, x => if x ∈ n.2 then 1 else defPos ns x + 1

def levelL : List (List String × List String) → List String
  | [] => []
  | n :: ns => n.2 ++ levelL ns

/-- Every input is defined before. -/
def Ordered : List (List String × List String) → List String → Prop
  | [], _ => True
  | n :: ns, seen => (∀ x ∈ n.1, x ∈ seen) ∧ Ordered ns (n.2 ++ seen)

theorem levelL_eq {p : Prog} : levelL (nodesOf p) = level p := by
  induction p with
  | done => rfl
  | op ins outs acc r ih => simp [levelL, nodesOf, level, ih]
  | ite ins outs cond b1 p1 r1 b2 p2 r2 r _ _ ih => simp [levelL, nodesOf, level, ih]
  | loop ins outs init vars gd cond b body rets r _ ih => simp [levelL, nodesOf, level, ih]

theorem ordered_of_scoped {p : Prog} {seen after : List String} (h : Scoped p seen after) :
    Ordered (nodesOf p) seen := by
  induction p generalizing seen with
  | done => trivial
  | op ins outs acc r ih => exact ⟨h.1, ih h.2.2.2⟩
  | ite ins outs cond b1 p1 r1 b2 p2 r2 r _ _ ih => exact ⟨h.1, ih h.2.2.2.2.2⟩
  | loop ins outs init vars gd cond b body rets r _ ih => exact ⟨h.1, ih h.2.2.2.2.2.2.2⟩

theorem skip_le (ns : List (List String × List String)) (x : String) : skip ns x ≤ ns.length := by
  induction ns with
  | nil => simp [skip]
  | cons n ns ih => simp only [skip, List.length_cons]; split <;> omega

theorem skip_len {ns : List (List String × List String)} {x : String} (h : supply ns x = 0) :
    skip ns x = ns.length := by
  induction ns with
  | nil => simp [skip]
  | cons n ns ih =>
    simp only [supply] at h
    have h1 : x ∉ n.1 := List.count_eq_zero.1 (by omega)
    simp only [skip, if_neg h1, List.length_cons, ih (by omega)]

theorem supply_unseen {ns : List (List String × List String)} {seen : List String}
    (h : Ordered ns seen) {x : String} (hx : x ∉ seen) (hl : x ∉ levelL ns) : supply ns x = 0 := by
  induction ns generalizing seen with
  | nil => rfl
  | cons n ns ih =>
    simp only [levelL, List.mem_append, not_or] at hl
    have h1 : n.1.count x = 0 := List.count_eq_zero.2 fun hm => hx (h.1 x hm)
    simp only [supply, h1, ih h.2 (by simp [hx, hl.1]) hl.2]

theorem regL_some {ns : List (List String × List String)} {pos : Nat} {s : Scope} {x : String} {v : Var}
    (hs : s x = some v) (hp : v.pos ≤ pos) (hl : x ∉ levelL ns) :
    regL ns pos s x = some ⟨v.refs + supply ns x, v.pos⟩ := by
  induction ns generalizing pos s v with
  | nil => simpa [regL, supply] using hs
  | cons n ns ih =>
    simp only [levelL, List.mem_append, not_or] at hl
    have h1 : regNode n.1 n.2 pos s x = some ⟨v.refs + n.1.count x, v.pos⟩ := by
      unfold regNode
      exact regUses_count ((regVars_not_mem hl.1).trans hs) hp
    simp only [regL]
    rw [ih h1 (by simp; omega) hl.2]
    simp [supply]; omega

theorem regUses_none {l : List String} {s : Scope} {x : String} {p : Nat} (h : s x = none)
    (hc : 0 < l.count x) : l.foldl (registerFutureUse · · p) s x = some ⟨l.count x, p⟩ := by
  induction l generalizing s with
  | nil => simp at hc
  | cons y l ih =>
    simp only [List.foldl_cons]
    by_cases hy : y = x
    · subst hy
      rw [regUses_count (v := ⟨1, p⟩) (by simp [registerFutureUse, h, Scope.upd]) (Nat.le_refl _)]
      simp; omega
    · rw [ih ((regUse_other (Ne.symm hy)).trans h) (by simpa [hy] using hc)]
      simp [hy]

theorem regL_none {ns : List (List String × List String)} {pos : Nat} {s : Scope} {x : String}
    (hs : s x = none) (hl : x ∉ levelL ns) :
    regL ns pos s x = if supply ns x = 0 then none else some ⟨supply ns x, pos + skip ns x⟩ := by
  induction ns generalizing pos s with
  | nil => simpa [regL, supply] using hs
  | cons n ns ih =>
    simp only [levelL, List.mem_append, not_or] at hl
    by_cases hx : x ∈ n.1
    · have hc := List.count_pos_iff.2 hx
      have h1 : regNode n.1 n.2 pos s x = some ⟨n.1.count x, pos⟩ := by
        unfold regNode
        exact regUses_none ((regVars_not_mem hl.1).trans hs) hc
      simp only [regL]
      rw [regL_some h1 (by simp) hl.2, if_neg (by simp only [supply]; omega)]
      simp [supply, skip, hx]
    · have h1 : regNode n.1 n.2 pos s x = none := by
        unfold regNode
        rw [regUses_not_mem hx, regVars_not_mem hl.1, hs]
      simp only [regL]
      rw [ih h1 hl.2]
      simp only [supply, List.count_eq_zero.2 hx, Nat.zero_add, skip, if_neg hx]
      rw [show pos + 1 + skip ns x = pos + (skip ns x + 1) by omega]

theorem regL_def {ns : List (List String × List String)} {seen : List String} (ho : Ordered ns seen)
    {pos : Nat} {s : Scope} {x : String} (hn : (levelL ns).Nodup) (hx : x ∉ seen) (hs : s x = none)
    (hl : x ∈ levelL ns) : regL ns pos s x = some ⟨supply ns x, pos + defPos ns x⟩ := by
  induction ns generalizing seen pos s with
  | nil => cases hl
  | cons n ns ih =>
    obtain ⟨n1, n2, n3⟩ := List.nodup_append.1 hn
    have hxi : x ∉ n.1 := fun hm => hx (ho.1 x hm)
    simp only [regL]
    by_cases hxo : x ∈ n.2
    · have h1 : regNode n.1 n.2 pos s x = some ⟨0, pos + 1⟩ := by
        unfold regNode
        rw [regUses_not_mem hxi]
        exact regVars_new n1 hxo hs
      rw [regL_some h1 (by simp) (fun hm => n3 x hxo x hm rfl)]
      simp [supply, defPos, hxo, List.count_eq_zero.2 hxi]
    · have h1 : regNode n.1 n.2 pos s x = none := by
        unfold regNode
        rw [regUses_not_mem hxi, regVars_not_mem hxo, hs]
      have hl' : x ∈ levelL ns := (List.mem_append.1 hl).resolve_left hxo
      rw [ih ho.2 n2 (by simp [hx, hxo]) h1 hl']
      simp only [supply, List.count_eq_zero.2 hxi, Nat.zero_add, defPos, if_neg hxo]
      rw [show pos + 1 + defPos ns x = pos + (defPos ns x + 1) by omega]

theorem regL_frame {ns : List (List String × List String)} {seen : List String} (ho : Ordered ns seen)
    {pos : Nat} {s : Scope} {x : String} (hx : x ∉ seen) (hl : x ∉ levelL ns) :
    regL ns pos s x = s x := by
  induction ns generalizing seen pos s with
  | nil => rfl
  | cons n ns ih =>
    simp only [levelL, List.mem_append, not_or] at hl
    simp only [regL]
    rw [ih ho.2 (by simp [hx, hl.1]) hl.2]
    unfold regNode
    rw [regUses_not_mem (fun hm => hx (ho.1 x hm)), regVars_not_mem hl.1]

theorem defPos_le {ns : List (List String × List String)} {x : String} (hl : x ∈ levelL ns) :
    defPos ns x ≤ ns.length := by
  induction ns with
  | nil => cases hl
  | cons n ns ih =>
    simp only [defPos, List.length_cons]
    split
    · omega
    · rename_i h
      have := ih ((List.mem_append.1 hl).resolve_left h)
      omega

section regSub

variable {vars : List String} {q : Prog} {outs : List String} {P : Nat} {s : Scope} {x : String}

theorem regSub_var (hn : vars.Nodup) (hx : x ∈ vars) (hs : s x = none) (hl : x ∉ level q) :
    regSub vars q outs P s x = some ⟨supply (nodesOf q) x + outs.count x, P⟩ := by
  unfold regSub
  rw [regProg_eq, regUses_count (regL_some (regVars_new hn hx hs) (Nat.le_refl _)
    (by rw [levelL_eq]; exact hl)) (by simp)]
  simp

theorem regSub_kept {v : Var} (hx : x ∉ vars) (hs : s x = some v) (hp : v.pos ≤ P) (hl : x ∉ level q) :
    regSub vars q outs P s x = some ⟨v.refs + supply (nodesOf q) x + outs.count x, v.pos⟩ := by
  unfold regSub
  rw [regProg_eq, regUses_count (regL_some ((regVars_not_mem hx).trans hs) hp
    (by rw [levelL_eq]; exact hl)) (by simp only; omega)]

theorem regSub_new (hx : x ∉ vars) (hs : s x = none) (hl : x ∉ level q)
    (hc : 0 < supply (nodesOf q) x + outs.count x) :
    ∃ v, regSub vars q outs P s x = some v ∧ v.pos ≤ P + skip (nodesOf q) x ∧
      v.refs = supply (nodesOf q) x + outs.count x := by
  unfold regSub
  rw [regProg_eq, len_eq]
  have h1 := regL_none (pos := P) ((regVars_not_mem (p := P) hx).trans hs)
    (ns := nodesOf q) (by rw [levelL_eq]; exact hl)
  by_cases h0 : supply (nodesOf q) x = 0
  · rw [if_pos h0] at h1
    rw [regUses_none h1 (by omega)]
    exact ⟨_, rfl, by simp [skip_len h0], by simp [h0]⟩
  · rw [if_neg h0] at h1
    have := skip_le (nodesOf q) x
    rw [regUses_count h1 (by simp only; omega)]
    exact ⟨_, rfl, by simp, rfl⟩

theorem regSub_def {seen : List String} (ho : Ordered (nodesOf q) seen) (hx : x ∉ vars)
    (hsn : x ∉ seen) (hs : s x = none) (hn : (level q).Nodup) (hl : x ∈ level q) :
    regSub vars q outs P s x =
      some ⟨supply (nodesOf q) x + outs.count x, P + defPos (nodesOf q) x⟩ := by
  unfold regSub
  have hl' : x ∈ levelL (nodesOf q) := by rw [levelL_eq]; exact hl
  have := defPos_le hl'
  rw [regProg_eq, len_eq, regUses_count (regL_def ho (by rw [levelL_eq]; exact hn) hsn
    ((regVars_not_mem hx).trans hs) hl') (by simp only; omega)]

theorem regSub_frame {seen : List String} (ho : Ordered (nodesOf q) seen) (hx : x ∉ vars)
    (hsn : x ∉ seen) (hl : x ∉ level q) (hq : x ∉ outs) : regSub vars q outs P s x = s x := by
  unfold regSub
  rw [regUses_not_mem hq, regProg_eq, regL_frame ho hsn (by rw [levelL_eq]; exact hl),
    regVars_not_mem hx]

end regSub

/-! ## What generating code does to the scope -/

/-- Every record keeps its position. -/
def Keeps (s s' : Scope) : Prop := ∀ x v, s x = some v → ∃ v', s' x = some v' ∧ v'.pos = v.pos

theorem Keeps.refl (s : Scope) : Keeps s s := fun _ v h => ⟨v, h, rfl⟩

theorem Keeps.trans {a b c : Scope} (h : Keeps a b) (k : Keeps b c) : Keeps a c := by
  intro x v hv
  obtain ⟨v1, h1, e1⟩ := h x v hv
  obtain ⟨v2, h2, e2⟩ := k x v1 h1
  exact ⟨v2, h2, e2.trans e1⟩

theorem keeps_upd {s : Scope} {x : String} {v w : Var} (h : s x = some v) (hp : w.pos = v.pos) :
    Keeps s (s.upd x w) := by
  intro y u hy
  by_cases he : y = x
  · subst he
    rw [h] at hy; cases hy
    exact ⟨w, upd_same .., hp⟩
  · exact ⟨u, (upd_other he).trans hy, rfl⟩

theorem keeps_new {s : Scope} {x : String} {w : Var} (h : s x = none) : Keeps s (s.upd x w) := by
  intro y u hy
  have he : y ≠ x := by intro he; subst he; rw [h] at hy; cases hy
  exact ⟨u, (upd_other he).trans hy, rfl⟩

theorem keeps_regUse (s : Scope) (x : String) (p : Nat) : Keeps s (registerFutureUse s x p) := by
  unfold registerFutureUse
  cases h : s x with
  | none => exact keeps_new h
  | some v =>
    dsimp only
    split
    · exact keeps_upd h rfl
    · exact Keeps.refl s

theorem keeps_regVar (s : Scope) (x : String) (p : Nat) : Keeps s (registerVariable s x p) := by
  unfold registerVariable
  cases h : s x with
  | none => exact keeps_new h
  | some v =>
    dsimp only
    split
    · exact keeps_upd h rfl
    · exact Keeps.refl s

theorem keeps_use (s : Scope) (x : String) (p : Nat) : Keeps s (useOwned s x p).1 := by
  unfold useOwned
  cases h : s x with
  | none => exact Keeps.refl s
  | some v =>
    dsimp only
    split
    · exact keeps_upd h rfl
    · exact Keeps.refl s

theorem keeps_uses (l : List String) (s : Scope) (p : Nat) :
    Keeps s (l.foldl (registerFutureUse · · p) s) := by
  induction l generalizing s with
  | nil => exact Keeps.refl s
  | cons x l ih => exact (keeps_regUse s x p).trans (ih _)

theorem keeps_vars (l : List String) (s : Scope) (p : Nat) :
    Keeps s (l.foldl (registerVariable · · p) s) := by
  induction l generalizing s with
  | nil => exact Keeps.refl s
  | cons x l ih => exact (keeps_regVar s x p).trans (ih _)

theorem keeps_regL (ns : List (List String × List String)) (p : Nat) (s : Scope) :
    Keeps s (regL ns p s) := by
  induction ns generalizing p s with
  | nil => exact Keeps.refl s
  | cons n ns ih => exact ((keeps_vars n.2 s _).trans (keeps_uses n.1 _ p)).trans (ih _ _)

theorem keeps_regSub (vars : List String) (q : Prog) (outs : List String) (P : Nat) (s : Scope) :
    Keeps s (regSub vars q outs P s) := by
  unfold regSub
  rw [regProg_eq]
  exact ((keeps_vars vars s P).trans (keeps_regL _ _ _)).trans (keeps_uses outs _ _)

theorem keeps_accesses (acc : List Access) (p : Nat) (s : Scope) :
    Keeps s (genAccesses p s acc).1 := by
  induction acc generalizing s with
  | nil => exact Keeps.refl s
  | cons a acc ih =>
    refine Keeps.trans ?_ (ih _)
    cases a with
    | arg x => exact keeps_use s x p
    | peek x => exact Keeps.refl s
    | raw x => exact Keeps.refl s

theorem keeps_bindings (b : List (String × String)) (p : Nat) (s : Scope) :
    Keeps s (genBindings p s b).1 := by
  induction b generalizing s with
  | nil => exact Keeps.refl s
  | cons q b ih => exact (keeps_use s q.2 p).trans (ih _)

theorem keeps_genProg (q : Prog) (p : Nat) (s : Scope) : Keeps s (genProg q p s).1 := by
  induction q generalizing p s with
  | done => exact Keeps.refl s
  | op ins outs acc r ih => exact (keeps_accesses acc p s).trans (ih _ _)
  | ite ins outs cond b1 p1 r1 b2 p2 r2 r ih1 ih2 ih =>
    exact (((((keeps_accesses cond p s).trans (keeps_bindings b1 p _)).trans
      ((keeps_regSub _ _ _ _ _).trans (ih1 _ _))).trans (keeps_bindings b2 p _)).trans
      ((keeps_regSub _ _ _ _ _).trans (ih2 _ _))).trans (ih _ _)
  | loop ins outs init vars gd cond b body rets r ih1 ih =>
    exact ((((keeps_accesses gd p s).trans (keeps_accesses cond p _)).trans
      (keeps_bindings b p _)).trans ((keeps_regSub _ _ _ _ _).trans (ih1 _ _))).trans (ih _ _)

theorem accesses_frame {acc : List Access} {p : Nat} {s : Scope} {x : String}
    (h : accCount acc x = 0) : (genAccesses p s acc).1 x = s x := by
  induction acc generalizing s with
  | nil => rfl
  | cons a acc ih =>
    have hc : accCount (a :: acc) x = accCount acc x + if a.name = x then 1 else 0 := by
      simp [accCount, List.count_cons]
    rw [hc] at h
    have hne : x ≠ a.name := by intro he; rw [if_pos he.symm] at h; omega
    refine (ih (by omega)).trans ?_
    cases a with
    | peek y => rfl
    | raw y => rfl
    | arg y =>
      show (useOwned s y p).1 x = s x
      unfold useOwned
      cases s y with
      | none => rfl
      | some v =>
        dsimp only
        split
        · exact upd_other hne
        · exact rfl

theorem use_frame {s : Scope} {x y : String} {p : Nat} (h : x ≠ y) : (useOwned s y p).1 x = s x := by
  unfold useOwned
  cases s y with
  | none => rfl
  | some v =>
    dsimp only
    split
    · exact upd_other h
    · exact rfl

theorem bindings_frame {b : List (String × String)} {p : Nat} {s : Scope} {x : String}
    (h : x ∉ b.map Prod.snd) : (genBindings p s b).1 x = s x := by
  induction b generalizing s with
  | nil => rfl
  | cons q b ih =>
    simp only [List.map_cons, List.mem_cons, not_or] at h
    exact (ih h.2).trans (use_frame h.1)

theorem acc_mem {ins : List String} {n x : String} {a b : Nat} (h : a + b ≤ ins.count x)
    (ha : 0 < a ∨ 0 < b) : x ∈ ins := List.count_pos_iff.1 (by omega)

/-- Generated code concerns nothing but the names a graph sees or introduces. -/
theorem genProg_frame {q : Prog} {seen after : List String} (h : Scoped q seen after) {p : Nat}
    {s : Scope} {x : String} (hx : x ∉ seen) (hi : x ∉ introduced q) : (genProg q p s).1 x = s x := by
  induction q generalizing seen after p s with
  | done => rfl
  | op ins outs acc r ih =>
    simp only [introduced, List.mem_append, not_or] at hi
    have hxi : ins.count x = 0 := List.count_eq_zero.2 fun hm => hx (h.1 x hm)
    have := h.2.1 x
    exact (ih h.2.2.2 (by simp [hx, hi.1]) hi.2).trans (accesses_frame (by omega))
  | ite ins outs cond b1 p1 r1 b2 p2 r2 r ih1 ih2 ih =>
    simp only [introduced, List.mem_append, not_or] at hi
    obtain ⟨ho, ⟨hf1, hi1⟩, ⟨hf2, hi2⟩, hir⟩ := hi
    obtain ⟨w1, w2, w3, ⟨w4, -, w5⟩, ⟨w6, -, w7⟩, w8⟩ := h
    have hxi : ins.count x = 0 := List.count_eq_zero.2 fun hm => hx (w1 x hm)
    have := w3 x
    have hb1 : x ∉ b1.map Prod.snd := List.count_eq_zero.1 (by omega)
    have hb2 : x ∉ b2.map Prod.snd := List.count_eq_zero.1 (by omega)
    have hn1 : x ∉ b1.map Prod.fst := fun hm => (mem_inner hm).elim hf1 fun h => hb1 h.2
    have hn2 : x ∉ b2.map Prod.fst := fun hm => (mem_inner hm).elim hf2 fun h => hb2 h.2
    have hl1 : x ∉ level p1 := fun hm => hi1 (mem_introduced.2 (Or.inl hm))
    have hl2 : x ∉ level p2 := fun hm => hi2 (mem_introduced.2 (Or.inl hm))
    simp only [genProg]
    rw [ih w8 (by simp [hx, ho]) hir, ih2 w6 hn2 hi2,
      regSub_frame (ordered_of_scoped w6) (by simp) hn2 hl2 (fun hm => (w7 x hm).elim hn2 hl2),
      bindings_frame hb2, ih1 w4 hn1 hi1,
      regSub_frame (ordered_of_scoped w4) (by simp) hn1 hl1 (fun hm => (w5 x hm).elim hn1 hl1),
      bindings_frame hb1, accesses_frame (by omega)]
  | loop ins outs init vars gd cond b body rets r ih1 ih =>
    simp only [introduced, List.mem_append, not_or] at hi
    obtain ⟨ho, ⟨hv, hf1, hi1⟩, hir⟩ := hi
    obtain ⟨w1, w2, rfl, w3, -, -, ⟨w4, -, w5⟩, w8⟩ := h
    have hxi : ins.count x = 0 := List.count_eq_zero.2 fun hm => hx (w1 x hm)
    have := w3 x
    have hb1 : x ∉ b.map Prod.snd := List.count_eq_zero.1 (by omega)
    have hn1 : x ∉ vars ++ b.map Prod.fst := fun hm => (List.mem_append.1 hm).elim hv fun hm =>
      (mem_inner hm).elim hf1 fun h => hb1 h.2
    have hl1 : x ∉ level body := fun hm => hi1 (mem_introduced.2 (Or.inl hm))
    simp only [genProg]
    rw [ih w8 (by simp [hx, ho]) hir, ih1 w4 hn1 hi1,
      regSub_frame (ordered_of_scoped w4) hv hn1 hl1 (fun hm => (w5 x hm).elim hn1 hl1),
      bindings_frame hb1, accesses_frame (by omega)]
    rfl

/-! ## What code does to the environment -/

/-- The declared names. -/
def names (e : Env) : List String := e.map Prod.fst

/-- Everything moved or assigned satisfies `P` or is declared by the code itself. -/
def Local : Code → (String → Prop) → Prop
  | .done, _ => True
  | .clone _ r, P => Local r P
  | .move x r, P => P x ∧ Local r P
  | .bind x r, P => Local r fun y => y = x ∨ P y
  | .set x r, P => P x ∧ Local r P
  | .ite a b r, P => Local a P ∧ Local b P ∧ Local r P
  | .loop a r, P => Local a P ∧ Local r P
  | .block a r, P => Local a P ∧ Local r P

/-- The names code declares outside its blocks. -/
def bound : Code → List String
  | .done => []
  | .clone _ r | .move _ r | .set _ r | .ite _ _ r | .loop _ r | .block _ r => bound r
  | .bind x r => x :: bound r

theorem Local.mono {c : Code} {P Q : String → Prop} (h : Local c P) (hpq : ∀ x, P x → Q x) :
    Local c Q := by
  induction c generalizing P Q with
  | done => trivial
  | clone x r ih => exact ih h hpq
  | move x r ih => exact ⟨hpq _ h.1, ih h.2 hpq⟩
  | bind x r ih => exact ih h fun y hy => hy.imp_right (hpq y)
  | set x r ih => exact ⟨hpq _ h.1, ih h.2 hpq⟩
  | ite a b r iha ihb ih => exact ⟨iha h.1 hpq, ihb h.2.1 hpq, ih h.2.2 hpq⟩
  | loop a r iha ih => exact ⟨iha h.1 hpq, ih h.2 hpq⟩
  | block a r iha ih => exact ⟨iha h.1 hpq, ih h.2 hpq⟩

theorem local_true {c : Code} {P : String → Prop} (h : ∀ x, P x) : Local c P := by
  induction c generalizing P with
  | done => trivial
  | clone x r ih => exact ih h
  | move x r ih => exact ⟨h _, ih h⟩
  | bind x r ih => exact ih fun y => Or.inr (h y)
  | set x r ih => exact ⟨h _, ih h⟩
  | ite a b r iha ihb ih => exact ⟨iha h, ihb h, ih h⟩
  | loop a r iha ih => exact ⟨iha h, ih h⟩
  | block a r iha ih => exact ⟨iha h, ih h⟩

theorem local_append {c d : Code} {P : String → Prop} (h : Local c P)
    (hd : Local d fun y => y ∈ bound c ∨ P y) : Local (c ++ d) P := by
  induction c generalizing P with
  | done => exact hd.mono fun y hy => hy.resolve_left (by simp [bound])
  | clone x r ih => exact ih h hd
  | move x r ih => exact ⟨h.1, ih h.2 hd⟩
  | bind x r ih =>
    refine ih h (hd.mono fun y hy => ?_)
    simp only [bound, List.mem_cons] at hy
    rcases hy with (hy | hy) | hy
    · exact Or.inr (Or.inl hy)
    · exact Or.inl hy
    · exact Or.inr (Or.inr hy)
  | set x r ih => exact ⟨h.1, ih h.2 hd⟩
  | ite a b r iha ihb ih => exact ⟨h.1, h.2.1, ih h.2.2 hd⟩
  | loop a r iha ih => exact ⟨h.1, ih h.2 hd⟩
  | block a r iha ih => exact ⟨h.1, ih h.2 hd⟩

theorem bound_append {c d : Code} : bound (c ++ d) = bound c ++ bound d := by
  induction c with
  | done => rfl
  | clone x r ih => exact ih
  | move x r ih => exact ih
  | bind x r ih => exact congrArg (x :: ·) ih
  | set x r ih => exact ih
  | ite a b r iha ihb ih => exact ih
  | loop a r iha ih => exact ih
  | block a r iha ih => exact ih

theorem names_mark (x : String) (v : Bool) (e : Env) : names (mark x v e) = names e := by
  induction e with
  | nil => rfl
  | cons p e ih =>
    obtain ⟨y, b⟩ := p
    simp only [mark]
    split
    · rfl
    · exact congrArg (y :: ·) ih

theorem mark_append {x : String} {v : Bool} {a e : Env} (h : x ∈ names a) :
    mark x v (a ++ e) = mark x v a ++ e := by
  induction a with
  | nil => cases h
  | cons p a ih =>
    obtain ⟨y, b⟩ := p
    simp only [List.cons_append, mark]
    split
    · rfl
    · rename_i hy
      rw [ih ((List.mem_cons.1 h).resolve_left (Ne.symm hy))]
      rfl

theorem leave_append (a e : Env) : leave e.length (a ++ e) = e := by
  simp [leave]

theorem join_names {a b : Env} (h : names a = names b) : names (join a b) = names a := by
  induction a generalizing b with
  | nil => rfl
  | cons p a ih =>
    cases b with
    | nil => cases h
    | cons q b =>
      simp only [names, List.map_cons, List.cons.injEq] at h
      exact congrArg (p.1 :: ·) (ih h.2)

theorem join_self (e : Env) : join e e = e := by
  induction e with
  | nil => rfl
  | cons p e ih => simpa [join] using ih

theorem join_append {a b e : Env} (h : names a = names b) : join (a ++ e) (b ++ e) = join a b ++ e := by
  induction a generalizing b with
  | nil =>
    cases b with
    | nil => exact join_self e
    | cons q b => cases h
  | cons p a ih =>
    cases b with
    | nil => cases h
    | cons q b =>
      simp only [names, List.map_cons, List.cons.injEq] at h
      exact congrArg ((p.1, p.2 && q.2) :: ·) (ih h.2)

theorem names_length {a b : Env} (h : names a = names b) : a.length = b.length := by
  have := congrArg List.length h
  simpa [names] using this

theorem leave_split {ext loc loc' e : Env} (h : names loc' = names loc) :
    leave (loc ++ e).length (ext ++ (loc' ++ e)) = loc' ++ e := by
  have hl : (loc ++ e).length = (loc' ++ e).length := by simp [names_length h]
  rw [hl, leave_append]

/-- Code that moves and assigns nothing but what it declares and the names in front leaves the rest of
the environment as it is. -/
theorem check_local {c : Code} {P : String → Prop} (h : Local c P) {loc e e' : Env}
    (hP : ∀ x, P x → x ∈ names loc ∨ e = []) (hc : check c (loc ++ e) = some e') :
    ∃ ext loc', e' = ext ++ (loc' ++ e) ∧ names loc' = names loc ∧ ∀ x ∈ names ext, x ∈ bound c := by
  induction c generalizing P loc e' with
  | done =>
    simp only [check, Option.some.injEq] at hc
    exact ⟨[], loc, hc.symm, rfl, by simp [names]⟩
  | clone x r ih =>
    simp only [check] at hc
    split at hc
    · exact ih h hP hc
    · cases hc
  | move x r ih =>
    simp only [check] at hc
    split at hc
    · have hm : mark x false (loc ++ e) = mark x false loc ++ e := by
        rcases hP x h.1 with h1 | h1
        · exact mark_append h1
        · subst h1; simp
      rw [hm] at hc
      obtain ⟨ext, loc', k1, k2, k3⟩ := ih h.2 (by rw [names_mark]; exact hP) hc
      exact ⟨ext, loc', k1, k2.trans (names_mark ..), k3⟩
    · cases hc
  | bind x r ih =>
    simp only [check] at hc
    obtain ⟨ext, loc', k1, k2, k3⟩ := ih (loc := (x, true) :: loc) h (fun y hy => by
      rcases hy with rfl | hy
      · exact Or.inl (by simp [names])
      · exact (hP y hy).imp_left fun hm => List.mem_cons_of_mem _ hm) hc
    cases loc' with
    | nil => cases k2
    | cons q loc' =>
      simp only [names, List.map_cons, List.cons.injEq] at k2
      refine ⟨ext ++ [q], loc', by simp [k1], k2.2, fun y hy => ?_⟩
      simp only [names, List.map_append, List.mem_append, List.map_cons, List.map_nil,
        List.mem_singleton] at hy
      rcases hy with hy | hy
      · exact List.mem_cons_of_mem _ (k3 y hy)
      · rw [hy, k2.1]; simp [bound]
  | set x r ih =>
    simp only [check] at hc
    have hm : mark x true (loc ++ e) = mark x true loc ++ e := by
      rcases hP x h.1 with h1 | h1
      · exact mark_append h1
      · subst h1; simp
    rw [hm] at hc
    obtain ⟨ext, loc', k1, k2, k3⟩ := ih h.2 (by rw [names_mark]; exact hP) hc
    exact ⟨ext, loc', k1, k2.trans (names_mark ..), k3⟩
  | ite a b r iha ihb ih =>
    simp only [check] at hc
    split at hc
    · rename_i ea eb ha hb
      obtain ⟨xa, la, a1, a2, -⟩ := iha h.1 hP ha
      obtain ⟨xb, lb, b1, b2, -⟩ := ihb h.2.1 hP hb
      rw [a1, b1, leave_split a2, leave_split b2, join_append (a2.trans b2.symm)] at hc
      have hj := (join_names (a2.trans b2.symm)).trans a2
      obtain ⟨ext, loc', k1, k2, k3⟩ := ih h.2.2 (by rw [hj]; exact hP) hc
      exact ⟨ext, loc', k1, k2.trans hj, k3⟩
    · cases hc
  | loop a r iha ih =>
    simp only [check] at hc
    split at hc
    · rename_i ea ha
      obtain ⟨xa, la, a1, a2, -⟩ := iha h.1 hP ha
      split at hc
      · rw [a1, leave_split a2] at hc
        obtain ⟨ext, loc', k1, k2, k3⟩ := ih h.2 (by rw [a2]; exact hP) hc
        exact ⟨ext, loc', k1, k2.trans a2, k3⟩
      · cases hc
    · cases hc
  | block a r iha ih =>
    simp only [check] at hc
    split at hc
    · rename_i ea ha
      obtain ⟨xa, la, a1, a2, -⟩ := iha h.1 hP ha
      rw [a1, leave_split a2] at hc
      obtain ⟨ext, loc', k1, k2, k3⟩ := ih h.2 (by rw [a2]; exact hP) hc
      exact ⟨ext, loc', k1, k2.trans a2, k3⟩
    · cases hc

/-- Whatever the code, afterwards the environment consists of what the code declared and of the
variables there were. -/
theorem check_names {c : Code} {e e' : Env} (hc : check c e = some e') :
    ∃ ext e1, e' = ext ++ e1 ∧ names e1 = names e ∧ ∀ x ∈ names ext, x ∈ bound c := by
  obtain ⟨ext, e1, k1, k2, k3⟩ := check_local (c := c) (P := fun _ => True) (local_true fun _ => trivial)
    (loc := e) (e := []) (fun _ _ => Or.inr rfl) (by simpa using hc)
  exact ⟨ext, e1, by simpa using k1, k2, k3⟩

theorem live_skip {ext e : Env} {x : String} (h : x ∉ names ext) : live x (ext ++ e) = live x e := by
  induction ext with
  | nil => rfl
  | cons p ext ih =>
    obtain ⟨y, b⟩ := p
    simp only [names, List.map_cons, List.mem_cons, not_or] at h
    simp only [List.cons_append, live]
    rw [if_neg (Ne.symm h.1), ih h.2]

/-- Variables that all own their values. -/
theorem all_live {vs : List String} (hn : vs.Nodup) {a e : Env} (ha : names a = vs)
    (h : ∀ x ∈ vs, live x (a ++ e) = true) : a = vs.map (·, true) := by
  induction a generalizing vs with
  | nil => subst ha; rfl
  | cons p a ih =>
    obtain ⟨y, b⟩ := p
    subst ha
    obtain ⟨n1, n2⟩ := List.nodup_cons.1 hn
    have h1 := h y (by simp [names])
    simp only [List.cons_append, live, if_true] at h1
    subst h1
    refine congrArg ((y, true) :: ·) (ih n2 rfl fun x hx => ?_)
    have h2 := h x (List.mem_cons_of_mem _ hx)
    have hne : y ≠ x := by intro he; subst he; exact n1 hx
    simpa [live, hne] using h2

/-! ## Locality of generated code -/

theorem local_accesses {acc : List Access} {p : Nat} {s : Scope} {c : Code} {P : String → Prop}
    (h : ∀ x, 0 < accCount acc x → P x) (hc : Local c P) : Local ((genAccesses p s acc).2 c) P := by
  induction acc generalizing s with
  | nil => exact hc
  | cons a acc ih =>
    have hcnt : ∀ x, accCount (a :: acc) x = accCount acc x + if a.name = x then 1 else 0 := by
      intro x; simp [accCount, List.count_cons]
    have h1 := ih (s := (genAccess p s a).1) fun x hx => h x (by rw [hcnt]; omega)
    have ha := h a.name (by rw [hcnt]; simp)
    show Local ((genAccess p s a).2 _) P
    cases a with
    | peek x => exact h1
    | raw x => exact ⟨ha, h1⟩
    | arg x =>
      simp only [genAccess] at h1 ⊢
      split
      · exact h1
      · exact ⟨ha, h1⟩

theorem bound_accesses {acc : List Access} {p : Nat} {s : Scope} {c : Code} :
    bound ((genAccesses p s acc).2 c) = bound c := by
  induction acc generalizing s with
  | nil => rfl
  | cons a acc ih =>
    show bound ((genAccess p s a).2 _) = _
    cases a with
    | peek x => exact ih
    | raw x => exact ih
    | arg x =>
      simp only [genAccess]
      split
      · exact ih
      · exact ih

theorem local_binds {xs : List String} {c : Code} {P : String → Prop}
    (h : Local c fun y => y ∈ xs ∨ P y) : Local (binds xs c) P := by
  induction xs generalizing P with
  | nil => exact h.mono fun y hy => hy.resolve_left (by simp)
  | cons x xs ih =>
    refine ih (h.mono fun y hy => ?_)
    simp only [List.mem_cons] at hy
    rcases hy with (hy | hy) | hy
    · exact Or.inr (Or.inl hy)
    · exact Or.inl hy
    · exact Or.inr (Or.inr hy)

theorem bound_binds {xs : List String} {c : Code} : bound (binds xs c) = xs ++ bound c := by
  induction xs with
  | nil => rfl
  | cons x xs ih => exact congrArg (x :: ·) ih

theorem local_moves {xs : List String} {c : Code} {P : String → Prop} (h : ∀ x ∈ xs, P x)
    (hc : Local c P) : Local (movesOf xs c) P := by
  induction xs with
  | nil => exact hc
  | cons x xs ih => exact ⟨h x (by simp), ih fun y hy => h y (by simp [hy])⟩

theorem bound_moves {xs : List String} {c : Code} : bound (movesOf xs c) = bound c := by
  induction xs with
  | nil => rfl
  | cons x xs ih => exact ih

theorem local_bindings {b : List (String × String)} {p : Nat} {s : Scope} {c : Code}
    {P : String → Prop} (h : Local c fun y => y ∈ b.map Prod.fst ∨ P y) :
    Local ((genBindings p s b).2 c) P := by
  induction b generalizing s P with
  | nil => exact h.mono fun y hy => hy.resolve_left (by simp)
  | cons q b ih =>
    refine ih (s := (useOwned s q.2 p).1) (P := fun y => y = q.1 ∨ P y) (h.mono fun y hy => ?_)
    simp only [List.map_cons, List.mem_cons] at hy
    rcases hy with (hy | hy) | hy
    · exact Or.inr (Or.inl hy)
    · exact Or.inl hy
    · exact Or.inr (Or.inr hy)

theorem bound_bindings {b : List (String × String)} {p : Nat} {s : Scope} {c : Code} :
    bound ((genBindings p s b).2 c) = b.map Prod.fst ++ bound c := by
  induction b generalizing s with
  | nil => rfl
  | cons q b ih => exact congrArg (q.1 :: ·) (ih (s := (useOwned s q.2 p).1))

theorem local_updates {vs os : List String} {P : String → Prop} (hv : ∀ x ∈ vs, P x)
    (ho : ∀ x ∈ os, P x) : Local (genUpdates vs os .done) P := by
  induction vs generalizing os with
  | nil => trivial
  | cons v vs ih =>
    cases os with
    | nil => trivial
    | cons o os =>
      have h1 := ih (os := os) (fun x hx => hv x (by simp [hx])) (fun x hx => ho x (by simp [hx]))
      simp only [genUpdates]
      split
      · exact h1
      · exact ⟨ho o (by simp), hv v (by simp), h1⟩

theorem bound_updates {vs os : List String} : bound (genUpdates vs os .done) = [] := by
  induction vs generalizing os with
  | nil => rfl
  | cons v vs ih =>
    cases os with
    | nil => rfl
    | cons o os =>
      simp only [genUpdates]
      split
      · exact ih
      · exact ih

theorem local_inits {xs vs : List String} {c : Code} {P : String → Prop} (hx : ∀ x ∈ xs, P x)
    (hl : xs.length = vs.length) (h : Local c fun y => y ∈ vs ∨ P y) : Local (genInits xs vs c) P := by
  induction xs generalizing vs P with
  | nil =>
    cases vs with
    | nil => exact h.mono fun y hy => hy.resolve_left (by simp)
    | cons v vs => simp at hl
  | cons x xs ih =>
    cases vs with
    | nil => simp at hl
    | cons v vs =>
      refine ⟨hx x (by simp), ih (fun y hy => Or.inr (hx y (by simp [hy]))) (by simpa using hl)
        (h.mono fun y hy => ?_)⟩
      simp only [List.mem_cons] at hy
      rcases hy with (hy | hy) | hy
      · exact Or.inr (Or.inl hy)
      · exact Or.inl hy
      · exact Or.inr (Or.inr hy)

theorem bound_inits {xs vs : List String} {c : Code} (hl : xs.length = vs.length) :
    bound (genInits xs vs c) = vs ++ bound c := by
  induction xs generalizing vs with
  | nil =>
    cases vs with
    | nil => rfl
    | cons v vs => simp at hl
  | cons x xs ih =>
    cases vs with
    | nil => simp at hl
    | cons v vs => exact congrArg (v :: ·) (ih (by simpa using hl))

theorem bound_genProg {q : Prog} {p : Nat} {s : Scope} : bound (genProg q p s).2 = level q := by
  induction q generalizing p s with
  | done => rfl
  | op ins outs acc r ih => simp only [genProg, bound_accesses, bound_binds, ih, level]
  | ite ins outs cond b1 p1 r1 b2 p2 r2 r _ _ ih =>
    simp only [genProg, bound_accesses, bound, bound_binds, ih, level]
  | loop ins outs init vars gd cond b body rets r _ ih =>
    simp only [genProg, bound, bound_binds, ih, level]

theorem local_genProg {q : Prog} {seen after : List String} (h : Scoped q seen after) {p : Nat}
    {s : Scope} {P : String → Prop} (hP : ∀ x ∈ seen, P x) : Local (genProg q p s).2 P := by
  induction q generalizing seen after p s P with
  | done => trivial
  | op ins outs acc r ih =>
    obtain ⟨w1, w2, -, w4⟩ := h
    simp only [genProg]
    refine local_accesses (fun x hx => hP x (w1 x (mem_of_access w2 hx))) (local_binds (ih w4 fun x hx => ?_))
    exact (List.mem_append.1 hx).imp_right (hP x)
  | ite ins outs cond b1 p1 r1 b2 p2 r2 r ih1 ih2 ih =>
    obtain ⟨w1, w2, w3, ⟨w4, -, w5⟩, ⟨w6, -, w7⟩, w8⟩ := h
    simp only [genProg]
    refine local_accesses (fun x hx => hP x (w1 x (List.count_pos_iff.1 (by have := w3 x; omega)))) ?_
    refine ⟨?_, ?_, local_binds (ih w8 fun x hx => (List.mem_append.1 hx).imp_right (hP x))⟩
    · refine local_bindings (local_append (ih1 w4 fun x hx => Or.inl hx) (local_moves (fun x hx => ?_) trivial))
      rw [bound_genProg]
      exact (w5 x hx).elim (fun h => Or.inr (Or.inl h)) Or.inl
    · refine local_bindings (local_append (ih2 w6 fun x hx => Or.inl hx) (local_moves (fun x hx => ?_) trivial))
      rw [bound_genProg]
      exact (w7 x hx).elim (fun h => Or.inr (Or.inl h)) Or.inl
  | loop ins outs init vars gd cond b body rets r ih1 ih =>
    obtain ⟨w1, w2, rfl, w3, -, ⟨w9, -⟩, ⟨w4, -, w5⟩, w8⟩ := h
    have hin : ∀ x, 0 < init.count x + accCount cond x → P x := fun x hx =>
      hP x (w1 x (List.count_pos_iff.1 (by have := w3 x; omega)))
    simp only [genProg]
    refine ⟨local_inits (fun x hx => hin x (by have := List.count_pos_iff.2 hx; omega)) w9
      (local_accesses (fun x hx => Or.inr (hin x (by omega))) ⟨?_, local_moves (fun x hx => Or.inl hx) trivial⟩),
      local_binds (ih w8 fun x hx => (List.mem_append.1 hx).imp_right (hP x))⟩
    refine local_bindings (local_append (ih1 w4 fun x hx => ?_) (local_updates (fun x hx => ?_) (fun x hx => ?_)))
    · exact (List.mem_append.1 hx).elim (fun h => Or.inr (Or.inl h)) Or.inl
    · exact Or.inr (Or.inr (Or.inl hx))
    · rw [bound_genProg]
      rcases w5 x hx with h | h
      · exact Or.inr ((List.mem_append.1 h).elim (fun h => Or.inr (Or.inl h)) Or.inl)
      · exact Or.inl h

end OnnxIR.Sub
