import Verif.Model.Written
import Verif.Props.Ownership

/-!
# C23, C81: the order in which operands are written, and local variables of the written blocks
-/

namespace OnnxIR

open Rust Gen

/-! ## Statements -/

/-- The questions a block mentions, in the order in which they are written. -/
def mentioned (text : List Item) : List Nat :=
  text.filterMap fun i => match i with
    | .mention k => some k
    | _ => none

/-- The local variables of a block. -/
def localNames (text : List Item) : List String :=
  text.filterMap fun i => match i with
    | .declare x => some x
    | _ => none

/-- The block writes every answer once, and answers about the same variable in the order of the questions (`names` are the
names asked for). -/
def WritesInOrder (names : List String) (text : List Item) : Prop :=
  (mentioned text).Perm (List.range names.length) ∧
    (mentioned text).Pairwise fun i j => names[i]? = names[j]? → i < j

/-- An operand that is looked at is taken by value later. -/
def LooksFirst : List Item → Prop
  | [] => True
  | .look k :: is => k ∈ mentioned is ∧ LooksFirst is
  | _ :: is => LooksFirst is

/-- No operand is mentioned where a local variable hides its name. -/
def Hygienic (names : List String) : List Item → List String → Prop
  | [], _ => True
  | .mention k :: is, hidden => (∀ x, names[k]? = some x → x ∉ hidden) ∧ Hygienic names is hidden
  | .look k :: is, hidden => (∀ x, names[k]? = some x → x ∉ hidden) ∧ Hygienic names is hidden
  | .declare x :: is, hidden => Hygienic names is (x :: hidden)
  | .take _ :: is, hidden => Hygienic names is hidden
  | .read _ :: is, hidden => Hygienic names is hidden

/-- The block treats its own local variables properly: the borrow checker accepts it when the operands are left out. -/
def LocalsOk (text : List Item) : Prop := Accepts (writeItems [] text)

/-- Every node has a block that keeps the order of the questions, hides no operand and treats its local variables properly. -/
def TextsOk (text : Nat → List Item) : Prog → Nat → Prop
  | .op _ _ acc r, p =>
    WritesInOrder (acc.map Access.name) (text p) ∧ LooksFirst (text p) ∧ Hygienic (acc.map Access.name) (text p) [] ∧ LocalsOk (text p) ∧
      TextsOk text r (p + 1)
  | _, _ => True

/-! ## Answers -/

/-- The variable of an argument. -/
def _root_.OnnxIR.Rust.Take.var : Take → String
  | .clone x => x
  | .move x => x

theorem answers_var (p : Nat) (acc : List Access) : ∀ s : Scope, (answers p s acc).2.map Take.var = acc.map Access.name := by
  induction acc with
  | nil => intro s; rfl
  | cons a acc ih =>
    intro s
    cases a with
    | arg x => simp only [answers, List.map_cons, ih, Access.name]; split <;> rfl
    | peek x => simp only [answers, List.map_cons, ih, Access.name]; rfl
    | raw x => simp only [answers, List.map_cons, ih, Access.name]; rfl

/-- Answers written one after the other. -/
def writeTakes (ts : List Take) (c : Code) : Code := ts.foldr writeTake c

theorem genAccesses_answers (p : Nat) (acc : List Access) : ∀ s : Scope,
    (genAccesses p s acc).1 = (answers p s acc).1 ∧ ∀ c, (genAccesses p s acc).2 c = writeTakes (answers p s acc).2 c := by
  induction acc with
  | nil => intro s; exact ⟨rfl, fun c => rfl⟩
  | cons a acc ih =>
    intro s
    cases a with
    | arg x =>
      obtain ⟨h1, h2⟩ := ih (useOwned s x p).1
      refine ⟨by simpa [genAccesses, genAccess, answers] using h1, fun c => ?_⟩
      simp only [genAccesses, genAccess, answers, writeTakes, List.foldr_cons, h2]
      split <;> rfl
    | peek x =>
      obtain ⟨h1, h2⟩ := ih s
      refine ⟨by simpa [genAccesses, genAccess, answers] using h1, fun c => ?_⟩
      simp only [genAccesses, genAccess, answers, writeTakes, List.foldr_cons, h2]
      rfl
    | raw x =>
      obtain ⟨h1, h2⟩ := ih s
      refine ⟨by simpa [genAccesses, genAccess, answers] using h1, fun c => ?_⟩
      simp only [genAccesses, genAccess, answers, writeTakes, List.foldr_cons, h2]
      rfl

/-! ## Running answers -/

theorem live_mark_dead {x y : String} {e : Env} (h : live y (mark x false e) = true) : live y e = true ∧ y ≠ x := by
  induction e with
  | nil => simp [mark, live] at h
  | cons p e ih =>
    obtain ⟨z, b⟩ := p
    simp only [mark] at h
    split at h
    · rename_i hz
      subst hz
      simp only [live] at h
      split at h
      · cases h
      · rename_i hy
        exact ⟨by simp [live, hy, h], fun he => hy he.symm⟩
    · rename_i hz
      simp only [live] at h ⊢
      split at h
      · rename_i hy
        subst hy
        exact ⟨by simp [h], hz⟩
      · rename_i hy
        rw [if_neg hy]
        exact ih h

/-- The environment after one answer. -/
def stepTake (e : Env) (t : Take) : Option Env :=
  if live t.var e then some (match t with
    | .clone _ => e
    | .move x => mark x false e)
  else none

/-- The environment after a list of answers. -/
def runTakes : Env → List Take → Option Env
  | e, [] => some e
  | e, t :: ts => (stepTake e t).bind fun e' => runTakes e' ts

theorem check_writeTake (t : Take) (c : Code) (e : Env) : check (writeTake t c) e = (stepTake e t).bind (check c) := by
  cases t with
  | clone x =>
    simp only [writeTake, check, stepTake, Take.var]
    by_cases h : live x e <;> simp [h]
  | move x =>
    simp only [writeTake, check, stepTake, Take.var]
    by_cases h : live x e <;> simp [h]

theorem check_writeTakes (ts : List Take) : ∀ (c : Code) (e : Env),
    check (writeTakes ts c) e = (runTakes e ts).bind (check c) := by
  induction ts with
  | nil => intro c e; rfl
  | cons t ts ih =>
    intro c e
    show check (writeTake t (writeTakes ts c)) e = _
    rw [check_writeTake, runTakes]
    cases stepTake e t with
    | none => rfl
    | some e' => exact ih c e'

theorem mark_comm {x y : String} (h : x ≠ y) (e : Env) : mark x false (mark y false e) = mark y false (mark x false e) := by
  induction e with
  | nil => rfl
  | cons p e ih =>
    obtain ⟨z, b⟩ := p
    by_cases hx : z = x
    · subst hx; simp [mark, h]
    · by_cases hy : z = y
      · subst hy; simp [mark, hx]
      · simp [mark, hx, hy, ih]

theorem stepTake_comm {t u : Take} (h : t.var ≠ u.var) (e : Env) :
    ((stepTake e t).bind fun e' => stepTake e' u) = (stepTake e u).bind fun e' => stepTake e' t := by
  cases t with
  | clone x =>
    cases u with
    | clone y =>
      by_cases hx : live x e <;> by_cases hy : live y e <;> simp [stepTake, Take.var, hx, hy]
    | move y =>
      have hxy : x ≠ y := h
      by_cases hx : live x e <;> by_cases hy : live y e <;> simp [stepTake, Take.var, hx, hy, live_mark_other e hxy]
  | move x =>
    cases u with
    | clone y =>
      have hyx : y ≠ x := fun he => h he.symm
      by_cases hx : live x e <;> by_cases hy : live y e <;> simp [stepTake, Take.var, hx, hy, live_mark_other e hyx]
    | move y =>
      have hxy : x ≠ y := h
      by_cases hx : live x e <;> by_cases hy : live y e <;>
        simp [stepTake, Take.var, hx, hy, live_mark_other e hxy, live_mark_other e hxy.symm, mark_comm hxy]

theorem runTakes_front {t : Take} (pre post : List Take) : ∀ e : Env, (∀ u ∈ pre, u.var ≠ t.var) →
    runTakes e (pre ++ t :: post) = runTakes e (t :: (pre ++ post)) := by
  induction pre with
  | nil => intro e _; rfl
  | cons u pre ih =>
    intro e h
    have hu := h u List.mem_cons_self
    have hr := fun e => ih e fun w hw => h w (List.mem_cons_of_mem _ hw)
    simp only [List.cons_append, runTakes, hr]
    have hc := stepTake_comm hu e
    calc ((stepTake e u).bind fun e' => (stepTake e' t).bind fun e' => runTakes e' (pre ++ post))
        = (((stepTake e u).bind fun e' => stepTake e' t).bind fun e' => runTakes e' (pre ++ post)) := by
          rw [Option.bind_assoc]
      _ = (((stepTake e t).bind fun e' => stepTake e' u).bind fun e' => runTakes e' (pre ++ post)) := by rw [hc]
      _ = _ := by rw [Option.bind_assoc]

/-- Only the order of answers about the same variable matters. -/
theorem runTakes_reorder (l : List Take) : ∀ (l' : List Take) (e : Env),
    (∀ x, l.filter (fun t => t.var == x) = l'.filter fun t => t.var == x) → runTakes e l = runTakes e l' := by
  induction l with
  | nil =>
    intro l' e h
    cases l' with
    | nil => rfl
    | cons t l' => simpa using h t.var
  | cons t l ih =>
    intro l' e h
    have ht := (h t.var).symm
    rw [List.filter_cons_of_pos (by simp)] at ht
    obtain ⟨pre, post, rfl, hpre, -, hpost⟩ := List.filter_eq_cons_iff.1 ht
    rw [runTakes_front pre post e fun u hu => by simpa using hpre u hu]
    simp only [runTakes]
    congr 1
    funext e'
    refine ih _ _ fun x => ?_
    have hx := h x
    by_cases hxt : t.var = x
    · subst hxt
      have hn : pre.filter (fun u => u.var == t.var) = [] := List.filter_eq_nil_iff.2 fun u hu => hpre u hu
      rw [List.filter_append, hn, List.nil_append, hpost]
    · rw [List.filter_cons_of_neg (by simpa using hxt), List.filter_append, List.filter_cons_of_neg (by simpa using hxt)] at hx
      rw [hx, List.filter_append]

/-! ## Blocks -/

/-- The answers as the block writes them. -/
def written (ts : List Take) (text : List Item) : List Take := (mentioned text).filterMap (ts[·]?)

theorem filterMap_range {A : Type} (l : List A) : (List.range l.length).filterMap (l[·]?) = l := by
  induction l with
  | nil => rfl
  | cons a l ih =>
    rw [List.length_cons, List.range_succ_eq_map, List.filterMap_cons_some (b := a) (by simp), List.filterMap_map]
    congr 1

theorem written_filter {ts : List Take} {text : List Item} (h : WritesInOrder (ts.map Take.var) text) (x : String) :
    ts.filter (fun t => t.var == x) = (written ts text).filter fun t => t.var == x := by
  obtain ⟨hp, ho⟩ := h
  rw [List.length_map] at hp
  have key : ∀ o : List Nat, (o.filterMap (ts[·]?)).filter (fun t => t.var == x) =
      (o.filter fun i => (ts[i]?).any fun t => t.var == x).filterMap (ts[·]?) := by
    intro o
    induction o with
    | nil => rfl
    | cons i o ih =>
      cases hi : ts[i]? with
      | none =>
        rw [List.filterMap_cons_none hi, List.filter_cons_of_neg (by simp [hi]), ih]
      | some t =>
        rw [List.filterMap_cons_some hi]
        by_cases hx : t.var = x
        · rw [List.filter_cons_of_pos (by simpa using hx), List.filter_cons_of_pos (by simpa [hi] using hx),
            List.filterMap_cons_some hi, ih]
        · rw [List.filter_cons_of_neg (by simpa using hx), List.filter_cons_of_neg (by simpa [hi] using hx), ih]
  unfold written
  rw [key]
  conv => lhs; rw [← filterMap_range ts]
  rw [key]
  congr 1
  have hlt : (List.range ts.length).Pairwise (· < ·) := List.pairwise_lt_range
  refine List.Perm.eq_of_pairwise (le := (· < ·)) (fun a b _ _ h1 h2 => by omega) (hlt.filter _) ?_ (hp.symm.filter _)
  refine List.Pairwise.imp_of_mem ?_ (ho.filter _)
  intro i j hi hj hij
  have hname : ∀ {i : Nat}, i ∈ (mentioned text).filter (fun i => (ts[i]?).any fun t => t.var == x) →
      (ts.map Take.var)[i]? = some x := by
    intro i hi
    have := (List.mem_filter.1 hi).2
    cases ht : ts[i]? with
    | none => simp [ht] at this
    | some t =>
      simp only [ht, Option.any_some, beq_iff_eq] at this
      simp [List.getElem?_map, ht, this]
  exact hij ((hname hi).trans (hname hj).symm)

/-- The same with the places where an operand is only looked at. -/
def writtenAll (ts : List Take) (text : List Item) : List Take :=
  text.filterMap fun i => match i with
    | .mention k => ts[k]?
    | .look k => (ts[k]?).map fun t => .clone t.var
    | _ => none

theorem stepTake_dead {e e' : Env} {t : Take} {x : String} (h : stepTake e t = some e') (hx : live x e = false) :
    live x e' = false := by
  unfold stepTake at h
  split at h
  · cases t with
    | clone y => rw [← Option.some.inj h]; exact hx
    | move y =>
      rw [← Option.some.inj h]
      by_cases hy : x = y
      · subst hy
        cases hl : live x (mark x false e) with
        | false => rfl
        | true => exact absurd rfl (live_mark_dead hl).2
      · show live x (mark y false e) = false
        rw [live_mark_other e hy]; exact hx
  · cases h

theorem runTakes_dead (ts : List Take) : ∀ {e : Env} {t : Take}, t ∈ ts → live t.var e = false → runTakes e ts = none := by
  induction ts with
  | nil => intro e t h; cases h
  | cons u ts ih =>
    intro e t h hx
    simp only [runTakes]
    cases hs : stepTake e u with
    | none => rfl
    | some e' =>
      rcases List.mem_cons.1 h with rfl | h
      · simp [stepTake, hx] at hs
      · exact ih h (stepTake_dead hs hx)

theorem runTakes_looks {ts : List Take} (text : List Item) : ∀ e : Env, LooksFirst text →
    runTakes e (writtenAll ts text) = runTakes e (written ts text) := by
  induction text with
  | nil => intro e _; rfl
  | cons i is ih =>
    intro e h
    cases i with
    | mention k =>
      have ih := fun e => ih e h
      cases hk : ts[k]? with
      | none =>
        have h1 : writtenAll ts (.mention k :: is) = writtenAll ts is := by simp [writtenAll, hk]
        have h2 : written ts (.mention k :: is) = written ts is := by simp [written, mentioned, hk]
        rw [h1, h2, ih]
      | some t =>
        have h1 : writtenAll ts (.mention k :: is) = t :: writtenAll ts is := by simp [writtenAll, hk]
        have h2 : written ts (.mention k :: is) = t :: written ts is := by simp [written, mentioned, hk]
        rw [h1, h2]
        simp only [runTakes, ih]
    | look k =>
      obtain ⟨hm, h⟩ := h
      have h2 : written ts (.look k :: is) = written ts is := by simp [written, mentioned]
      rw [h2]
      cases hk : ts[k]? with
      | none =>
        have h1 : writtenAll ts (.look k :: is) = writtenAll ts is := by simp [writtenAll, hk]
        rw [h1, ih e h]
      | some t =>
        have h1 : writtenAll ts (.look k :: is) = .clone t.var :: writtenAll ts is := by simp [writtenAll, hk]
        rw [h1]
        simp only [runTakes]
        cases hl : live t.var e with
        | true =>
          have : stepTake e (.clone t.var) = some e := by
            have hl' : live (Take.clone t.var).var e = true := hl
            simp [stepTake, hl']
          rw [this]
          exact ih e h
        | false =>
          have : stepTake e (.clone t.var) = none := by
            have hl' : live (Take.clone t.var).var e = false := hl
            simp [stepTake, hl']
          rw [this]
          refine (runTakes_dead _ (t := t) ?_ hl).symm
          exact List.mem_filterMap.2 ⟨k, hm, hk⟩
    | declare x =>
      have h1 : writtenAll ts (.declare x :: is) = writtenAll ts is := by simp [writtenAll]
      have h2 : written ts (.declare x :: is) = written ts is := by simp [written, mentioned]
      rw [h1, h2, ih e h]
    | take x =>
      have h1 : writtenAll ts (.take x :: is) = writtenAll ts is := by simp [writtenAll]
      have h2 : written ts (.take x :: is) = written ts is := by simp [written, mentioned]
      rw [h1, h2, ih e h]
    | read x =>
      have h1 : writtenAll ts (.read x :: is) = writtenAll ts is := by simp [writtenAll]
      have h2 : written ts (.read x :: is) = written ts is := by simp [written, mentioned]
      rw [h1, h2, ih e h]

theorem live_in_left {x : String} {l e : Env} (h : live x l = true) :
    live x (l ++ e) = true ∧ ∀ b, mark x b (l ++ e) = mark x b l ++ e := by
  induction l with
  | nil => simp [live] at h
  | cons p l ih =>
    obtain ⟨z, b⟩ := p
    simp only [live] at h
    by_cases hz : z = x
    · rw [if_pos hz] at h
      refine ⟨by simp [live, hz, h], fun b' => by simp [mark, hz]⟩
    · rw [if_neg hz] at h
      obtain ⟨h1, h2⟩ := ih h
      exact ⟨by simp [live, hz, h1], fun b' => by simp [mark, hz, h2]⟩

theorem live_in_right {x : String} {l e : Env} (h : x ∉ l.map Prod.fst) :
    live x (l ++ e) = live x e ∧ ∀ b, mark x b (l ++ e) = l ++ mark x b e := by
  induction l with
  | nil => exact ⟨rfl, fun _ => rfl⟩
  | cons p l ih =>
    obtain ⟨z, b⟩ := p
    simp only [List.map_cons, List.mem_cons, not_or] at h
    obtain ⟨h1, h2⟩ := ih h.2
    have hz : z ≠ x := fun he => h.1 he.symm
    exact ⟨by simp [live, hz, h1], fun b' => by simp [mark, hz, h2]⟩

theorem mark_names (x : String) (b : Bool) (l : Env) : (mark x b l).map Prod.fst = l.map Prod.fst := by
  induction l with
  | nil => rfl
  | cons p l ih =>
    obtain ⟨z, c⟩ := p
    by_cases hz : z = x <;> simp [mark, hz, ih]

theorem stepTake_length {e e' : Env} {t : Take} (h : stepTake e t = some e') : e'.length = e.length := by
  unfold stepTake at h
  split at h
  · cases t with
    | clone x => rw [← Option.some.inj h]
    | move x =>
      rw [← Option.some.inj h]
      have := congrArg List.length (mark_names x false e)
      simpa using this
  · cases h

theorem runTakes_length (ts : List Take) : ∀ {e e' : Env}, runTakes e ts = some e' → e'.length = e.length := by
  induction ts with
  | nil => intro e e' h; rw [← Option.some.inj h]
  | cons t ts ih =>
    intro e e' h
    simp only [runTakes] at h
    cases hs : stepTake e t with
    | none => simp [hs] at h
    | some e1 =>
      simp only [hs, Option.bind_some] at h
      rw [ih h, stepTake_length hs]

theorem check_items {ts : List Take} (text : List Item) : ∀ {loc loc' e : Env},
    Hygienic (ts.map Take.var) text (loc.map Prod.fst) → check (writeItems [] text) loc = some loc' →
    check (writeItems ts text) (loc ++ e) = (runTakes e (writtenAll ts text)).map (loc' ++ ·) := by
  induction text with
  | nil =>
    intro loc loc' e _ h
    rw [show writtenAll ts [] = [] from rfl]
    simp only [writeItems, check] at h ⊢
    rw [← Option.some.inj h]
    rfl
  | cons i is ih =>
    intro loc loc' e hy h
    cases i with
    | mention k =>
      have h' : check (writeItems [] is) loc = some loc' := by simpa [writeItems] using h
      obtain ⟨hk, hy⟩ := hy
      cases ht : ts[k]? with
      | none =>
        have hw : writtenAll ts (.mention k :: is) = writtenAll ts is := by simp [writtenAll, ht]
        simp only [writeItems, ht, hw]
        exact ih hy h'
      | some t =>
        have hw : writtenAll ts (.mention k :: is) = t :: writtenAll ts is := by simp [writtenAll, ht]
        have hx : t.var ∉ loc.map Prod.fst := hk t.var (by simp [List.getElem?_map, ht])
        obtain ⟨l1, l2⟩ := live_in_right (e := e) hx
        simp only [writeItems, ht, hw, runTakes]
        rw [check_writeTake]
        have hstep : stepTake (loc ++ e) t = (stepTake e t).map (loc ++ ·) := by
          unfold stepTake
          rw [l1]
          split
          · cases t with
            | clone x => rfl
            | move x => exact congrArg some (l2 false)
          · rfl
        rw [hstep]
        cases stepTake e t with
        | none => rfl
        | some e1 => exact ih hy h'
    | look k =>
      have h' : check (writeItems [] is) loc = some loc' := by simpa [writeItems] using h
      obtain ⟨hk, hy⟩ := hy
      cases ht : ts[k]? with
      | none =>
        have hw : writtenAll ts (.look k :: is) = writtenAll ts is := by simp [writtenAll, ht]
        simp only [writeItems, ht, hw]
        exact ih hy h'
      | some t =>
        have hw : writtenAll ts (.look k :: is) = .clone t.var :: writtenAll ts is := by simp [writtenAll, ht]
        have hx : t.var ∉ loc.map Prod.fst := hk t.var (by simp [List.getElem?_map, ht])
        obtain ⟨l1, -⟩ := live_in_right (e := e) hx
        have hwr : writeItems ts (.look k :: is) = .clone t.var (writeItems ts is) := by
          cases t <;> simp only [writeItems, ht] <;> rfl
        rw [hwr, hw]
        simp only [check, runTakes, stepTake]
        rw [l1, show (Take.clone t.var).var = t.var from rfl]
        cases hl : live t.var e with
        | true => exact ih hy h'
        | false => rfl
    | declare x =>
      have hw : writtenAll ts (.declare x :: is) = writtenAll ts is := by simp [writtenAll]
      rw [hw]
      simp only [writeItems, check] at h ⊢
      exact ih (loc := (x, true) :: loc) hy h
    | take x =>
      have hw : writtenAll ts (.take x :: is) = writtenAll ts is := by simp [writtenAll]
      rw [hw]
      simp only [writeItems, check] at h ⊢
      split at h
      · rename_i hl
        obtain ⟨l1, l2⟩ := live_in_left (e := e) hl
        rw [if_pos l1, l2]
        exact ih (by rw [mark_names]; exact hy) h
      · cases h
    | read x =>
      have hw : writtenAll ts (.read x :: is) = writtenAll ts is := by simp [writtenAll]
      rw [hw]
      simp only [writeItems, check] at h ⊢
      split at h
      · rename_i hl
        rw [if_pos (live_in_left (e := e) hl).1]
        exact ih hy h
      · cases h

theorem check_block {ts : List Take} {text : List Item} {names : List String} (hn : ts.map Take.var = names)
    (ho : WritesInOrder names text) (hf : LooksFirst text) (hy : Hygienic names text []) (hl : LocalsOk text) (c : Code)
    (e : Env) : check (.block (writeItems ts text) c) e = check (writeTakes ts c) e := by
  subst hn
  obtain ⟨loc', hl⟩ := Option.isSome_iff_exists.1 hl
  have h := check_items text (loc := []) (e := e) hy hl
  rw [List.nil_append] at h
  simp only [check, h, check_writeTakes]
  rw [runTakes_looks text e hf]
  rw [runTakes_reorder ts (written ts text) e (written_filter ho)]
  cases hr : runTakes e (written ts text) with
  | none => rfl
  | some e' =>
    have hlen := runTakes_length _ hr
    simp only [Option.map_some, Option.bind_some]
    unfold leave
    rw [List.length_append, hlen, Nat.add_sub_cancel, List.drop_left]

theorem check_written (text : Nat → List Item) (p : Prog) : ∀ {seen : List String}, WellFormed p seen →
    ∀ {pos : Nat} {s : Scope} {d : Code} {e : Env}, TextsOk text p pos →
    check (genWritten text p pos s ++ d) e = check ((genProg p pos s).2 ++ d) e := by
  induction p with
  | done => intro seen _ pos s d e _; rfl
  | op ins outs acc r ih =>
    intro seen hw pos s d e ht
    obtain ⟨t1, t5, t2, t3, t4⟩ := ht
    obtain ⟨-, -, -, -, -, hw⟩ := hw
    obtain ⟨g1, g2⟩ := genAccesses_answers pos acc s
    simp only [genWritten, genProg]
    rw [accesses_append, g2]
    show check (.block _ (binds outs _ ++ d)) e = _
    rw [check_block (answers_var pos acc s) t1 t5 t2 t3, check_writeTakes, check_writeTakes]
    congr 1
    funext e'
    rw [binds_append, binds_append, check_binds, check_binds, g1]
    exact ih hw t4
  | ite => intro seen hw; cases hw
  | loop => intro seen hw; cases hw

/-- **C23.** For every well-formed graph and every layout of the nodes' blocks that writes the answers about a variable in
the order of the questions, hides no operand behind a local variable and treats its own local variables properly, the borrow
checker accepts the generated `forward`. -/
theorem C23_written_partial (text : Nat → List Item) (g : Graph) (hg : WellFormedGraph g) (ht : TextsOk text g.prog 0) :
    Accepts (forwardWritten text g) := by
  have h := C23_no_use_after_move_partial g hg
  unfold Accepts forward at h
  unfold Accepts forwardWritten
  rw [check_binds] at h ⊢
  rwa [check_written text g.prog hg.prog ht]

/-! ## The texts of the node modules -/

/-- Different operands satisfy every order. -/
theorem writesInOrder_of_nodup {names : List String} {text : List Item} (hn : names.Nodup)
    (hp : (mentioned text).Perm (List.range names.length)) : WritesInOrder names text := by
  refine ⟨hp, ?_⟩
  have hd : (mentioned text).Nodup := hp.nodup_iff.2 List.nodup_range
  refine List.Pairwise.imp_of_mem ?_ hd
  intro i j hi hj hij he
  have hlt := List.mem_range.1 (hp.mem_iff.1 hi)
  have hlj := List.mem_range.1 (hp.mem_iff.1 hj)
  rw [List.getElem?_eq_getElem hlt, List.getElem?_eq_getElem hlj] at he
  exact absurd ((List.getElem_inj hn).1 (Option.some.inj he)) hij

/-- A block whose local variables are none of the operands' names is hygienic. -/
theorem hygienic_of_disjoint {names : List String} (text : List Item) : ∀ {hidden : List String},
    (∀ x ∈ names, x ∉ localNames text ∧ x ∉ hidden) → Hygienic names text hidden := by
  induction text with
  | nil => intro hidden _; trivial
  | cons i is ih =>
    intro hidden h
    cases i with
    | mention k =>
      refine ⟨fun x hx => (h x (List.mem_of_getElem? hx)).2, ih fun x hx => ?_⟩
      simpa [localNames] using h x hx
    | look k =>
      refine ⟨fun x hx => (h x (List.mem_of_getElem? hx)).2, ih fun x hx => ?_⟩
      simpa [localNames] using h x hx
    | declare y =>
      refine ih fun x hx => ?_
      obtain ⟨h1, h2⟩ := h x hx
      simp only [localNames, List.filterMap_cons, List.mem_cons, not_or] at h1 h2 ⊢
      exact ⟨h1.2, h1.1, h2⟩
    | take y =>
      refine ih fun x hx => ?_
      simpa [localNames] using h x hx
    | read y =>
      refine ih fun x hx => ?_
      simpa [localNames] using h x hx

/-- The local variables of the modelled blocks are treated properly. -/
theorem locals_ok : ∀ text ∈ blockTexts, LocalsOk text := by
  unfold LocalsOk Accepts
  decide +kernel

/-- Blocks whose order of writing differs from the order of asking are in order as long as the operands that change places
are different variables: the initial states of LSTM, the condition and Y of Where, B and the zero point of A of
MatMulInteger. -/
theorem C23_reordered_blocks (x h c a b z w : String) (hc : h ≠ c) (ha : a ≠ b) (hz : b ≠ z) :
    WritesInOrder [x, h, c] lstmText ∧ WritesInOrder [a, b, x] whereText ∧ WritesInOrder [a, b, z, w] matMulIntegerText := by
  refine ⟨⟨by simp only [List.length_cons, List.length_nil]; decide, ?_⟩, ⟨by simp only [List.length_cons, List.length_nil]; decide, ?_⟩, ⟨by simp only [List.length_cons, List.length_nil]; decide, ?_⟩⟩ <;>
    simp [mentioned, lstmText, whereText, matMulIntegerText, hc, ha, hz, hc.symm, ha.symm, hz.symm]

theorem looks_first : ∀ text ∈ blockTexts, LooksFirst text := by
  intro text ht
  simp only [blockTexts, List.mem_cons, List.not_mem_nil, or_false] at ht
  rcases ht with rfl | rfl | rfl | rfl | rfl | rfl | rfl | rfl | rfl | rfl | rfl | rfl | rfl | rfl | rfl | rfl | rfl | rfl | rfl | rfl | rfl |
      rfl | rfl | rfl | rfl <;>
    simp [whereShapesText, flattenText, normCastText, reduceCastText, logSumExpText, shapeScalarText, scalarShapeText, equalShapeText, bitShiftText, LooksFirst, mentioned, lstmText, whereText, whereScalarsText, matMulIntegerText, batchNormText, attentionText,
      gatherScalarText, gatherShapeText, depthSpaceText, scatterNDText, scatterElementsText, scatterDiffText, gatherNDText, expandText,
      resizeText, cumSumText]

/-! ### Programs the borrow checker rejects -/

/-- **C23 fails for an LSTM whose initial states are one tensor** (used nowhere later): the generated code is
`LstmState::new(z.squeeze_dim(0), z.clone().squeeze_dim(0))`, which uses `z` after it was moved. -/
theorem C23_lstm_states_wrong :
    WellFormedGraph ⟨["x", "z"], .op ["x", "z", "z"] ["y"] [.arg "x", .arg "z", .arg "z"] .done, ["y"], []⟩ ∧
    ¬ Accepts (forwardWritten (fun _ => lstmText)
      ⟨["x", "z"], .op ["x", "z", "z"] ["y"] [.arg "x", .arg "z", .arg "z"] .done, ["y"], []⟩) := by
  refine ⟨⟨by decide, ⟨by decide, ?_, by simp, by decide, by decide, trivial⟩, by decide, by decide, by decide⟩,
    by unfold Accepts; decide +kernel⟩
  intro x
  exact Nat.le_refl _

/-- The same for `Where(c, x, c)` of booleans: `c.mask_where(c.clone(), x)`. -/
theorem C23_where_condition_wrong :
    WellFormedGraph ⟨["c", "x"], .op ["c", "x", "c"] ["y"] [.arg "c", .arg "c", .arg "x"] .done, ["y"], []⟩ ∧
    ¬ Accepts (forwardWritten (fun _ => whereText)
      ⟨["c", "x"], .op ["c", "x", "c"] ["y"] [.arg "c", .arg "c", .arg "x"] .done, ["y"], []⟩) := by
  refine ⟨⟨by decide, ⟨by decide, ?_, by simp, by decide, by decide, trivial⟩, by decide, by decide, by decide⟩,
    by unfold Accepts; decide +kernel⟩
  intro x
  refine Nat.le_of_eq ?_
  exact (List.Perm.count_eq (l₁ := ["c", "c", "x"]) (l₂ := ["c", "x", "c"]) (by decide) x)

/-- The same for `MatMulInteger(a, b, b, z)`: the zero point of `a` is written before `b`. -/
theorem C23_matmul_integer_wrong :
    WellFormedGraph ⟨["a", "b", "z"], .op ["a", "b", "b", "z"] ["y"] [.arg "a", .arg "b", .arg "b", .arg "z"] .done, ["y"], []⟩ ∧
    ¬ Accepts (forwardWritten (fun _ => matMulIntegerText)
      ⟨["a", "b", "z"], .op ["a", "b", "b", "z"] ["y"] [.arg "a", .arg "b", .arg "b", .arg "z"] .done, ["y"], []⟩) := by
  refine ⟨⟨by decide, ⟨by decide, ?_, by simp, by decide, by decide, trivial⟩, by decide, by decide, by decide⟩,
    by unfold Accepts; decide +kernel⟩
  intro x
  exact Nat.le_refl _

/-- With two tensors as initial states the LSTM satisfies the hypotheses of `C23_written_partial`. -/
example : WellFormedGraph ⟨["x", "h", "c"], .op ["x", "h", "c"] ["y"] [.arg "x", .arg "h", .arg "c"] .done, ["y"], []⟩ ∧
    TextsOk (fun _ => lstmText) (.op ["x", "h", "c"] ["y"] [.arg "x", .arg "h", .arg "c"] .done) 0 := by
  refine ⟨⟨by decide, ⟨by decide, fun x => Nat.le_refl _, by simp, by decide, by decide, trivial⟩, by decide, by decide,
    by decide⟩, (C23_reordered_blocks "x" "h" "c" "a" "b" "z" "w" (by decide) (by decide) (by decide)).1, ?_, ?_, ?_, trivial⟩
  · exact looks_first _ (by simp [blockTexts])
  · exact hygienic_of_disjoint _ (by decide)
  · exact locals_ok _ (by simp [blockTexts])

/-! ## C81: names -/

/-- **C81.** In a hygienic block every operand denotes the variable of the graph. -/
theorem C81_operands_denoted {V : Type} (names : List String) (text : List Item) (e : List (String × V))
    (h : Hygienic names text []) :
    ∀ p ∈ denoted names text (e.map fun b => (b.1, some b.2)), p.2 = (names[p.1]?).bind fun x => e.lookup x := by
  have look : ∀ (x : String) (l : List String), x ∉ l →
      (((l.map fun y => (y, (none : Option V))) ++ e.map fun b => (b.1, some b.2)).lookup x).join = e.lookup x := by
    intro x l hl
    induction l with
    | nil =>
      clear h hl
      induction e with
      | nil => rfl
      | cons b e ih =>
        obtain ⟨y, v⟩ := b
        by_cases hy : x = y
        · subst hy; simp [List.lookup]
        · have hb : (x == y) = false := by simpa using hy
          simpa [List.lookup, hb] using ih
    | cons y l ih =>
      simp only [List.mem_cons, not_or] at hl
      have hb : (x == y) = false := by simpa using hl.1
      simpa [List.lookup, hb] using ih hl.2
  suffices H : ∀ (text : List Item) (l : List String), Hygienic names text l →
      ∀ p ∈ denoted names text ((l.map fun y => (y, (none : Option V))) ++ e.map fun b => (b.1, some b.2)),
        p.2 = (names[p.1]?).bind fun x => e.lookup x from H text [] h
  clear h text
  intro text
  have one : ∀ (k : Nat) (l : List String), (∀ x, names[k]? = some x → x ∉ l) →
      ((names[k]?).bind fun x => (((l.map fun y => (y, (none : Option V))) ++ e.map fun b => (b.1, some b.2)).lookup x).join) =
        (names[k]?).bind fun x => e.lookup x := by
    intro k l hk
    cases hn : names[k]? with
    | none => rfl
    | some x => exact look x l (hk x hn)
  induction text with
  | nil => intro l _ p hp; cases hp
  | cons i is ih =>
    intro l h p hp
    cases i with
    | mention k =>
      rcases List.mem_cons.1 hp with rfl | hp
      · exact one k l h.1
      · exact ih l h.2 p hp
    | look k =>
      rcases List.mem_cons.1 hp with rfl | hp
      · exact one k l h.1
      · exact ih l h.2 p hp
    | declare x => exact ih (x :: l) h p hp
    | take x => exact ih l h p hp
    | read x => exact ih l h p hp

/-- A name given by the importer to the output of a node does not end like a local variable. -/
theorem outName_last (s : String) (k : Nat) : ∃ c, (outName s k).toList.getLast? = some c ∧ c.isDigit = true := by
  have hr : (toString k).toList = Nat.toDigits 10 k := by
    show (Nat.repr k).toList = _
    exact Nat.toList_repr
  have hne : (toString k).toList ≠ [] := by rw [hr]; exact Nat.toDigits_ne_nil
  refine ⟨(toString k).toList.getLast hne, ?_, ?_⟩
  · simp only [outName, String.toList_append]
    rw [List.getLast?_append, List.getLast?_eq_some_getLast hne]
    rfl
  · have hm := List.getLast_mem hne
    exact Nat.isDigit_of_mem_toDigits (b := 10) (n := k) (by decide) (by decide) (hr ▸ hm)

/-- **C81.** Values made by nodes are named by the importer; no block hides such an operand, whichever names the model's
nodes had. -/
theorem C81_node_outputs (text : List Item) (ht : text ∈ blockTexts) (names : List String)
    (hn : ∀ x ∈ names, ∃ s k, x = outName s k) : Hygienic names text [] := by
  refine hygienic_of_disjoint text fun x hx => ⟨fun hm => ?_, by simp⟩
  obtain ⟨s, k, rfl⟩ := hn x hx
  obtain ⟨c, hc, hd⟩ := outName_last s k
  have all : ∀ text ∈ blockTexts, ∀ x ∈ localNames text, (x.toList.getLast?).all (fun c => !c.isDigit) = true := by
    decide +kernel
  have := all text ht _ hm
  rw [hc] at this
  simp [hd] at this

/-- **C81.** Graph inputs keep their names (made fit for Rust); the blocks denote the right operands as long as no graph input
is called like a local variable of a block it is used in. -/
theorem C81_graph_inputs_partial (text : List Item) (ht : text ∈ blockTexts) (names : List String)
    (hn : ∀ x ∈ names, (∃ s k, x = outName s k) ∨ x ∉ localNames text) : Hygienic names text [] := by
  refine hygienic_of_disjoint text fun x hx => ⟨fun hm => ?_, by simp⟩
  rcases hn x hx with h | h
  · have hh := C81_node_outputs text ht [x] (by simpa using h)
    obtain ⟨s, k, rfl⟩ := h
    obtain ⟨c, hc, hd⟩ := outName_last s k
    have all : ∀ text ∈ blockTexts, ∀ x ∈ localNames text, (x.toList.getLast?).all (fun c => !c.isDigit) = true := by
      decide +kernel
    have := all text ht _ hm
    rw [hc] at this
    simp [hd] at this
  · exact h hm

/-- **C81 fails for graph inputs called like local variables.** Updates called `k` of a ScatterND are taken for the length of
the index tuples; data called `indices` of a Gather for the index; data called `c` of a DepthToSpace for the number of
channels. -/
theorem C81_graph_inputs_wrong :
    ((2 : Nat), (none : Option Nat)) ∈ denoted ["cache", "pos", "k"] scatterNDText [("cache", some 0), ("pos", some 1), ("k", some 2)] ∧
    ((0 : Nat), (none : Option Nat)) ∈ denoted ["indices", "i"] gatherScalarText [("indices", some 0), ("i", some 1)] ∧
    ((0 : Nat), (none : Option Nat)) ∈ denoted ["c"] depthSpaceText [("c", some 0)] := by
  decide +kernel

/-- What the graph's variables are bound to after some nodes, the last ones first. -/
def graphEnv {V : Type} : List (Stmt V) → List (String × V) → List (String × V)
  | [], e => e
  | b :: bs, e => graphEnv bs (b.results ++ e)

theorem mem_declared (x : String) (text : List Item) : x ∈ declared text ↔ x ∈ localNames text := by
  induction text with
  | nil => simp [declared, localNames]
  | cons i is ih =>
    cases i <;> simp only [declared, localNames, List.filterMap_cons, List.mem_append, List.mem_cons, List.not_mem_nil, or_false] at ih ⊢
    all_goals first | exact ih | (rw [ih]; exact or_comm)

/-- The mentions of a hygienic text in any surroundings that agree with the graph on the operands. -/
theorem denoted_agree {V : Type} {names : List String} {e : List (String × V)} : ∀ (text : List Item) (E : List (String × Option V))
    (hidden : List String), (∀ x ∈ names, x ∉ hidden → (E.lookup x).join = e.lookup x) → Hygienic names text hidden →
    ∀ p ∈ denoted names text E, p.2 = (names[p.1]?).bind fun x => e.lookup x := by
  intro text
  induction text with
  | nil => intro E hidden _ _ p hp; cases hp
  | cons i is ih =>
    intro E hidden hE h p hp
    have one : ∀ k : Nat, (∀ x, names[k]? = some x → x ∉ hidden) →
        ((names[k]?).bind fun x => (E.lookup x).join) = (names[k]?).bind fun x => e.lookup x := by
      intro k hk
      cases hn : names[k]? with
      | none => rfl
      | some x => exact hE x (List.mem_of_getElem? hn) (hk x hn)
    cases i with
    | mention k =>
      rcases List.mem_cons.1 hp with rfl | hp
      · exact one k h.1
      · exact ih E hidden hE h.2 p hp
    | look k =>
      rcases List.mem_cons.1 hp with rfl | hp
      · exact one k h.1
      · exact ih E hidden hE h.2 p hp
    | declare x =>
      refine ih ((x, none) :: E) (x :: hidden) (fun y hy hn => ?_) h p hp
      simp only [List.mem_cons, not_or] at hn
      have : (y == x) = false := by simpa using hn.1
      simp only [List.lookup_cons, this]
      exact hE y hy hn.2
    | take x => exact ih E hidden hE h p hp
    | read x => exact ih E hidden hE h p hp

theorem lookup_none_append {V : Type} {x : String} (l : List String) (hx : x ∉ l) (E : List (String × Option V)) :
    (l.map (fun y => (y, (none : Option V))) ++ E).lookup x = E.lookup x := by
  induction l with
  | nil => rfl
  | cons y l ih =>
    simp only [List.mem_cons, not_or] at hx
    have : (x == y) = false := by simpa using hx.1
    simp only [List.map_cons, List.cons_append, List.lookup_cons, this]
    exact ih hx.2

theorem lookup_results {V : Type} {x : String} (rs : List (String × V)) {E : List (String × Option V)} {e : List (String × V)}
    (h : (E.lookup x).join = e.lookup x) :
    ((rs.map (fun r => (r.1, some r.2)) ++ E).lookup x).join = (rs ++ e).lookup x := by
  induction rs with
  | nil => exact h
  | cons r rs ih =>
    obtain ⟨y, v⟩ := r
    simp only [List.map_cons, List.cons_append, List.lookup_cons]
    cases x == y
    · exact ih
    · rfl

/-- **C81.** In the whole body of `forward`: every operand of every node denotes the value the graph means, the one bound last
to its name, if no node's text hides an operand of that node and no operand is called like a local variable that an earlier
node leaves in the body. -/
theorem C81_body_partial {V : Type} (pre : List (Stmt V)) (b : Stmt V) (post : List (Stmt V)) (e : List (String × V))
    (hh : Hygienic b.names b.text [])
    (hleft : ∀ c ∈ pre, c.braces = false → ∀ x ∈ b.names, x ∉ localNames c.text) :
    ∃ ds, (denotedStmts (pre ++ b :: post) (e.map fun r => (r.1, some r.2)))[pre.length]? = some ds ∧
      ∀ p ∈ ds, p.2 = (b.names[p.1]?).bind fun x => (graphEnv pre e).lookup x := by
  have main : ∀ (pre : List (Stmt V)) (E : List (String × Option V)) (e : List (String × V)),
      (∀ c ∈ pre, c.braces = false → ∀ x ∈ b.names, x ∉ localNames c.text) →
      (∀ x ∈ b.names, (E.lookup x).join = e.lookup x) →
      ∃ ds, (denotedStmts (pre ++ b :: post) E)[pre.length]? = some ds ∧
        ∀ p ∈ ds, p.2 = (b.names[p.1]?).bind fun x => (graphEnv pre e).lookup x := by
    intro pre
    induction pre with
    | nil =>
      intro E e _ hE
      exact ⟨_, rfl, denoted_agree b.text E [] (fun x hx _ => hE x hx) hh⟩
    | cons c cs ih =>
      intro E e hl hE
      refine ih (c.after E) (c.results ++ e) (fun d hd => hl d (List.mem_cons_of_mem _ hd)) fun x hx => ?_
      refine lookup_results _ ?_
      by_cases hb : c.braces = true
      · rw [if_pos hb]
        exact hE x hx
      · rw [if_neg hb, lookup_none_append _ (fun hm => hl c List.mem_cons_self (by simpa using hb) x hx ((mem_declared x c.text).1 hm))]
        exact hE x hx
  refine main pre _ e hleft fun x _ => ?_
  exact lookup_results e (E := []) (e := []) rfl |> fun h => by simpa using h

/-- **C81.** Values made by nodes are never hidden, neither in a block nor by variables left in the body. -/
theorem C81_body_node_outputs (text : List Item) (ht : text ∈ blockTexts ++ openTexts) (x : String) (s : String) (k : Nat)
    (hx : x = outName s k) : x ∉ localNames text := by
  intro hm
  obtain ⟨c, hc, hd⟩ := outName_last s k
  have all : ∀ text ∈ blockTexts ++ openTexts, ∀ x ∈ localNames text, (x.toList.getLast?).all (fun c => !c.isDigit) = true := by
    decide +kernel
  have := all text ht _ hm
  rw [hx, hc] at this
  simp [hd] at this

/-- **C81 fails for graph inputs called like a variable left in the body.** A graph input `sizes` that is used after a Split into
equal parts denotes the list of sizes of that Split, although the Split itself does not use it. -/
theorem C81_left_variable_wrong :
    denotedStmts (V := Nat) [⟨["x"], splitEvenText, false, [("split1_out1", 10), ("split1_out2", 11)]⟩,
        ⟨["sizes"], [.mention 0], true, [("relu1_out1", 12)]⟩] [("x", some 0), ("sizes", some 1)] =
      [[(0, some 0), (0, some 0)], [(0, none)]] ∧
    (∃ text ∈ openTexts, "shape_data" ∈ localNames text) ∧ ∃ text ∈ openTexts, "start_vec" ∈ localNames text := by
  decide +kernel

/-- **C81 fails for a reshaped graph input called like a variable of the Reshape.** With a target computed at run time, the code
for a graph input `shape_data` reshapes the list of sizes instead of the input; under another name it reshapes the input. -/
theorem C81_reshape_input_wrong :
    denotedStmts (V := Nat) [⟨["shape_data", "t"], reshapeTensorText, false, [("reshape1_out1", 10)]⟩]
        [("shape_data", some 0), ("t", some 1)] = [[(1, some 1), (0, none)]] ∧
      denotedStmts (V := Nat) [⟨["x", "t"], reshapeTensorText, false, [("reshape1_out1", 10)]⟩]
        [("x", some 0), ("t", some 1)] = [[(1, some 1), (0, some 0)]] ∧
      denotedStmts (V := Nat) [⟨["end_vec", "s", "t"], sliceTensorText, false, [("slice1_out1", 10)]⟩]
        [("end_vec", some 0), ("s", some 1), ("t", some 2)] = [[(1, some 1), (2, some 2), (0, none)]] := by
  decide +kernel

/-- The hypotheses are met: a Split into equal parts, then an addition of one part and the input of the graph. -/
example : ∃ ds, (denotedStmts (V := Nat) ([⟨["x"], splitEvenText, false, [("split1_out1", 10), ("split1_out2", 11)]⟩] ++
      ⟨["split1_out2", "x"], plainItems 2, true, [("add1_out1", 12)]⟩ :: []) [("x", some 0)])[1]? = some ds ∧
    ds = [(0, some 11), (1, some 0)] := by
  decide +kernel

/-- A self-attention on a graph input called `q` (used nowhere later) does not compile: `let q = q.clone(); let k = q.clone();
let v = q;` takes the local variable. Under the name `x` it compiles. -/
theorem C81_attention_wrong :
    ¬ Accepts (forwardWritten (fun _ => attentionText)
      ⟨["q"], .op ["q", "q", "q"] ["y"] [.arg "q", .arg "q", .arg "q"] .done, ["y"], []⟩) ∧
    Accepts (forwardWritten (fun _ => attentionText)
      ⟨["x"], .op ["x", "x", "x"] ["y"] [.arg "x", .arg "x", .arg "x"] .done, ["y"], []⟩) := by
  unfold Accepts
  constructor <;> decide +kernel

/-- The updates of a ScatterND made by a node are denoted properly. -/
example : Hygienic [outName "concat1" 1, outName "cast2" 1, outName "matmul3" 1] scatterNDText [] :=
  C81_node_outputs _ (by simp [blockTexts]) _ (by
    intro x hx
    simp only [List.mem_cons, List.not_mem_nil, or_false] at hx
    rcases hx with rfl | rfl | rfl <;> exact ⟨_, _, rfl⟩)

end OnnxIR
