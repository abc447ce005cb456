import Verif.Props.Loop

/-!
# C26: the generated `while` computes the ONNX Loop (main theorems)
-/

namespace OnnxIR

open Rust Onnx Gen

variable {V : Type}

/-- The variables hold iteration number `i`, condition `c`, carried values `vs` and the scan values
of the iterations done; every other variable is as it was before the loop. -/
structure LoopState (lv : LoopVals V) (n : LoopNode V) (e0 e : Store V) (i : Int) (c : Bool)
    (vs : List V) (rows : List (List V)) : Prop where
  iter : getVal e n.body.iter = some (lv.ofInt i)
  cond : getVal e n.body.cond = some (lv.ofBool c)
  vars : values (getVal e) n.body.vars = some vs
  cols : ∀ (k : Nat) x, (collectors n)[k]? = some x → look e x = some (.vec (column rows k))
  outer : ∀ x, x ∉ stateNames n → look e x = look e0 x

theorem define_mem_congr {env env' : String → Option V} {x : String} {xs : List String} {us : List V}
    (hl : us.length = xs.length) (h : x ∈ xs) : define env xs us x = define env' xs us x := by
  induction xs generalizing us with
  | nil => exact absurd h (by simp)
  | cons y ys ih =>
    cases us with
    | nil => simp at hl
    | cons u us =>
      show (if x = y then _ else _) = if x = y then _ else _
      by_cases hxy : x = y
      · rw [if_pos hxy, if_pos hxy]
      · rw [if_neg hxy, if_neg hxy]
        exact ih (by simpa using hl) ((List.mem_cons.1 h).resolve_left hxy)

theorem look_append_mem {L b : Store V} {x : String} (h : x ∈ L.map Prod.fst) :
    look (L ++ b) x = look L x := by
  induction L with
  | nil => exact absurd h (by simp)
  | cons p L ih =>
    obtain ⟨y, v⟩ := p
    by_cases hy : y = x
    · simp [look, hy]
    · simp only [List.map_cons, List.mem_cons] at h
      simp only [List.cons_append, look, if_neg hy]
      exact ih (h.resolve_left fun h => hy h.symm)

theorem column_append (rows : List (List V)) (sc : List V) (k : Nat) :
    column (rows ++ [sc]) k = column rows k ++ (sc[k]?).toList := by
  simp only [column, List.filterMap_append]
  cases h : sc[k]? <;> simp [h]

theorem run_newVecs (cs : List String) (e : Store V) :
    ∃ l : Store V, run (cs.map Stmt.newVec) e = some (l ++ e) ∧ (∀ x ∈ l.map Prod.fst, x ∈ cs) ∧
      ∀ x ∈ cs, look (l ++ e) x = some (.vec []) := by
  induction cs generalizing e with
  | nil => exact ⟨[], rfl, by simp, by simp⟩
  | cons c cs ih =>
    obtain ⟨l, hr, hk, hg⟩ := ih ((c, .vec []) :: e)
    refine ⟨l ++ [(c, .vec [])], ?_, ?_, ?_⟩
    · simpa [run] using hr
    · intro x hx
      simp only [List.map_append, List.map_cons, List.map_nil, List.mem_append, List.mem_singleton] at hx
      rcases hx with hx | hx
      · exact List.mem_cons_of_mem _ (hk x hx)
      · rw [hx]; exact List.mem_cons_self
    · intro x hx
      rw [List.append_assoc, List.singleton_append]
      by_cases hxl : x ∈ l.map Prod.fst
      · exact hg x (hk x hxl)
      · rw [look_append hxl]
        rcases List.mem_cons.1 hx with h | h
        · subst h; simp [look]
        · have := hg x h
          rwa [look_append hxl] at this

theorem getVal_of_look {e e' : Store V} {x : String} (h : look e x = look e' x) : getVal e x = getVal e' x := by
  unfold getVal; rw [h]

/-- The condition before the first iteration. -/
def InitialCond (lv : LoopVals V) (n : LoopNode V) (e0 : Store V) (c0 : Bool) : Prop :=
  match n.init with
  | none => c0 = true
  | some x => (getVal e0 x).bind lv.toBool = some c0

theorem init_state {lv : LoopVals V} {n : LoopNode V} (hwf : WellFormedLoop n) {e0 : Store V}
    {vs0 : List V} {c0 : Bool} (hinit : values (getVal e0) n.inits = some vs0)
    (hc : InitialCond lv n e0 c0) :
    ∃ e1, run (genInit lv n) e0 = some e1 ∧ LoopState lv n e0 e1 0 c0 vs0 [] := by
  have hnd := hwf.state_nodup
  simp only [stateNames, List.nodup_cons, List.mem_cons, List.mem_append, not_or, List.nodup_append] at hnd
  obtain ⟨⟨hic, hiv, hico⟩, ⟨hcv, hcco⟩, hvnd, hcnd, hdis⟩ := hnd
  have hfst : (n.body.vars.zip n.inits).map Prod.fst = n.body.vars :=
    List.map_fst_zip (by rw [hwf.inits_len]; exact Nat.le_refl _)
  have hsnd : (n.body.vars.zip n.inits).map Prod.snd = n.inits :=
    List.map_snd_zip (by rw [hwf.inits_len]; exact Nat.le_refl _)
  have hvs : ∀ x ∈ n.body.vars, x ∈ stateNames n := fun x hx => by
    simp only [stateNames, List.mem_cons, List.mem_append]; exact Or.inr (Or.inr (Or.inl hx))
  have hcs : ∀ x ∈ collectors n, x ∈ stateNames n := fun x hx => by
    simp only [stateNames, List.mem_cons, List.mem_append]; exact Or.inr (Or.inr (Or.inr hx))
  obtain ⟨l1, hr1, hk1, hg1⟩ := run_captures (e := e0) (cs := n.body.vars.zip n.inits) (ws := vs0)
    (by rw [hfst]; exact hvnd)
    (by
      refine List.Pairwise.imp_of_mem (R := fun _ _ => True) ?_ (List.pairwise_of_forall fun _ _ => trivial)
      intro p q hp hq _ he
      exact hwf.inits_outer _ (List.of_mem_zip hq).2 (he ▸ hvs _ (List.of_mem_zip hp).1))
    (by rw [hsnd]; exact hinit)
  rw [hfst] at hk1 hg1
  obtain ⟨l2, hr2, hk2, hg2⟩ := run_newVecs (collectors n) (l1 ++ e0)
  have hl1 : ∀ x, x ∉ stateNames n → x ∉ l1.map Prod.fst := fun x hx h => hx (hvs x (hk1 x h))
  have hl2 : ∀ x, x ∉ collectors n → x ∉ l2.map Prod.fst := fun x hx h => hx (hk2 x h)
  have hcond : ∃ v, v = lv.ofBool c0 ∧ run [condInit lv n]
      ((n.body.iter, .val (lv.ofInt 0)) :: (l2 ++ (l1 ++ e0))) =
      some ((n.body.cond, .val v) :: (n.body.iter, .val (lv.ofInt 0)) :: (l2 ++ (l1 ++ e0))) := by
    unfold InitialCond at hc
    unfold condInit
    cases hi : n.init with
    | none =>
      rw [hi] at hc
      subst hc
      exact ⟨_, rfl, by simp [run, values]⟩
    | some x =>
      rw [hi] at hc
      dsimp only at hc ⊢
      have hxs := hwf.init_outer x hi
      have hxi : ¬ n.body.iter = x := fun h => hxs (by rw [← h]; simp [stateNames])
      have hgx : getVal ((n.body.iter, .val (lv.ofInt 0)) :: (l2 ++ (l1 ++ e0))) x = getVal e0 x := by
        refine getVal_of_look ?_
        simp only [look, if_neg hxi]
        rw [look_append (hl2 x fun h => hxs (hcs x h)), look_append (hl1 x hxs)]
      cases hv : getVal e0 x with
      | none => rw [hv] at hc; exact absurd hc (by simp)
      | some v =>
        rw [hv] at hc
        refine ⟨_, rfl, ?_⟩
        simp only [Option.bind_some] at hc
        simp [run, values, hgx, hv, nativeCall, toNative, hc]
  obtain ⟨v, hv, hr3⟩ := hcond
  subst hv
  refine ⟨(n.body.cond, .val (lv.ofBool c0)) :: (n.body.iter, .val (lv.ofInt 0)) :: (l2 ++ (l1 ++ e0)),
    ?_, ?_⟩
  · unfold genInit initStmts
    rw [run_append, run_append, hr1, Option.bind_some, hr2, Option.bind_some]
    show run ([iterInit lv n] ++ [condInit lv n]) _ = _
    rw [run_append]
    simpa [run, iterInit, values] using hr3
  · have hout : ∀ x, x ≠ n.body.iter → x ≠ n.body.cond → x ∉ collectors n →
        look ((n.body.cond, .val (lv.ofBool c0)) :: (n.body.iter, .val (lv.ofInt 0)) :: (l2 ++ (l1 ++ e0))) x =
          look (l1 ++ e0) x := by
      intro x h1 h2 h3
      simp only [look, if_neg (fun h : n.body.cond = x => h2 h.symm),
        if_neg (fun h : n.body.iter = x => h1 h.symm)]
      exact look_append (hl2 x h3)
    refine ⟨?_, ?_, ?_, ?_, ?_⟩
    · simp only [getVal, look, if_neg (fun h : n.body.cond = n.body.iter => hic h.symm), if_true]
    · simp only [getVal, look, if_true]
    · have : values (getVal e0) n.inits = some vs0 := hinit
      have hlen : vs0.length = n.body.vars.length := by rw [values_length hinit, hwf.inits_len]
      have h1 : values (define (getVal e0) n.body.vars vs0) n.body.vars = some vs0 := by
        clear hg1 hk1 hfst hsnd hvs hr1 hr2 hg2 hk2 hl1 hl2 hr3 hout hinit this hc hdis hiv hcv
        revert hvnd hlen
        generalize n.body.vars = xs
        generalize getVal e0 = env
        intro hvnd hlen
        induction xs generalizing vs0 with
        | nil =>
          cases vs0 with
          | nil => rfl
          | cons _ _ => simp at hlen
        | cons y ys ih =>
          cases vs0 with
          | nil => simp at hlen
          | cons v vs =>
            rw [List.nodup_cons] at hvnd
            have : values (define env (y :: ys) (v :: vs)) ys = values (define env ys vs) ys :=
              values_congr fun x hx => by
                show (if x = y then _ else _) = _
                rw [if_neg (fun h : x = y => hvnd.1 (by rw [← h]; exact hx))]
            simp only [values, this, ih hvnd.2 (by simpa using hlen)]
            simp [define]
      rw [← h1]
      refine values_congr fun x hx => ?_
      rw [← hg1 x]
      refine getVal_of_look (hout x (fun h => hiv (h ▸ hx)) (fun h => hcv (h ▸ hx)) fun h => ?_)
      exact hdis x hx x h rfl
    · intro k x hx
      have hm : x ∈ collectors n := List.mem_of_getElem? hx
      simp only [look, if_neg (fun h : n.body.cond = x => hcco (h ▸ hm)),
        if_neg (fun h : n.body.iter = x => hico (h ▸ hm))]
      rw [hg2 x hm]; rfl
    · intro x hx
      have hx' := hx
      simp only [stateNames, List.mem_cons, List.mem_append, not_or] at hx'
      rw [hout x hx'.1 hx'.2.1 hx'.2.2.2, look_append (hl1 x hx)]

theorem step_state {lv : LoopVals V} {n : LoopNode V} (hwf : WellFormedLoop n) (hnc : NoClobber n)
    {e0 e : Store V} {ws : List V} (hcap : values (getVal e0) (n.captures.map Prod.snd) = some ws)
    {i : Int} {c : Bool} {vs : List V} {rows : List (List V)} (hs : LoopState lv n e0 e i c vs rows) :
    match bodyStep lv n.body (define (fun _ => none) (n.captures.map Prod.fst) ws) i c vs with
    | none => run (genBody lv n) e = none
    | some (c', vs', sc) => ∃ e1, run (genBody lv n) e = some e1 ∧
        sc.length = n.body.scanOuts.length ∧
        LoopState lv n e0 (e1.drop (e1.length - e.length)) (i + 1) c' vs' (rows ++ [sc]) := by
  have hnd := hwf.state_nodup
  simp only [stateNames, List.nodup_cons, List.mem_cons, List.mem_append, not_or, List.nodup_append] at hnd
  obtain ⟨⟨hic, hiv, hico⟩, ⟨hcv, hcco⟩, hvnd, hcnd, hdis⟩ := hnd
  have hvst : ∀ x ∈ n.body.vars, x ∈ stateNames n := fun x hx => by
    simp only [stateNames, List.mem_cons, List.mem_append]; exact Or.inr (Or.inr (Or.inl hx))
  have hcst : ∀ x ∈ collectors n, x ∈ stateNames n := fun x hx => by
    simp only [stateNames, List.mem_cons, List.mem_append]; exact Or.inr (Or.inr (Or.inr hx))
  have hist : n.body.iter ∈ stateNames n := by simp [stateNames]
  have hcst' : n.body.cond ∈ stateNames n := by simp [stateNames]
  -- captured values
  have hcap' : values (getVal e) (n.captures.map Prod.snd) = some ws := by
    rw [← hcap]
    refine values_congr fun x hx => ?_
    obtain ⟨p, hp, rfl⟩ := List.mem_map.1 hx
    exact getVal_of_look (hs.outer _ (hwf.captures_outer p hp))
  obtain ⟨l1, hr1, hk1, hg1⟩ := run_captures hwf.captures_nodup hwf.captures_order hcap'
  have hwlen : ws.length = (n.captures.map Prod.fst).length := by
    rw [values_length hcap]; simp
  have hinl : ∀ x ∈ n.captures.map Prod.fst, x ∉ stateNames n := by
    intro x hx
    obtain ⟨p, hp, rfl⟩ := List.mem_map.1 hx
    exact hwf.captures_local p hp
  have hst : values (getVal e) (n.body.iter :: n.body.cond :: n.body.vars) =
      some (lv.ofInt i :: lv.ofBool c :: vs) := by
    simp [values, hs.iter, hs.cond, hs.vars]
  have hstl : ∀ x ∈ n.body.iter :: n.body.cond :: n.body.vars, x ∈ stateNames n := by
    intro x hx
    simp only [stateNames, List.mem_cons, List.mem_append] at hx ⊢
    rcases hx with h | h | h
    · exact Or.inl h
    · exact Or.inr (Or.inl h)
    · exact Or.inr (Or.inr (Or.inl h))
  have hag : ∀ x ∈ entryNames n, getVal (l1 ++ e) x =
      define (define (fun _ => none) (n.captures.map Prod.fst) ws)
        (n.body.iter :: n.body.cond :: n.body.vars) (lv.ofInt i :: lv.ofBool c :: vs) x := by
    intro x hx
    rw [hg1 x]
    by_cases hxi : x ∈ n.captures.map Prod.fst
    · rw [define_not_mem (env := define (fun _ => none) (n.captures.map Prod.fst) ws)
        (fun h => hinl x hxi (hstl x h))]
      exact define_mem_congr hwlen hxi
    · rw [define_not_mem hxi]
      have hx' : x ∈ n.body.iter :: n.body.cond :: n.body.vars := by
        simp only [entryNames, List.mem_cons, List.mem_append] at hx ⊢
        rcases hx with h | h | h | h
        · exact Or.inl h
        · exact Or.inr (Or.inl h)
        · exact Or.inr (Or.inr h)
        · exact absurd h hxi
      exact (define_of_values hst hx').symm
  have hdef : ∀ x ∈ entryNames n, (define (define (fun _ => none) (n.captures.map Prod.fst) ws)
        (n.body.iter :: n.body.cond :: n.body.vars) (lv.ofInt i :: lv.ofBool c :: vs) x).isSome := by
    intro x hx
    by_cases hx' : x ∈ n.body.iter :: n.body.cond :: n.body.vars
    · exact define_mem (by simp [values_length hs.vars]) hx'
    · rw [define_not_mem hx']
      have : x ∈ n.captures.map Prod.fst := by
        simp only [entryNames, List.mem_cons, List.mem_append] at hx
        simp only [List.mem_cons, not_or] at hx'
        rcases hx with h | h | h | h
        · exact absurd h hx'.1
        · exact absurd h hx'.2.1
        · exact absurd h hx'.2.2
        · exact h
      exact define_mem hwlen this
  have hcalls := run_calls hwf.closed hag hdef
  unfold bodyStep
  unfold genBody bodyCode
  simp only [run_append, hr1, Option.bind_some]
  cases hev : evalCalls (define (define (fun _ => none) (n.captures.map Prod.fst) ws)
      (n.body.iter :: n.body.cond :: n.body.vars) (lv.ofInt i :: lv.ofBool c :: vs)) n.body.calls with
  | none => rw [hev] at hcalls; dsimp only at hcalls ⊢; rw [hcalls]; rfl
  | some env' =>
  rw [hev] at hcalls
  dsimp only at hcalls ⊢
  obtain ⟨l2, hr2, hk2, hg2⟩ := hcalls
  rw [hr2]
  simp only [Option.bind_some]
  rw [← List.append_assoc] at hg2 ⊢
  have hL : ∀ x ∈ stateNames n, x ∉ (l2 ++ l1).map Prod.fst := by
    intro x hx h
    rw [List.map_append, List.mem_append] at h
    rcases h with h | h
    · exact hwf.calls_local x (hk2 x h) hx
    · exact hinl x (hk1 x h) hx
  generalize l2 ++ l1 = L at hg2 hL ⊢
  -- scan values
  obtain ⟨sc, hsc⟩ := values_total (env := env') (xs := n.body.scanOuts)
    fun x hx => (hg2 x (hwf.scanOuts_closed x hx)).2
  obtain ⟨vs', hvs'⟩ := values_total (env := env') (xs := n.body.varOuts)
    fun x hx => (hg2 x (hwf.varOuts_closed x hx)).2
  have hcolD : ∀ x ∈ callOuts n.body.calls ++ entryNames n, x ∉ collectors n := by
    intro x hx h
    rcases List.mem_append.1 hx with hx | hx
    · exact hwf.calls_local x hx (hcst x h)
    · simp only [entryNames, List.mem_cons, List.mem_append] at hx
      rcases hx with h' | h' | h' | h'
      · exact hico (h' ▸ h)
      · exact hcco (h' ▸ h)
      · exact hdis x h' x h rfl
      · exact hinl x h' (hcst x h)
  have hsc' : values (getVal (L ++ e)) n.body.scanOuts = some sc := by
    rw [← hsc]
    exact values_congr fun x hx => (hg2 x (hwf.scanOuts_closed x hx)).1
  have hcl : (collectors n).length = n.body.scanOuts.length := by simp [collectors]
  obtain ⟨b1, hrp, hbl1, hgp, hop⟩ := run_pushes (l := L) (b := e) (cs := collectors n)
    (ys := n.body.scanOuts) (cols := (List.range (collectors n).length).map fun k => column rows k) (sc := sc)
    hcnd (fun x hx => hL x (hcst x hx))
    (fun x hx h => hcolD x (hwf.scanOuts_closed x h) hx) (by simp) hcl.symm
    (fun k x hx => by
      rw [hs.cols k x hx]
      have : k < (collectors n).length := (List.getElem?_eq_some_iff.1 hx).1
      simp [this])
    hsc'
  have hrp' : run (collectScans n) (L ++ e) = some (L ++ b1) := hrp
  rw [hrp']
  simp only [Option.bind_some]
  have hD1 : ∀ x ∈ callOuts n.body.calls ++ entryNames n, getVal (L ++ b1) x = env' x := by
    intro x hx
    rw [← (hg2 x hx).1]
    by_cases hxL : x ∈ L.map Prod.fst
    · exact getVal_of_look (by rw [look_append_mem hxL, look_append_mem hxL])
    · rw [getVal_append hxL, getVal_append hxL]
      exact getVal_of_look (hop x (hcolD x hx))
  -- updates
  have hvs1 : values (getVal (L ++ b1)) n.body.varOuts = some vs' := by
    rw [← hvs']
    exact values_congr fun x hx => hD1 x (hwf.varOuts_closed x hx)
  obtain ⟨b2, hru, hbl2, hvals, hou⟩ := run_updates (l := L) (b := b1) hvnd
    (fun x hx => hL x (hvst x hx)) hwf.outs_len
    (fun x hx => by
      rw [hop x fun h => hdis x hx x h rfl]
      obtain ⟨w, hw⟩ := Option.isSome_iff_exists.1 (values_mem hs.vars hx)
      exact isSome_of_getVal hw)
    hnc.vars hvs1
  have hru' : run (updateVars n) (L ++ b1) = some (L ++ b2) := hru
  rw [hru']
  simp only [Option.bind_some]
  have hnv : ∀ x, x ∉ n.body.vars → look b2 x = look b1 x := fun x hx =>
    hou x fun p hp he => absurd (he ▸ (List.of_mem_zip hp).1) hx
  have hci : getVal b2 n.body.iter = some (lv.ofInt i) := by
    rw [getVal_of_look (hnv _ hiv), getVal_of_look (hop _ hico)]; exact hs.iter
  have hcc : getVal b2 n.body.cond = some (lv.ofBool c) := by
    rw [getVal_of_look (hnv _ hcv), getVal_of_look (hop _ hcco)]; exact hs.cond
  have hco : getVal (L ++ b2) n.body.condOut = env' n.body.condOut := by
    rw [← hD1 _ hwf.condOut_closed]
    have hlk : look b2 n.body.condOut = look b1 n.body.condOut := hou _ fun p hp he => hnc.cond p hp he
    by_cases hxL : n.body.condOut ∈ L.map Prod.fst
    · exact getVal_of_look (by rw [look_append_mem hxL, look_append_mem hxL])
    · rw [getVal_append hxL, getVal_append hxL]
      exact getVal_of_look hlk
  -- the condition
  have hcond : match (env' n.body.condOut).bind lv.toBool with
      | none => run (updateCond lv n) (L ++ b2) = none
      | some c' => ∃ b3 : Store V, run (updateCond lv n) (L ++ b2) = some (L ++ b3) ∧
          b3.length = b2.length ∧ getVal b3 n.body.cond = some (lv.ofBool c') ∧
          ∀ x, x ≠ n.body.cond → look b3 x = look b2 x := by
    unfold updateCond
    by_cases heq : n.body.cond = n.body.condOut
    · have : env' n.body.condOut = some (lv.ofBool c) := by
        rw [← hco, ← heq, getVal_append (hL _ hcst'), hcc]
      rw [this]
      simp only [Option.bind_some, lv.bool_spec, heq, ne_eq, not_true, if_false]
      exact ⟨b2, rfl, rfl, by rw [← heq]; exact hcc, fun _ _ => rfl⟩
    · rw [if_pos heq]
      simp only [run, hco]
      have hsome : (look b2 n.body.cond).isSome := isSome_of_getVal hcc
      cases hv : env' n.body.condOut with
      | none => rfl
      | some v =>
        simp only [Option.bind_some, toNative]
        cases hb : lv.toBool v with
        | none => rfl
        | some c' =>
          simp only [Option.map_some, look_append (hL _ hcst'), hsome, if_true]
          refine ⟨assign n.body.cond (.val (lv.ofBool c')) b2, by rw [assign_append (hL _ hcst')],
            assign_length _ _ _, ?_, fun x hx => look_assign_ne _ _ hx⟩
          unfold getVal
          rw [look_assign_self _ _ hsome]
  cases hb : (env' n.body.condOut).bind lv.toBool with
  | none =>
    rw [hb] at hcond
    dsimp only at hcond ⊢
    rw [hcond]; rfl
  | some c' =>
  rw [hb] at hcond
  dsimp only at hcond
  obtain ⟨b3, hr3, hbl3, hc3, ho3⟩ := hcond
  rw [hr3, hvs', hsc]
  simp only [Option.bind_some]
  have hi3 : getVal b3 n.body.iter = some (lv.ofInt i) := by rw [getVal_of_look (ho3 _ hic), hci]
  have hi3L : getVal (L ++ b3) n.body.iter = some (lv.ofInt i) := by rw [getVal_append (hL _ hist), hi3]
  have hrI : run [incrIter lv n] (L ++ b3) =
      some (L ++ assign n.body.iter (.val (lv.ofInt (i + 1))) b3) := by
    simp only [incrIter, run, hi3L, Option.bind_some, lv.int_spec, Option.map_some,
      isSome_of_getVal hi3L, if_true, assign_append (hL _ hist)]
  refine ⟨_, hrI, by rw [values_length hsc], ?_⟩
  have hlen : (assign n.body.iter (.val (lv.ofInt (i + 1))) b3).length = e.length := by
    rw [assign_length, hbl3, hbl2, hbl1]
  have hdrop : (L ++ assign n.body.iter (.val (lv.ofInt (i + 1))) b3).drop
      ((L ++ assign n.body.iter (.val (lv.ofInt (i + 1))) b3).length - e.length) =
      assign n.body.iter (.val (lv.ofInt (i + 1))) b3 := by
    rw [List.length_append, hlen, Nat.add_sub_cancel, List.drop_left]
  rw [hdrop]
  refine ⟨?_, ?_, ?_, ?_, ?_⟩
  · unfold getVal
    rw [look_assign_self _ _ (isSome_of_getVal hi3)]
  · rw [getVal_of_look (look_assign_ne _ _ (fun h => hic h.symm)), hc3]
  · rw [← hvals]
    refine values_congr fun x hx => ?_
    rw [getVal_append (hL x (hvst x hx))]
    refine getVal_of_look ?_
    rw [look_assign_ne _ _ (fun h : x = n.body.iter => hiv (h ▸ hx)), ho3 x (fun h => hcv (h ▸ hx))]
  · intro k x hx
    have hm : x ∈ collectors n := List.mem_of_getElem? hx
    have hkl : k < (collectors n).length := (List.getElem?_eq_some_iff.1 hx).1
    rw [look_assign_ne _ _ (fun h : x = n.body.iter => hico (h ▸ hm)), ho3 x (fun h => hcco (h ▸ hm)),
      hnv x (fun h => hdis x h x hm rfl), hgp k x hx, column_append]
    have hks : k < sc.length := by rw [values_length hsc, ← hcl]; exact hkl
    simp [hkl, hks]
  · intro x hx
    have hx' := hx
    simp only [stateNames, List.mem_cons, List.mem_append, not_or] at hx'
    rw [look_assign_ne _ _ hx'.1, ho3 x hx'.2.1, hnv x hx'.2.2.1, hop x hx'.2.2.2, hs.outer x hx]

/-- The trip count the code uses. -/
def TripCount (lv : LoopVals V) (n : LoopNode V) (e0 : Store V) (m : Int) : Prop :=
  maxCount lv n e0 = some m

theorem guard_state {lv : LoopVals V} {n : LoopNode V} (hwf : WellFormedLoop n) {e0 e : Store V}
    {m : Int} (hm : TripCount lv n e0 m) {i : Int} {c : Bool} {vs : List V} {rows : List (List V)}
    (hs : LoopState lv n e0 e i c vs rows) : guard lv n e = some (c && decide (i < m)) := by
  have hmax : maxCount lv n e = some m := by
    rw [← hm]
    unfold maxCount
    cases ht : n.trip with
    | none => rfl
    | some x =>
      dsimp only
      rw [getVal_of_look (hs.outer x (hwf.trip_outer x ht))]
  unfold Gen.guard
  simp only [hs.cond, hs.iter, Option.bind_some, lv.bool_spec, lv.int_spec, hmax]

/-- What the code leaves in its variables when the loop has ended. -/
def LoopResult (n : LoopNode V) (e' : Store V) (vs' : List V) (rows : List (List V)) : Prop :=
  values (getVal e') n.body.vars = some vs' ∧
    ∀ (k : Nat), k < n.body.scanOuts.length → look e' (collector k) = some (.vec (column rows k))

theorem LoopState.result {lv : LoopVals V} {n : LoopNode V} {e0 e : Store V} {i : Int} {c : Bool}
    {vs : List V} {rows : List (List V)} (hs : LoopState lv n e0 e i c vs rows) :
    LoopResult n e vs rows :=
  ⟨hs.vars, fun k hk => hs.cols k _ (by simp [collectors, hk])⟩

theorem while_of_run {lv : LoopVals V} {n : LoopNode V} (hwf : WellFormedLoop n) (hnc : NoClobber n)
    {e0 : Store V} {ws : List V} (hcap : values (getVal e0) (n.captures.map Prod.snd) = some ws)
    {m : Int} (hm : TripCount lv n e0 m) {i : Int} {c : Bool} {vs vs' : List V} {rows : List (List V)}
    (hrun : LoopRun (bodyStep lv n.body (define (fun _ => none) (n.captures.map Prod.fst) ws)) (some m)
      i c vs vs' rows)
    {e : Store V} {done : List (List V)} (hs : LoopState lv n e0 e i c vs done) :
    ∃ e', WhileRun (guard lv n) (genBody lv n) e e' ∧ LoopResult n e' vs' (done ++ rows) := by
  induction hrun generalizing e done with
  | @stop i c vs h =>
    refine ⟨e, .stop ?_, by rw [List.append_nil]; exact hs.result⟩
    rw [guard_state hwf hm hs]
    rcases h with h | ⟨k, hk, hle⟩
    · simp [h]
    · simp only [Option.some.injEq] at hk
      subst hk
      simp [Int.not_lt.2 hle]
  | @next i c vs c' vs1 sc vs' rows hc hlt hstep _ ih =>
    have := step_state hwf hnc hcap hs
    rw [hstep] at this
    obtain ⟨e1, hr, _, hs'⟩ := this
    obtain ⟨e', hw, hres⟩ := ih hs'
    refine ⟨e', .next ?_ hr hw, by simpa using hres⟩
    rw [guard_state hwf hm hs]
    simp [hc, hlt m rfl]

theorem run_of_while {lv : LoopVals V} {n : LoopNode V} (hwf : WellFormedLoop n) (hnc : NoClobber n)
    {e0 : Store V} {ws : List V} (hcap : values (getVal e0) (n.captures.map Prod.snd) = some ws)
    {m : Int} (hm : TripCount lv n e0 m) {e e' : Store V}
    (hw : WhileRun (guard lv n) (genBody lv n) e e')
    {i : Int} {c : Bool} {vs : List V} {done : List (List V)} (hs : LoopState lv n e0 e i c vs done) :
    ∃ vs' rows, LoopRun (bodyStep lv n.body (define (fun _ => none) (n.captures.map Prod.fst) ws)) (some m)
      i c vs vs' rows ∧ LoopResult n e' vs' (done ++ rows) := by
  induction hw generalizing i c vs done with
  | @stop e h =>
    refine ⟨vs, [], .stop ?_, by rw [List.append_nil]; exact hs.result⟩
    rw [guard_state hwf hm hs] at h
    simp only [Option.some.injEq, Bool.and_eq_false_iff, decide_eq_false_iff_not, Int.not_lt] at h
    rcases h with h | h
    · exact Or.inl h
    · exact Or.inr ⟨m, rfl, h⟩
  | @next e e1 e' hg hr _ ih =>
    rw [guard_state hwf hm hs] at hg
    simp only [Option.some.injEq, Bool.and_eq_true, decide_eq_true_iff] at hg
    have hst := step_state hwf hnc hcap hs
    cases hb : bodyStep lv n.body (define (fun _ => none) (n.captures.map Prod.fst) ws) i c vs with
    | none =>
      rw [hb] at hst
      dsimp only at hst
      rw [hst] at hr
      exact absurd hr (by simp)
    | some r =>
      obtain ⟨c', vs1, sc⟩ := r
      rw [hb] at hst
      obtain ⟨e1', hr', _, hs'⟩ := hst
      rw [hr] at hr'
      simp only [Option.some.injEq] at hr'
      subst hr'
      obtain ⟨vs', rows, hrun, hres⟩ := ih hs'
      refine ⟨vs', sc :: rows, .next hg.1 ?_ hb hrun, by simpa using hres⟩
      intro k hk
      simp only [Option.some.injEq] at hk
      subst hk
      exact hg.2

/-- **C26 (partial), iterations.** The statements generated for a Loop whose updates do not overwrite
what a later one reads run the body as often as ONNX prescribes, hand all carried values on at once,
and collect the scan values in order: the generated code ends if and only if the ONNX Loop does, and then
with the same carried values and, per scan output, the values of all iterations in order. Partial: bodies
in which an update overwrites a variable another update still reads are excluded
(`C26_swap_wrong`, `C26_condition_wrong`), and so is the way collected values are put together
(`C26_scan_rank_wrong`). -/
theorem C26_loop_partial (lv : LoopVals V) (n : LoopNode V) (hwf : WellFormedLoop n) (hnc : NoClobber n)
    (e0 : Store V) (vs0 ws : List V) (c0 : Bool) (m : Int)
    (hinit : values (getVal e0) n.inits = some vs0) (hc : InitialCond lv n e0 c0)
    (hm : TripCount lv n e0 m)
    (hcap : values (getVal e0) (n.captures.map Prod.snd) = some ws) :
    ∃ e1, run (genInit lv n) e0 = some e1 ∧
      (∀ vs' rows,
        LoopRun (bodyStep lv n.body (define (fun _ => none) (n.captures.map Prod.fst) ws)) (some m)
          0 c0 vs0 vs' rows →
        ∃ e', WhileRun (guard lv n) (genBody lv n) e1 e' ∧ LoopResult n e' vs' rows) ∧
      (∀ e', WhileRun (guard lv n) (genBody lv n) e1 e' →
        ∃ vs' rows,
          LoopRun (bodyStep lv n.body (define (fun _ => none) (n.captures.map Prod.fst) ws)) (some m)
            0 c0 vs0 vs' rows ∧ LoopResult n e' vs' rows) := by
  obtain ⟨e1, hr, hs⟩ := init_state hwf hinit hc
  refine ⟨e1, hr, ?_, ?_⟩
  · intro vs' rows hrun
    simpa using while_of_run hwf hnc hcap hm hrun hs
  · intro e' hw
    simpa using run_of_while hwf hnc hcap hm hw hs

/-- Without a trip count ONNX sets no limit; a run of less than `2^63` iterations is a run with the
limit the code uses. -/
theorem loopRun_limit {step : Int → Bool → List V → Option (Bool × List V × List V)} {i : Int} {c : Bool}
    {vs vs' : List V} {rows : List (List V)} (h : LoopRun step none i c vs vs' rows) {m : Int}
    (hm : i + rows.length ≤ m) : LoopRun step (some m) i c vs vs' rows := by
  induction h with
  | stop h =>
    rcases h with h | ⟨k, hk, _⟩
    · exact .stop (Or.inl h)
    · exact absurd hk (by simp)
  | next hc _ hstep _ ih =>
    simp only [List.length_cons] at hm
    refine .next hc ?_ hstep (ih (by omega))
    intro k hk
    simp only [Option.some.injEq] at hk
    omega

/-- **C26 (partial), no trip count.** Without a trip count the generated loop computes every ONNX run of
less than `2^63` iterations. -/
theorem C26_unlimited_partial (lv : LoopVals V) (n : LoopNode V) (hwf : WellFormedLoop n)
    (hnc : NoClobber n) (htrip : n.trip = none) (e0 : Store V) (vs0 ws : List V) (c0 : Bool)
    (hinit : values (getVal e0) n.inits = some vs0) (hc : InitialCond lv n e0 c0)
    (hcap : values (getVal e0) (n.captures.map Prod.snd) = some ws) (vs' : List V) (rows : List (List V))
    (hrun : LoopRun (bodyStep lv n.body (define (fun _ => none) (n.captures.map Prod.fst) ws)) none
      0 c0 vs0 vs' rows) (hlen : rows.length < 2 ^ 63) :
    ∃ e1 e', run (genInit lv n) e0 = some e1 ∧ WhileRun (guard lv n) (genBody lv n) e1 e' ∧
      LoopResult n e' vs' rows := by
  obtain ⟨e1, hr, h, _⟩ := C26_loop_partial lv n hwf hnc e0 vs0 ws c0 (2 ^ 63 - 1) hinit hc
    (by simp [TripCount, maxCount, htrip]) hcap
  obtain ⟨e', hw, hres⟩ := h vs' rows (loopRun_limit hrun (by omega))
  exact ⟨e1, e', hr, hw, hres⟩

end OnnxIR
