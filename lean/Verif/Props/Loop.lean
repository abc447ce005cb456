import Verif.Model.LoopGen

/-!
# C26: the generated `while` computes the ONNX Loop
-/

namespace OnnxIR

open Rust Onnx Gen

variable {V : Type}

/-! ## The store -/

theorem look_append {l e : Store V} {x : String} (h : x ∉ l.map Prod.fst) : look (l ++ e) x = look e x := by
  induction l with
  | nil => rfl
  | cons p l ih =>
    obtain ⟨y, v⟩ := p
    simp only [List.map_cons, List.mem_cons, not_or] at h
    show (if y = x then some v else look (l ++ e) x) = _
    rw [if_neg (fun hh => h.1 hh.symm), ih h.2]

theorem getVal_append {l e : Store V} {x : String} (h : x ∉ l.map Prod.fst) :
    getVal (l ++ e) x = getVal e x := by
  unfold getVal; rw [look_append h]

theorem assign_append {l e : Store V} {x : String} {v : RVal V} (h : x ∉ l.map Prod.fst) :
    assign x v (l ++ e) = l ++ assign x v e := by
  induction l with
  | nil => rfl
  | cons p l ih =>
    obtain ⟨y, w⟩ := p
    simp only [List.map_cons, List.mem_cons, not_or] at h
    show (if y = x then (y, v) :: (l ++ e) else (y, w) :: assign x v (l ++ e)) = _
    rw [if_neg (fun hh => h.1 hh.symm), ih h.2]; rfl

theorem assign_length (e : Store V) (x : String) (v : RVal V) : (assign x v e).length = e.length := by
  induction e with
  | nil => rfl
  | cons p e ih =>
    obtain ⟨y, w⟩ := p
    show (if y = x then (y, v) :: e else (y, w) :: assign x v e).length = _
    split <;> simp [ih]

theorem look_assign_ne (e : Store V) {x y : String} (v : RVal V) (h : y ≠ x) :
    look (assign x v e) y = look e y := by
  induction e with
  | nil => rfl
  | cons p e ih =>
    obtain ⟨z, w⟩ := p
    by_cases hz : z = x
    · subst hz
      simp [assign, look, h.symm]
    · simp only [assign, if_neg hz, look, ih]

theorem look_assign_self (e : Store V) {x : String} (v : RVal V) (h : (look e x).isSome) :
    look (assign x v e) x = some v := by
  induction e with
  | nil => simp [look] at h
  | cons p e ih =>
    obtain ⟨z, w⟩ := p
    by_cases hz : z = x
    · subst hz
      simp [assign, look]
    · simp only [look, if_neg hz] at h
      simp only [assign, if_neg hz, look, ih h]

theorem isSome_of_getVal {e : Store V} {x : String} {v : V} (h : getVal e x = some v) :
    (look e x).isSome := by
  unfold getVal at h
  split at h
  · next h' => simp [h']
  · exact absurd h (by simp)

theorem getVal_eq {e : Store V} {x : String} {v : V} (h : getVal e x = some v) :
    look e x = some (.val v) := by
  unfold getVal at h
  split at h
  · next h' => rw [h']; simpa using h
  · exact absurd h (by simp)

theorem run_append (a b : List (Stmt V)) (e : Store V) : run (a ++ b) e = (run a e).bind (run b) := by
  induction a generalizing e with
  | nil => rfl
  | cons s a ih =>
    cases s with
    | bind c =>
      simp only [List.cons_append, run]
      cases values (getVal e) c.ins with
      | none => rfl
      | some vs =>
        dsimp only
        cases c.f vs with
        | none => rfl
        | some ws =>
          dsimp only
          split
          · exact ih _
          · rfl
    | newVec c => exact ih _
    | set x f y =>
      simp only [List.cons_append, run]
      cases (getVal e y).bind f with
      | none => rfl
      | some v =>
        dsimp only
        split
        · exact ih _
        · rfl
    | push c y =>
      simp only [List.cons_append, run]
      split
      · exact ih _
      · rfl

/-! ## Environments -/

theorem values_mem {env : String → Option V} {xs : List String} {vs : List V}
    (h : values env xs = some vs) {x : String} (hx : x ∈ xs) : (env x).isSome := by
  induction xs generalizing vs with
  | nil => exact absurd hx (by simp)
  | cons y ys ih =>
    unfold values at h
    split at h
    · next h1 h2 =>
      rcases List.mem_cons.1 hx with hx | hx
      · subst hx; simp [h1]
      · exact ih h2 hx
    · exact absurd h (by simp)

theorem values_total {env : String → Option V} {xs : List String} (h : ∀ x ∈ xs, (env x).isSome) :
    ∃ vs, values env xs = some vs := by
  induction xs with
  | nil => exact ⟨[], rfl⟩
  | cons y ys ih =>
    obtain ⟨vs, hvs⟩ := ih fun x hx => h x (List.mem_cons_of_mem _ hx)
    obtain ⟨v, hv⟩ := Option.isSome_iff_exists.1 (h y List.mem_cons_self)
    exact ⟨v :: vs, by simp [values, hv, hvs]⟩

theorem values_congr {env env' : String → Option V} {xs : List String}
    (h : ∀ x ∈ xs, env x = env' x) : values env xs = values env' xs := by
  induction xs with
  | nil => rfl
  | cons y ys ih =>
    simp only [values, h y List.mem_cons_self, ih fun x hx => h x (List.mem_cons_of_mem _ hx)]

theorem values_length {env : String → Option V} {xs : List String} {vs : List V}
    (h : values env xs = some vs) : vs.length = xs.length := by
  induction xs generalizing vs with
  | nil => simp [values] at h; simp [← h]
  | cons y ys ih =>
    unfold values at h
    split at h
    · next h1 h2 =>
      simp only [Option.some.injEq] at h
      subst h
      simp [ih h2]
    · exact absurd h (by simp)

theorem values_get {env : String → Option V} {xs : List String} {vs : List V}
    (h : values env xs = some vs) (k : Nat) {x : String} (hx : xs[k]? = some x) : env x = vs[k]? := by
  induction xs generalizing vs k with
  | nil => simp at hx
  | cons y ys ih =>
    unfold values at h
    split at h
    · next h1 h2 =>
      simp only [Option.some.injEq] at h
      subst h
      cases k with
      | zero => simp at hx; subst hx; simp [h1]
      | succ k => simpa using ih h2 k (by simpa using hx)
    · exact absurd h (by simp)

theorem define_not_mem {env : String → Option V} {xs : List String} {vs : List V} {x : String}
    (h : x ∉ xs) : define env xs vs x = env x := by
  induction xs generalizing vs with
  | nil => rfl
  | cons y ys ih =>
    cases vs with
    | nil => rfl
    | cons v vs =>
      simp only [List.mem_cons, not_or] at h
      show (if x = y then some v else define env ys vs x) = _
      rw [if_neg h.1, ih h.2]

theorem define_mem {env : String → Option V} {xs : List String} {vs : List V} {x : String}
    (hl : vs.length = xs.length) (h : x ∈ xs) : (define env xs vs x).isSome := by
  induction xs generalizing vs with
  | nil => exact absurd h (by simp)
  | cons y ys ih =>
    cases vs with
    | nil => simp at hl
    | cons v vs =>
      show (if x = y then some v else define env ys vs x).isSome
      by_cases hxy : x = y
      · rw [if_pos hxy]; rfl
      · rw [if_neg hxy]
        exact ih (by simpa using hl) ((List.mem_cons.1 h).resolve_left hxy)

theorem define_of_values {env env' : String → Option V} {xs : List String} {vs : List V} {x : String}
    (h : values env xs = some vs) (hx : x ∈ xs) : define env' xs vs x = env x := by
  induction xs generalizing vs with
  | nil => exact absurd hx (by simp)
  | cons y ys ih =>
    unfold values at h
    split at h
    · next v vs' h1 h2 =>
      simp only [Option.some.injEq] at h
      subst h
      show (if x = y then some v else define env' ys vs' x) = _
      by_cases hxy : x = y
      · rw [if_pos hxy, hxy, h1]
      · rw [if_neg hxy]
        exact ih h2 ((List.mem_cons.1 hx).resolve_left hxy)
    · exact absurd h (by simp)

theorem define_congr {env env' : String → Option V} {x : String} (xs : List String) (vs : List V)
    (h : env x = env' x) : define env xs vs x = define env' xs vs x := by
  induction xs generalizing vs with
  | nil => exact h
  | cons y ys ih =>
    cases vs with
    | nil => exact h
    | cons v vs =>
      show (if x = y then some v else define env ys vs x) = if x = y then some v else define env' ys vs x
      rw [ih]

theorem getVal_zip (e : Store V) {xs : List String} {ws : List V} (h : ws.length = xs.length)
    (x : String) : getVal (xs.zip (ws.map RVal.val) ++ e) x = define (getVal e) xs ws x := by
  induction xs generalizing ws with
  | nil => rfl
  | cons y ys ih =>
    cases ws with
    | nil => simp at h
    | cons w ws =>
      have ih := ih (ws := ws) (by simpa using h)
      show getVal ((y, RVal.val w) :: (ys.zip (ws.map RVal.val) ++ e)) x =
        if x = y then some w else define (getVal e) ys ws x
      by_cases hxy : x = y
      · subst hxy; simp [getVal, look]
      · rw [if_neg hxy, ← ih]
        simp only [getVal, look, if_neg (fun hh : y = x => hxy hh.symm)]

/-! ## Well-formed loops -/

/-- Every name a call reads is in `d` or defined by an earlier call. -/
def ClosedCalls : List String → List (Call V) → Prop
  | _, [] => True
  | d, c :: cs => (∀ x ∈ c.ins, x ∈ d) ∧ ClosedCalls (c.outs ++ d) cs

/-- Names the calls define. -/
def callOuts (cs : List (Call V)) : List String := cs.flatMap Call.outs

/-- The variables declared around the loop. -/
def stateNames (n : LoopNode V) : List String :=
  n.body.iter :: n.body.cond :: (n.body.vars ++ collectors n)

/-- What the body can refer to before its calls. -/
def entryNames (n : LoopNode V) : List String :=
  n.body.iter :: n.body.cond :: (n.body.vars ++ n.captures.map Prod.fst)

/-- A Loop as ONNX's scoping rules and the importer's naming leave it. -/
structure WellFormedLoop (n : LoopNode V) : Prop where
  inits_len : n.inits.length = n.body.vars.length
  outs_len : n.body.varOuts.length = n.body.vars.length
  state_nodup : (stateNames n).Nodup
  captures_nodup : (n.captures.map Prod.fst).Nodup
  captures_order : n.captures.Pairwise fun p q => p.1 ≠ q.2
  captures_outer : ∀ p ∈ n.captures, p.2 ∉ stateNames n
  inits_outer : ∀ x ∈ n.inits, x ∉ stateNames n
  init_outer : ∀ x, n.init = some x → x ∉ stateNames n
  trip_outer : ∀ x, n.trip = some x → x ∉ stateNames n
  captures_local : ∀ p ∈ n.captures, p.1 ∉ stateNames n
  calls_local : ∀ x ∈ callOuts n.body.calls, x ∉ stateNames n
  closed : ClosedCalls (entryNames n) n.body.calls
  condOut_closed : n.body.condOut ∈ callOuts n.body.calls ++ entryNames n
  varOuts_closed : ∀ x ∈ n.body.varOuts, x ∈ callOuts n.body.calls ++ entryNames n
  scanOuts_closed : ∀ x ∈ n.body.scanOuts, x ∈ callOuts n.body.calls ++ entryNames n

/-- No assignment of `update_vars` overwrites a variable that a later assignment, or the assignment
of the condition, reads. -/
structure NoClobber (n : LoopNode V) : Prop where
  vars : (n.body.vars.zip n.body.varOuts).Pairwise fun p q => p.1 = p.2 ∨ p.1 ≠ q.2
  cond : ∀ p ∈ n.body.vars.zip n.body.varOuts, p.1 = n.body.condOut → p.1 = p.2

/-! ## The body -/

theorem run_captures {e : Store V} {cs : List (String × String)} {ws : List V}
    (hnd : (cs.map Prod.fst).Nodup) (hord : cs.Pairwise fun p q => p.1 ≠ q.2)
    (hw : values (getVal e) (cs.map Prod.snd) = some ws) :
    ∃ l : Store V, run (cs.map fun p => letCopy p.1 p.2) e = some (l ++ e) ∧
      (∀ x ∈ l.map Prod.fst, x ∈ cs.map Prod.fst) ∧
      ∀ x, getVal (l ++ e) x = define (getVal e) (cs.map Prod.fst) ws x := by
  induction cs generalizing e ws with
  | nil => exact ⟨[], rfl, by simp, fun x => by simp [define]⟩
  | cons p cs ih =>
    obtain ⟨i, o⟩ := p
    simp only [List.map_cons, List.nodup_cons] at hnd
    rw [List.pairwise_cons] at hord
    simp only [List.map_cons] at hw
    unfold values at hw
    split at hw
    case h_2 => exact absurd hw (by simp)
    case h_1 w ws' hwo hws =>
    simp only [Option.some.injEq] at hw
    subst hw
    have hne : ∀ x ∈ cs.map Prod.snd, x ≠ i := by
      intro x hx he
      obtain ⟨q, hq, hqx⟩ := List.mem_map.1 hx
      exact hord.1 q hq (by rw [hqx, he])
    have hws' : values (getVal ((i, RVal.val w) :: e)) (cs.map Prod.snd) = some ws' := by
      rw [← hws]
      refine values_congr fun x hx => ?_
      simp only [getVal, look, if_neg (fun hh : i = x => hne x hx hh.symm)]
    obtain ⟨l, hr, hk, hg⟩ := ih hnd.2 hord.2 hws'
    refine ⟨l ++ [(i, .val w)], ?_, ?_, ?_⟩
    · show run (letCopy i o :: _) e = _
      simp only [letCopy] at hr ⊢
      simp only [run, values, hwo]
      simpa using hr
    · intro x hx
      simp only [List.map_append, List.map_cons, List.map_nil, List.mem_append, List.mem_singleton] at hx
      rcases hx with hx | hx
      · exact List.mem_cons_of_mem _ (hk x hx)
      · rw [hx]; exact List.mem_cons_self
    · intro x
      rw [List.append_assoc, List.singleton_append, hg x]
      show _ = if x = i then some w else define (getVal e) (cs.map Prod.fst) ws' x
      by_cases hx : x = i
      · rw [if_pos hx, hx, define_not_mem hnd.1]; simp [getVal, look]
      · rw [if_neg hx]
        refine define_congr _ _ ?_
        simp only [getVal, look, if_neg (fun hh : i = x => hx hh.symm)]

theorem run_calls {cs : List (Call V)} {s : Store V} {env : String → Option V} {d : List String}
    (hcl : ClosedCalls d cs) (hag : ∀ x ∈ d, getVal s x = env x) (hdef : ∀ x ∈ d, (env x).isSome) :
    match evalCalls env cs with
    | none => run (cs.map Stmt.bind) s = none
    | some env' => ∃ l : Store V, run (cs.map Stmt.bind) s = some (l ++ s) ∧
        (∀ x ∈ l.map Prod.fst, x ∈ callOuts cs) ∧
        ∀ x ∈ callOuts cs ++ d, getVal (l ++ s) x = env' x ∧ (env' x).isSome := by
  induction cs generalizing s env d with
  | nil =>
    refine ⟨[], rfl, by simp, fun x hx => ?_⟩
    have hx : x ∈ d := by simpa [callOuts] using hx
    exact ⟨hag x hx, hdef x hx⟩
  | cons c cs ih =>
    have hv : values (getVal s) c.ins = values env c.ins := values_congr fun x hx => hag x (hcl.1 x hx)
    simp only [evalCalls, List.map_cons, run, hv]
    cases hvs : values env c.ins with
    | none => rfl
    | some vs =>
      dsimp only
      cases hf : c.f vs with
      | none => rfl
      | some ws =>
        dsimp only
        by_cases hlen : ws.length = c.outs.length
        · rw [if_pos hlen, if_pos hlen]
          have hag' : ∀ x ∈ c.outs ++ d,
              getVal (c.outs.zip (ws.map RVal.val) ++ s) x = define env c.outs ws x := by
            intro x hx
            rw [getVal_zip s hlen]
            by_cases hxo : x ∈ c.outs
            · clear hx hv hvs
              have : ∀ (xs : List String) (us : List V), us.length = xs.length → x ∈ xs →
                  define (getVal s) xs us x = define env xs us x := by
                intro xs
                induction xs with
                | nil => intro us _ h; exact absurd h (by simp)
                | cons y ys ih' =>
                  intro us hl h
                  cases us with
                  | nil => simp at hl
                  | cons u us =>
                    show (if x = y then _ else _) = if x = y then _ else _
                    by_cases hxy : x = y
                    · rw [if_pos hxy, if_pos hxy]
                    · rw [if_neg hxy, if_neg hxy]
                      exact ih' us (by simpa using hl) ((List.mem_cons.1 h).resolve_left hxy)
              exact this _ _ hlen hxo
            · have hxd : x ∈ d := (List.mem_append.1 hx).resolve_left hxo
              rw [define_not_mem hxo, define_not_mem hxo, hag x hxd]
          have hdef' : ∀ x ∈ c.outs ++ d, (define env c.outs ws x).isSome := by
            intro x hx
            by_cases hxo : x ∈ c.outs
            · exact define_mem hlen hxo
            · rw [define_not_mem hxo]
              exact hdef x ((List.mem_append.1 hx).resolve_left hxo)
          have := ih hcl.2 hag' hdef'
          cases hev : evalCalls (define env c.outs ws) cs with
          | none => rw [hev] at this; exact this
          | some env' =>
            rw [hev] at this
            obtain ⟨l, hr, hk, hg⟩ := this
            refine ⟨l ++ c.outs.zip (ws.map RVal.val), ?_, ?_, ?_⟩
            · rw [hr, List.append_assoc]
            · intro x hx
              simp only [List.map_append, List.mem_append] at hx
              simp only [callOuts, List.flatMap_cons, List.mem_append]
              rcases hx with hx | hx
              · exact Or.inr (hk x hx)
              · left
                obtain ⟨q, hq, rfl⟩ := List.mem_map.1 hx
                exact (List.of_mem_zip hq).1
            · intro x hx
              rw [List.append_assoc]
              refine hg x ?_
              simp only [callOuts, List.flatMap_cons, List.mem_append] at hx ⊢
              rcases hx with (hx | hx) | hx
              · exact Or.inr (Or.inl hx)
              · exact Or.inl hx
              · exact Or.inr (Or.inr hx)
        · simp only [if_neg hlen]

/-! ## Scans and updates -/

theorem run_pushes {l b : Store V} {cs ys : List String} {cols : List (List V)} {sc : List V}
    (hnd : cs.Nodup) (hl : ∀ c ∈ cs, c ∉ l.map Prod.fst) (hd : ∀ c ∈ cs, c ∉ ys)
    (hlen : cols.length = cs.length) (hlen' : ys.length = cs.length)
    (hcol : ∀ (k : Nat) c, cs[k]? = some c → look b c = (cols[k]?).map RVal.vec)
    (hy : values (getVal (l ++ b)) ys = some sc) :
    ∃ b' : Store V, run ((cs.zip ys).map fun p => .push p.1 p.2) (l ++ b) = some (l ++ b') ∧
      b'.length = b.length ∧
      (∀ (k : Nat) c, cs[k]? = some c →
        look b' c = ((cols[k]?).bind fun col => (sc[k]?).map fun v => RVal.vec (col ++ [v]))) ∧
      ∀ x, x ∉ cs → look b' x = look b x := by
  induction cs generalizing b ys cols sc with
  | nil => exact ⟨b, by simp [run], rfl, by simp, fun _ _ => rfl⟩
  | cons c cs ih =>
    cases ys with
    | nil => simp at hlen'
    | cons y ys =>
    cases cols with
    | nil => simp at hlen
    | cons col cols =>
    unfold values at hy
    split at hy
    case h_2 => exact absurd hy (by simp)
    case h_1 v vs hv hvs =>
    simp only [Option.some.injEq] at hy
    subst hy
    rw [List.nodup_cons] at hnd
    have hc0 : look b c = some (.vec col) := by simpa using hcol 0 c (by simp)
    have hcl := hl c List.mem_cons_self
    have hgc : look (l ++ b) c = some (.vec col) := by rw [look_append hcl, hc0]
    have hcy : ∀ x ∈ ys, x ≠ c := fun x hx he => hd c List.mem_cons_self (by rw [← he]; exact List.mem_cons_of_mem _ hx)
    have hvs' : values (getVal (l ++ assign c (.vec (col ++ [v])) b)) ys = some vs := by
      rw [← hvs]
      refine values_congr fun x hx => ?_
      unfold getVal
      rw [← assign_append hcl, look_assign_ne _ _ (hcy x hx)]
    obtain ⟨b', hr, hbl, hg, ho⟩ := ih (b := assign c (.vec (col ++ [v])) b) (cols := cols) hnd.2
      (fun c' hc' => hl c' (List.mem_cons_of_mem _ hc'))
      (fun c' hc' hm => hd c' (List.mem_cons_of_mem _ hc') (List.mem_cons_of_mem _ hm))
      (by simpa using hlen) (by simpa using hlen')
      (fun k c' hc' => by
        have hm : c' ∈ cs := List.mem_of_getElem? hc'
        rw [look_assign_ne _ _ (fun hh : c' = c => hnd.1 (by rw [← hh]; exact hm))]
        simpa using hcol (k + 1) c' (by simpa using hc'))
      hvs'
    refine ⟨b', ?_, by rw [hbl, assign_length], ?_, ?_⟩
    · simp only [List.zip_cons_cons, List.map_cons, run, hgc, hv]
      rw [assign_append hcl, hr]
    · intro k c' hc'
      cases k with
      | zero =>
        simp at hc'
        subst hc'
        rw [ho c hnd.1, look_assign_self _ _ (by rw [hc0]; rfl)]
        simp
      | succ k => simpa using hg k c' (by simpa using hc')
    · intro x hx
      simp only [List.mem_cons, not_or] at hx
      rw [ho x hx.2, look_assign_ne _ _ hx.1]

theorem run_updates {l b : Store V} {vs os : List String} {ws : List V}
    (hnd : vs.Nodup) (hl : ∀ v ∈ vs, v ∉ l.map Prod.fst) (hlen : os.length = vs.length)
    (hdef : ∀ v ∈ vs, (look b v).isSome)
    (hcl : (vs.zip os).Pairwise fun p q => p.1 = p.2 ∨ p.1 ≠ q.2)
    (hw : values (getVal (l ++ b)) os = some ws) :
    ∃ b' : Store V, run (((vs.zip os).filter fun p => p.1 ≠ p.2).map fun p => .set p.1 some p.2) (l ++ b) =
        some (l ++ b') ∧ b'.length = b.length ∧ values (getVal (l ++ b')) vs = some ws ∧
      ∀ x, (∀ p ∈ vs.zip os, p.1 = x → p.1 = p.2) → look b' x = look b x := by
  induction vs generalizing b os ws with
  | nil =>
    cases os with
    | nil => exact ⟨b, by simp [run], rfl, by simpa [values] using hw, fun _ _ => rfl⟩
    | cons _ _ => simp at hlen
  | cons v vs ih =>
    cases os with
    | nil => simp at hlen
    | cons o os =>
    unfold values at hw
    split at hw
    case h_2 => exact absurd hw (by simp)
    case h_1 w ws' hwo hws =>
    simp only [Option.some.injEq] at hw
    subst hw
    rw [List.nodup_cons] at hnd
    rw [List.zip_cons_cons, List.pairwise_cons] at hcl
    have hvl := hl v List.mem_cons_self
    have key : ∀ b' : Store V, (∀ x, (∀ p ∈ vs.zip os, p.1 = x → p.1 = p.2) → look b' x = look b x) →
        look b' v = look b v := fun b' h => h v fun p hp he =>
      absurd (he ▸ (List.of_mem_zip hp).1 : v ∈ vs) hnd.1
    by_cases hvo : v = o
    · subst hvo
      obtain ⟨b', hr, hbl, hvals, ho⟩ := ih (b := b) hnd.2 (fun x hx => hl x (List.mem_cons_of_mem _ hx))
        (by simpa using hlen) (fun x hx => hdef x (List.mem_cons_of_mem _ hx)) hcl.2 hws
      refine ⟨b', ?_, hbl, ?_, ?_⟩
      · simpa using hr
      · have : getVal (l ++ b') v = some w := by
          rw [← hwo]; unfold getVal; rw [look_append hvl, look_append hvl, key b' ho]
        simp [values, this, hvals]
      · intro x hx
        exact ho x fun p hp he => hx p (by rw [List.zip_cons_cons]; exact List.mem_cons_of_mem _ hp) he
    · have hne : ∀ x ∈ os, x ≠ v := by
        intro x hx he
        obtain ⟨k, hk⟩ := List.getElem?_of_mem hx
        have hklt : k < os.length := (List.getElem?_eq_some_iff.1 hk).1
        have hkv : k < vs.length := by simp at hlen; omega
        have hmem : (vs[k], x) ∈ vs.zip os := by
          refine List.mem_of_getElem? (i := k) ?_
          rw [List.getElem?_zip_eq_some]
          exact ⟨by simp [hkv], hk⟩
        rcases hcl.1 _ hmem with h | h
        · exact hvo h
        · exact h he.symm
      have hws' : values (getVal (l ++ assign v (.val w) b)) os = some ws' := by
        rw [← hws]
        refine values_congr fun x hx => ?_
        unfold getVal
        rw [← assign_append hvl, look_assign_ne _ _ (hne x hx)]
      have hsome := hdef v List.mem_cons_self
      obtain ⟨b', hr, hbl, hvals, ho⟩ := ih (b := assign v (.val w) b) hnd.2
        (fun x hx => hl x (List.mem_cons_of_mem _ hx)) (by simpa using hlen)
        (fun x hx => by
          rw [look_assign_ne _ _ (fun hh : x = v => hnd.1 (by rw [← hh]; exact hx))]
          exact hdef x (List.mem_cons_of_mem _ hx)) hcl.2 hws'
      refine ⟨b', ?_, by rw [hbl, assign_length], ?_, ?_⟩
      · rw [List.zip_cons_cons, List.filter_cons_of_pos (by simpa using hvo), List.map_cons]
        simp only [run, hwo, Option.bind_some, look_append hvl, hsome, if_true]
        rw [assign_append hvl, hr]
      · have : getVal (l ++ b') v = some w := by
          unfold getVal
          rw [look_append hvl, ho v fun p hp he => absurd (he ▸ (List.of_mem_zip hp).1 : v ∈ vs) hnd.1,
            look_assign_self _ _ hsome]
        simp [values, this, hvals]
      · intro x hx
        rw [ho x fun p hp he => hx p (by rw [List.zip_cons_cons]; exact List.mem_cons_of_mem _ hp) he]
        refine look_assign_ne _ _ fun he => hvo ?_
        exact hx (v, o) (by simp) he.symm

end OnnxIR
