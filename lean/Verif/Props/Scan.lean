import Verif.Model.ScanGen
import Verif.Props.LoopScan
import Verif.Props.AxisOps
import Verif.Props.CumSum

/-!
# C71: the code generated for Scan
-/

namespace OnnxIR

open Rust Onnx Gen

variable {V : Type}

/-! ### Statements -/

theorem assign_same {e : Store V} {x : String} {v : RVal V} (h : look e x = some v) : assign x v e = e := by
  induction e with
  | nil => rfl
  | cons p e ih =>
    obtain ⟨y, w⟩ := p
    by_cases hy : y = x
    · simp only [look, if_pos hy, Option.some.injEq] at h
      simp [assign, hy, h]
    · simp only [look, if_neg hy] at h
      simp [assign, hy, ih h]

theorem getVal_assign_isSome {e : Store V} {x y : String} {v : V} (h : (getVal e y).isSome) : (getVal (assign x (.val v) e) y).isSome := by
  by_cases hy : y = x
  · subst hy
    obtain ⟨w, hw⟩ := Option.isSome_iff_exists.1 h
    unfold getVal
    rw [look_assign_self _ _ (isSome_of_getVal hw)]
    rfl
  · rw [getVal_of_look (look_assign_ne _ _ hy)]
    exact h

/-- Assigning a variable to itself does nothing. -/
theorem run_sets_filter {ps : List (String × String)} {e : Store V} (h : ∀ p ∈ ps, p.1 = p.2 → (getVal e p.1).isSome) :
    run (ps.map fun p => .set p.1 some p.2) e = run ((ps.filter fun p => p.1 ≠ p.2).map fun p => .set p.1 some p.2) e := by
  induction ps generalizing e with
  | nil => rfl
  | cons p ps ih =>
    obtain ⟨x, y⟩ := p
    by_cases hxy : x = y
    · subst hxy
      obtain ⟨v, hv⟩ := Option.isSome_iff_exists.1 (h (x, x) (by simp) rfl)
      have hl : look e x = some (.val v) := getVal_eq hv
      simp only [List.map_cons, ne_eq, decide_not, List.filter_cons, decide_true, Bool.not_true, Bool.false_eq_true, if_false]
      rw [run, hv]
      simp only [Option.bind_some, hl, Option.isSome_some, if_true, assign_same hl]
      simpa using ih fun p hp => h p (List.mem_cons_of_mem _ hp)
    · simp only [List.map_cons, ne_eq, decide_not, List.filter_cons, hxy, decide_false, Bool.not_false, if_true]
      rw [run, run]
      cases hv : (getVal e y).bind some with
      | none => rfl
      | some v =>
        simp only
        split
        · simpa using ih fun p hp he => getVal_assign_isSome (h p (List.mem_cons_of_mem _ hp) he)
        · rfl

/-- Several `let x = f(y)`. -/
theorem run_lets {cs : List (String × (V → Option V) × String)} {e : Store V} {ws : List V} (hnd : (cs.map Prod.fst).Nodup)
    (hout : ∀ p ∈ cs, ∀ q ∈ cs, p.1 ≠ q.2.2) (hl : ws.length = cs.length)
    (hw : ∀ (j : Nat) p w, cs[j]? = some p → ws[j]? = some w → (getVal e p.2.2).bind p.2.1 = some w) :
    ∃ l : Store V, run (cs.map fun p => .bind ⟨[p.1], [p.2.2], call1 p.2.1⟩) e = some (l ++ e) ∧
      (∀ x ∈ l.map Prod.fst, x ∈ cs.map Prod.fst) ∧ ∀ x, getVal (l ++ e) x = define (getVal e) (cs.map Prod.fst) ws x := by
  induction cs generalizing e ws with
  | nil => exact ⟨[], rfl, by simp, fun x => by simp [define]⟩
  | cons p cs ih =>
    obtain ⟨x, f, y⟩ := p
    cases ws with
    | nil => simp at hl
    | cons w ws =>
      simp only [List.map_cons, List.nodup_cons] at hnd
      have h0 := hw 0 _ _ rfl rfl
      have hyv : ∃ v, getVal e y = some v ∧ f v = some w := by
        cases hv : getVal e y with
        | none => rw [show getVal e (x, f, y).2.2 = none from hv] at h0; cases h0
        | some v => rw [show getVal e (x, f, y).2.2 = some v from hv] at h0; exact ⟨v, rfl, h0⟩
      obtain ⟨v, hv, hf⟩ := hyv
      obtain ⟨l, hr, hk, hg⟩ := ih (e := (x, .val w) :: e) hnd.2 (fun p hp q hq => hout p (List.mem_cons_of_mem _ hp) q (List.mem_cons_of_mem _ hq))
        (by simpa using hl) (fun j p w' hp hw' => by
          rw [← hw (j + 1) p w' (by simpa using hp) (by simpa using hw')]
          have hne : ¬x = p.2.2 := hout _ (List.mem_cons_self) p (List.mem_cons_of_mem _ (List.mem_of_getElem? hp))
          simp only [getVal, look, if_neg hne])
      refine ⟨l ++ [(x, .val w)], ?_, ?_, ?_⟩
      · simp only [List.map_cons]
        rw [run]
        simp only [values, hv, call1, hf, Option.map_some]
        simpa using hr
      · intro z hz
        simp only [List.map_append, List.map_cons, List.map_nil, List.mem_append, List.mem_singleton] at hz
        rcases hz with hz | hz
        · exact List.mem_cons_of_mem _ (hk z hz)
        · rw [hz]; exact List.mem_cons_self
      · intro z
        rw [List.append_assoc, List.singleton_append, hg z]
        show _ = if z = x then some w else define (getVal e) (cs.map Prod.fst) ws z
        by_cases hz : z = x
        · rw [if_pos hz, hz, define_not_mem hnd.1]; simp [getVal, look]
        · rw [if_neg hz]
          refine define_congr _ _ ?_
          simp only [getVal, look, if_neg (fun hh : x = z => hz hh.symm)]

theorem define_append {env : String → Option V} {a b : List String} {u v : List V} (h : u.length = a.length) (x : String) :
    define env (a ++ b) (u ++ v) x = define (define env b v) a u x := by
  induction a generalizing u with
  | nil =>
    cases u with
    | nil => rfl
    | cons _ _ => simp at h
  | cons y a ih =>
    cases u with
    | nil => simp at h
    | cons w u =>
      show (if x = y then _ else _) = if x = y then _ else _
      have := ih (u := u) (by simpa using h)
      simp only [List.append_eq, this]

/-! ### Elements of a sequence -/

section
variable {α : Type} [Inhabited α]

theorem scanUsize_nonneg {a : Int} (h : 0 ≤ a) (r : Nat) : scanUsize a = scanAxis a r := by
  unfold scanUsize scanAxis
  rw [if_neg (by omega), if_neg (by omega)]

theorem insert_erase {i : List Nat} {a k : Nat} (h : a < i.length) : (i.eraseIdx a).take a ++ k :: (i.eraseIdx a).drop a = i.set a k := by
  induction i generalizing a with
  | nil => simp at h
  | cons d i ih =>
    cases a with
    | zero => simp
    | succ a => simp [ih (by simpa using h)]

/-- The slice of a sequence is its element. -/
theorem sliceElem_eq {t : Tensor α} {ax k : Nat} (hr : 2 ≤ t.shape.length) (ha : ax < t.shape.length) (hk : k < t.shape.getD ax 0) :
    sliceElem ax k t = some (elemAt ax k t) := by
  unfold sliceElem
  rw [if_pos hr]
  obtain ⟨u, hu⟩ := narrow_isSome ha (by omega) (show k + 1 ≤ t.shape.getD ax 0 by omega)
  obtain ⟨u1, u2⟩ := narrow_get hu
  obtain ⟨v, v1, v2, v3⟩ := squeezeDim_get u1 ha
  rw [hu, Option.bind_some, v1]
  congr 1
  refine Tensor.eq_of_get (v2.trans rfl) fun j hj => ?_
  rw [v2] at hj
  obtain ⟨i, i1, i2⟩ := exists_insert ha hj
  have hl : ax < i.length := by rw [i1.length]; simpa using ha
  rw [← i2, v3 i i1, u2 i i1]
  unfold elemAt
  rw [Tensor.get_ofFn (by rw [i2]; exact hj), insert_erase hl]
  congr 2
  have h1 := (inRange_set ha).1 i1
  omega

/-! ### The loop -/

/-- The variables declared around the loop. -/
def scanState (n : ScanNode α) : List String := n.body.vars ++ scanCollectors n

/-- What the body can refer to before its calls. -/
def scanEntry (n : ScanNode α) : List String := n.body.vars ++ (n.body.elems ++ n.captures.map Prod.fst)

/-- A Scan as ONNX's scoping rules and the importer's naming leave it. -/
structure WellFormedScan (n : ScanNode α) : Prop where
  inits_len : n.inits.length = n.body.vars.length
  elems_len : n.body.elems.length = n.seqs.length
  outs_len : n.body.varOuts.length = n.body.vars.length
  state_nodup : (scanState n).Nodup
  elems_nodup : n.body.elems.Nodup
  elems_local : ∀ x ∈ n.body.elems, x ∉ scanState n
  inits_outer : ∀ x ∈ n.inits, x ∉ scanState n
  seqs_outer : ∀ x ∈ n.seqs, x ∉ scanState n ∧ x ∉ n.body.elems
  captures_nodup : (n.captures.map Prod.fst).Nodup
  captures_order : n.captures.Pairwise fun p q => p.1 ≠ q.2
  captures_outer : ∀ p ∈ n.captures, p.2 ∉ scanState n ∧ p.2 ∉ n.body.elems
  captures_local : ∀ p ∈ n.captures, p.1 ∉ scanState n ∧ p.1 ∉ n.body.elems
  calls_local : ∀ x ∈ callOuts n.body.calls, x ∉ scanState n
  closed : ClosedCalls (scanEntry n) n.body.calls
  varOuts_closed : ∀ x ∈ n.body.varOuts, x ∈ callOuts n.body.calls ++ scanEntry n
  scanOuts_closed : ∀ x ∈ n.body.scanOuts, x ∈ callOuts n.body.calls ++ scanEntry n

/-- No assignment overwrites a variable that a later assignment reads or that a scan output is taken from. -/
structure ScanNoClobber (n : ScanNode α) : Prop where
  vars : (n.body.vars.zip n.body.varOuts).Pairwise fun p q => p.1 = p.2 ∨ p.1 ≠ q.2
  scans : ∀ p ∈ n.body.vars.zip n.body.varOuts, p.1 ∈ n.body.scanOuts → p.1 = p.2

/-- The sequences have the length `len` along their axes, which count from the front, and at least one more axis. -/
def SequencesOk (a : ScanAttrs) (len : Nat) (ts : List (Tensor α)) : Prop :=
  ∀ (j : Nat) t, ts[j]? = some t → 2 ≤ t.shape.length ∧ 0 ≤ a.inAxes.getD j 0 ∧ (a.inAxes.getD j 0).toNat < t.shape.length ∧
    t.shape.getD (a.inAxes.getD j 0).toNat 0 = len

/-- The variables hold the carried values `vs` and the scan values of the iterations done; every other variable is as it was. -/
structure ScanState (n : ScanNode α) (e0 e : Store (Tensor α)) (vs : List (Tensor α)) (rows : List (List (Tensor α))) : Prop where
  vars : values (getVal e) n.body.vars = some vs
  cols : ∀ (k : Nat) x, (scanCollectors n)[k]? = some x → look e x = some (.vec (column rows k))
  outer : ∀ x, x ∉ scanState n → look e x = look e0 x

theorem scanRow_length (a : ScanAttrs) (ts : List (Tensor α)) (len k : Nat) : (scanRow a ts len k).length = ts.length := by simp [scanRow]

theorem run_slices {n : ScanNode α} (hwf : WellFormedScan n) {e : Store (Tensor α)} {ts : List (Tensor α)} {len i : Nat}
    (hts : values (getVal e) n.seqs = some ts) (hok : SequencesOk n.attrs len ts) (hi : i < len) :
    ∃ l : Store (Tensor α), run (sliceStmts n len i) e = some (l ++ e) ∧ (∀ x ∈ l.map Prod.fst, x ∈ n.body.elems) ∧
      ∀ x, getVal (l ++ e) x = define (getVal e) n.body.elems (scanRow n.attrs ts len i) x := by
  let cs : List (String × (Tensor α → Option (Tensor α)) × String) := (n.body.elems.zip n.seqs).mapIdx fun j p =>
    (p.1, sliceElem (scanUsize (n.attrs.inAxes.getD j 0)) (if n.attrs.inDirs.getD j 0 = 1 then len - i - 1 else i), p.2)
  have hst : sliceStmts n len i = cs.map fun p => .bind ⟨[p.1], [p.2.2], call1 p.2.1⟩ := by
    refine List.ext_getElem? fun k => ?_
    simp only [cs, sliceStmts, List.getElem?_mapIdx, List.getElem?_map, Option.map_map]
    rfl
  have hfst : cs.map Prod.fst = n.body.elems := by
    rw [← List.map_fst_zip (l₁ := n.body.elems) (l₂ := n.seqs) (by rw [hwf.elems_len])]
    refine List.ext_getElem? fun k => ?_
    simp only [cs, List.getElem?_mapIdx, List.getElem?_map, Option.map_map]
    rfl
  have hmem : ∀ p ∈ cs, p.1 ∈ n.body.elems ∧ p.2.2 ∈ n.seqs := by
    intro p hp
    obtain ⟨j, hj, rfl⟩ := List.mem_mapIdx.1 hp
    exact ⟨(List.of_mem_zip (List.getElem_mem hj)).1, (List.of_mem_zip (List.getElem_mem hj)).2⟩
  have hlts : ts.length = n.seqs.length := values_length hts
  obtain ⟨l, h1, h2, h3⟩ := run_lets (cs := cs) (e := e) (ws := scanRow n.attrs ts len i) (by rw [hfst]; exact hwf.elems_nodup)
    (fun p hp q hq h => (hwf.seqs_outer _ (hmem q hq).2).2 (h ▸ (hmem p hp).1))
    (by rw [scanRow_length, hlts]; simp [cs, hwf.elems_len])
    (fun j p w hp hw => by
      simp only [cs, List.getElem?_mapIdx, Option.map_eq_some_iff] at hp
      obtain ⟨q, hq, rfl⟩ := hp
      simp only [scanRow, List.getElem?_mapIdx, Option.map_eq_some_iff] at hw
      obtain ⟨t, ht, rfl⟩ := hw
      have hq2 : n.seqs[j]? = some q.2 := by
        rw [List.getElem?_zip_eq_some] at hq
        exact hq.2
      have hv := values_get hts j hq2
      obtain ⟨o1, o2, o3, o4⟩ := hok j t ht
      rw [show getVal e q.2 = some t from hv.trans ht, Option.bind_some, scanUsize_nonneg o2 t.shape.length]
      have hax : scanAxis (n.attrs.inAxes.getD j 0) t.shape.length = (n.attrs.inAxes.getD j 0).toNat := by
        unfold scanAxis
        rw [if_neg (by omega)]
      have hpos : (if n.attrs.inDirs.getD j 0 = 1 then len - i - 1 else i) = if n.attrs.inDirs.getD j 0 = 1 then len - 1 - i else i := by
        split <;> omega
      rw [hpos]
      refine sliceElem_eq o1 (by rw [hax]; exact o3) ?_
      rw [hax, o4]
      split <;> omega)
  rw [hfst] at h2 h3
  exact ⟨l, by rw [hst]; exact h1, h2, h3⟩

theorem scan_step {n : ScanNode α} (hwf : WellFormedScan n) (hnc : ScanNoClobber n) {e0 e : Store (Tensor α)} {ts ws vs : List (Tensor α)}
    {rows : List (List (Tensor α))} {len i : Nat} (hts : values (getVal e0) n.seqs = some ts) (hok : SequencesOk n.attrs len ts) (hi : i < len)
    (hcap : values (getVal e0) (n.captures.map Prod.snd) = some ws) (hs : ScanState n e0 e vs rows) :
    match scanStep n.body (define (fun _ => none) (n.captures.map Prod.fst) ws) vs (scanRow n.attrs ts len i) with
    | none => run (scanBody n len i) e = none
    | some (vs', sc) => ∃ e1, run (scanBody n len i) e = some e1 ∧ sc.length = n.body.scanOuts.length ∧
        ScanState n e0 (e1.drop (e1.length - e.length)) vs' (rows ++ [sc]) := by
  have hnd := hwf.state_nodup
  simp only [scanState, List.nodup_append] at hnd
  obtain ⟨hvnd, hcnd, hdis⟩ := hnd
  have hvst : ∀ x ∈ n.body.vars, x ∈ scanState n := fun x hx => List.mem_append_left _ hx
  have hcst : ∀ x ∈ scanCollectors n, x ∈ scanState n := fun x hx => List.mem_append_right _ hx
  -- elements
  have hts' : values (getVal e) n.seqs = some ts := by
    rw [← hts]
    exact values_congr fun x hx => getVal_of_look (hs.outer _ (hwf.seqs_outer x hx).1)
  obtain ⟨l0, hr0, hk0, hg0⟩ := run_slices hwf hts' hok hi
  -- captured values
  have hcap' : values (getVal (l0 ++ e)) (n.captures.map Prod.snd) = some ws := by
    rw [← hcap]
    refine values_congr fun x hx => ?_
    obtain ⟨p, hp, rfl⟩ := List.mem_map.1 hx
    rw [getVal_append fun h => (hwf.captures_outer p hp).2 (hk0 _ h)]
    exact getVal_of_look (hs.outer _ (hwf.captures_outer p hp).1)
  obtain ⟨l1, hr1, hk1, hg1⟩ := run_captures hwf.captures_nodup hwf.captures_order hcap'
  have hwlen : ws.length = (n.captures.map Prod.fst).length := by
    rw [values_length hcap]; simp
  have hinl : ∀ x ∈ n.captures.map Prod.fst, x ∉ scanState n ∧ x ∉ n.body.elems := by
    intro x hx
    obtain ⟨p, hp, rfl⟩ := List.mem_map.1 hx
    exact hwf.captures_local p hp
  have hvl : vs.length = n.body.vars.length := values_length hs.vars
  have hrl : (scanRow n.attrs ts len i).length = n.body.elems.length := by rw [scanRow_length, hwf.elems_len, values_length hts]
  generalize hxs : scanRow n.attrs ts len i = xs at *
  have hag : ∀ x ∈ scanEntry n, getVal (l1 ++ (l0 ++ e)) x =
      define (define (fun _ => none) (n.captures.map Prod.fst) ws) (n.body.vars ++ n.body.elems) (vs ++ xs) x := by
    intro x hx
    rw [hg1 x, define_append hvl]
    by_cases hxi : x ∈ n.captures.map Prod.fst
    · rw [define_not_mem (env := define (define (fun _ => none) (n.captures.map Prod.fst) ws) n.body.elems xs)
        (fun h => (hinl x hxi).1 (hvst x h)), define_not_mem (xs := n.body.elems) (hinl x hxi).2]
      exact define_mem_congr hwlen hxi
    · rw [define_not_mem hxi, hg0 x]
      by_cases hxe : x ∈ n.body.elems
      · rw [define_not_mem (xs := n.body.vars) (fun h => hwf.elems_local x hxe (hvst x h))]
        exact define_mem_congr hrl hxe
      · rw [define_not_mem hxe]
        have hx' : x ∈ n.body.vars := by
          simp only [scanEntry, List.mem_append] at hx
          rcases hx with h | h | h
          · exact h
          · exact absurd h hxe
          · exact absurd h hxi
        exact (define_of_values hs.vars hx').symm
  have hdef : ∀ x ∈ scanEntry n, (define (define (fun _ => none) (n.captures.map Prod.fst) ws) (n.body.vars ++ n.body.elems) (vs ++ xs) x).isSome := by
    intro x hx
    by_cases hx' : x ∈ n.body.vars ++ n.body.elems
    · exact define_mem (by simp [hvl, hrl]) hx'
    · rw [define_not_mem hx']
      have : x ∈ n.captures.map Prod.fst := by
        simp only [scanEntry, List.mem_append] at hx
        simp only [List.mem_append, not_or] at hx'
        rcases hx with h | h | h
        · exact absurd h hx'.1
        · exact absurd h hx'.2
        · exact h
      exact define_mem hwlen this
  have hcalls := run_calls hwf.closed hag hdef
  unfold scanStep
  unfold scanBody
  simp only [run_append, hr0, hr1, Option.bind_some]
  cases hev : evalCalls (define (define (fun _ => none) (n.captures.map Prod.fst) ws) (n.body.vars ++ n.body.elems) (vs ++ xs)) n.body.calls with
  | none => rw [hev] at hcalls; dsimp only at hcalls ⊢; rw [hcalls]; rfl
  | some env' =>
  rw [hev] at hcalls
  dsimp only at hcalls ⊢
  obtain ⟨l2, hr2, hk2, hg2⟩ := hcalls
  rw [hr2]
  simp only [Option.bind_some]
  rw [← List.append_assoc, ← List.append_assoc] at hg2 ⊢
  have hL : ∀ x ∈ scanState n, x ∉ (l2 ++ l1 ++ l0).map Prod.fst := by
    intro x hx h
    simp only [List.map_append, List.mem_append] at h
    rcases h with (h | h) | h
    · exact hwf.calls_local x (hk2 x h) hx
    · exact (hinl x (hk1 x h)).1 hx
    · exact hwf.elems_local x (hk0 x h) hx
  generalize l2 ++ l1 ++ l0 = L at hg2 hL ⊢
  obtain ⟨sc, hsc⟩ := values_total (env := env') (xs := n.body.scanOuts)
    fun x hx => (hg2 x (hwf.scanOuts_closed x hx)).2
  obtain ⟨vs', hvs'⟩ := values_total (env := env') (xs := n.body.varOuts)
    fun x hx => (hg2 x (hwf.varOuts_closed x hx)).2
  rw [hsc, hvs']
  have hcolD : ∀ x ∈ callOuts n.body.calls ++ scanEntry n, x ∉ scanCollectors n := by
    intro x hx h
    rcases List.mem_append.1 hx with hx | hx
    · exact hwf.calls_local x hx (hcst x h)
    · simp only [scanEntry, List.mem_append] at hx
      rcases hx with h' | h' | h'
      · exact hdis x h' x h rfl
      · exact hwf.elems_local x h' (hcst x h)
      · exact (hinl x h').1 (hcst x h)
  -- updates
  have hvs1 : values (getVal (L ++ e)) n.body.varOuts = some vs' := by
    rw [← hvs']
    exact values_congr fun x hx => (hg2 x (hwf.varOuts_closed x hx)).1
  obtain ⟨b1, hru, hbl1, hvals, hou⟩ := run_updates (l := L) (b := e) hvnd
    (fun x hx => hL x (hvst x hx)) hwf.outs_len
    (fun x hx => by
      obtain ⟨w, hw⟩ := Option.isSome_iff_exists.1 (values_mem hs.vars hx)
      exact isSome_of_getVal hw)
    hnc.vars hvs1
  have hru' : run (scanUpdates n) (L ++ e) = some (L ++ b1) := by
    unfold scanUpdates
    rw [run_sets_filter fun p hp he => ?_]
    · exact hru
    · have hpv : p.1 ∈ n.body.vars := (List.of_mem_zip hp).1
      rw [getVal_append (hL _ (hvst _ hpv))]
      exact values_mem hs.vars hpv
  rw [hru']
  simp only [Option.bind_some]
  have hnv : ∀ x, x ∉ n.body.vars → look b1 x = look e x := fun x hx =>
    hou x fun p hp he => absurd (he ▸ (List.of_mem_zip hp).1) hx
  -- scan values
  have hsc' : values (getVal (L ++ b1)) n.body.scanOuts = some sc := by
    rw [← hsc]
    refine values_congr fun x hx => ?_
    rw [← (hg2 x (hwf.scanOuts_closed x hx)).1]
    by_cases hxL : x ∈ L.map Prod.fst
    · exact getVal_of_look (by rw [look_append_mem hxL, look_append_mem hxL])
    · rw [getVal_append hxL, getVal_append hxL]
      exact getVal_of_look (hou x fun p hp he => hnc.scans p hp (he ▸ hx))
  have hcl : (scanCollectors n).length = n.body.scanOuts.length := by simp [scanCollectors]
  obtain ⟨b2, hrp, hbl2, hgp, hop⟩ := run_pushes (l := L) (b := b1) (cs := scanCollectors n)
    (ys := n.body.scanOuts) (cols := (List.range (scanCollectors n).length).map fun k => column rows k) (sc := sc)
    hcnd (fun x hx => hL x (hcst x hx))
    (fun x hx h => hcolD x (hwf.scanOuts_closed x h) hx) (by simp) hcl.symm
    (fun k x hx => by
      rw [hnv x (fun h => hdis x h x (List.mem_of_getElem? hx) rfl), hs.cols k x hx]
      have : k < (scanCollectors n).length := (List.getElem?_eq_some_iff.1 hx).1
      simp [this])
    hsc'
  have hrp' : run (scanPushes n) (L ++ b1) = some (L ++ b2) := hrp
  refine ⟨_, hrp', values_length hsc, ?_⟩
  have hdrop : (L ++ b2).drop ((L ++ b2).length - e.length) = b2 := by
    rw [List.length_append, hbl2, hbl1, Nat.add_sub_cancel, List.drop_left]
  rw [hdrop]
  refine ⟨?_, ?_, ?_⟩
  · rw [← hvals]
    refine values_congr fun x hx => ?_
    rw [getVal_append (hL x (hvst x hx))]
    exact getVal_of_look (hop x fun h => hdis x hx x h rfl)
  · intro k x hx
    have hkl : k < (scanCollectors n).length := (List.getElem?_eq_some_iff.1 hx).1
    rw [hgp k x hx, column_append]
    have hks : k < sc.length := by rw [values_length hsc, ← hcl]; exact hkl
    simp [hkl, hks]
  · intro x hx
    have hx' := hx
    simp only [scanState, List.mem_append, not_or] at hx'
    rw [hop x hx'.2, hnv x hx'.1, hs.outer x hx]

theorem values_define_self {env : String → Option (Tensor α)} {xs : List String} {vs : List (Tensor α)} (hnd : xs.Nodup)
    (hl : vs.length = xs.length) : values (define env xs vs) xs = some vs := by
  induction xs generalizing vs with
  | nil =>
    cases vs with
    | nil => rfl
    | cons _ _ => simp at hl
  | cons y ys ih =>
    cases vs with
    | nil => simp at hl
    | cons v vs =>
      rw [List.nodup_cons] at hnd
      have : values (define env (y :: ys) (v :: vs)) ys = values (define env ys vs) ys :=
        values_congr fun x hx => by
          show (if x = y then _ else _) = _
          rw [if_neg (fun h : x = y => hnd.1 (by rw [← h]; exact hx))]
      simp only [values, this, ih hnd.2 (by simpa using hl)]
      simp [define]

theorem scan_init {n : ScanNode α} (hwf : WellFormedScan n) {e : Store (Tensor α)} {vs : List (Tensor α)}
    (hinit : values (getVal e) n.inits = some vs) : ∃ e1, run (scanInit n) e = some e1 ∧ ScanState n e e1 vs [] := by
  have hnd := hwf.state_nodup
  simp only [scanState, List.nodup_append] at hnd
  obtain ⟨hvnd, _, hdis⟩ := hnd
  have hfst : (n.body.vars.zip n.inits).map Prod.fst = n.body.vars := List.map_fst_zip (by rw [hwf.inits_len])
  have hsnd : (n.body.vars.zip n.inits).map Prod.snd = n.inits := List.map_snd_zip (by rw [hwf.inits_len])
  have hout : ∀ x ∈ n.inits, x ∉ n.body.vars := fun x hx h => hwf.inits_outer x hx (List.mem_append_left _ h)
  obtain ⟨l1, hr1, hk1, hg1⟩ := run_captures (e := e) (cs := n.body.vars.zip n.inits) (ws := vs) (by rw [hfst]; exact hvnd)
    (by
      refine List.Pairwise.imp_of_mem (R := fun _ _ => True) ?_ (List.pairwise_of_forall fun _ _ => trivial)
      intro p q hp hq _ h
      exact hout _ (List.of_mem_zip hq).2 (h ▸ (List.of_mem_zip hp).1))
    (by rw [hsnd]; exact hinit)
  rw [hfst] at hk1 hg1
  obtain ⟨l2, hr2, hk2, hg2⟩ := run_newVecs (scanCollectors n) (l1 ++ e)
  refine ⟨l2 ++ (l1 ++ e), by simp only [scanInit, run_append, hr1, Option.bind_some, hr2], ?_, ?_, ?_⟩
  · rw [← values_define_self (env := getVal e) hvnd ((values_length hinit).trans hwf.inits_len)]
    refine values_congr fun x hx => ?_
    rw [getVal_append fun h => hdis x hx x (hk2 x h) rfl, hg1 x]
  · intro k x hx
    exact hg2 x (List.mem_of_getElem? hx)
  · intro x hx
    simp only [scanState, List.mem_append, not_or] at hx
    rw [look_append fun h => hx.2 (hk2 x h), look_append fun h => hx.1 (hk1 x h)]

theorem scan_loop {n : ScanNode α} (hwf : WellFormedScan n) (hnc : ScanNoClobber n) {e0 : Store (Tensor α)} {ts ws : List (Tensor α)}
    {len : Nat} (hts : values (getVal e0) n.seqs = some ts) (hok : SequencesOk n.attrs len ts)
    (hcap : values (getVal e0) (n.captures.map Prod.snd) = some ws) (k : Nat) :
    ∀ {i : Nat} {e : Store (Tensor α)} {vs : List (Tensor α)} {done : List (List (Tensor α))}, i + k = len → ScanState n e0 e vs done →
    match scanFold (scanStep n.body (define (fun _ => none) (n.captures.map Prod.fst) ws)) ((List.range' i k).map (scanRow n.attrs ts len)) vs with
    | none => forRun (scanBody n len) k i e = none
    | some (vs', rows) => ∃ e1, forRun (scanBody n len) k i e = some e1 ∧ ScanState n e0 e1 vs' (done ++ rows) ∧ rows.length = k ∧
        ∀ sc ∈ rows, sc.length = n.body.scanOuts.length := by
  induction k with
  | zero =>
    intro i e vs done _ hs
    simp only [List.range'_zero, List.map_nil, scanFold, forRun]
    exact ⟨e, rfl, by rw [List.append_nil]; exact hs, rfl, by simp⟩
  | succ k ih =>
    intro i e vs done hi hs
    simp only [List.range'_succ, List.map_cons, scanFold, forRun]
    have hstep := scan_step hwf hnc hts hok (show i < len by omega) hcap hs
    cases h1 : scanStep n.body (define (fun _ => none) (n.captures.map Prod.fst) ws) vs (scanRow n.attrs ts len i) with
    | none => rw [h1] at hstep; dsimp only at hstep ⊢; rw [hstep]; rfl
    | some r =>
      obtain ⟨vs1, sc⟩ := r
      rw [h1] at hstep
      dsimp only at hstep ⊢
      obtain ⟨e1, hr, hl, hs1⟩ := hstep
      rw [hr]
      simp only [Option.bind_some]
      have := ih (i := i + 1) (by omega) hs1
      cases h2 : scanFold (scanStep n.body (define (fun _ => none) (n.captures.map Prod.fst) ws))
          ((List.range' (i + 1) k).map (scanRow n.attrs ts len)) vs1 with
      | none => rw [h2] at this; exact this
      | some q =>
        obtain ⟨vs2, rows⟩ := q
        rw [h2] at this
        obtain ⟨e2, a1, a2, a3, a4⟩ := this
        refine ⟨e2, a1, by simpa using a2, by simp [a3], ?_⟩
        intro c hc
        rcases List.mem_cons.1 hc with rfl | hc
        · exact hl
        · exact a4 c hc

theorem column_length {rows : List (List (Tensor α))} {m k : Nat} (h : ∀ sc ∈ rows, sc.length = m) (hk : k < m) :
    (column rows k).length = rows.length := by
  induction rows with
  | nil => rfl
  | cons r rows ih =>
    have hr : r.length = m := h r List.mem_cons_self
    have : r[k]? = some (r[k]'(by omega)) := List.getElem?_eq_getElem _
    have hc : column (r :: rows) k = r[k]'(by omega) :: column rows k := by simp [column, this]
    rw [hc, List.length_cons, List.length_cons, ih fun sc hsc => h sc (List.mem_cons_of_mem _ hsc)]

theorem stack_eq {a : Int} {s : List Nat} {l : List (Tensor α)} (hne : l ≠ []) (hs : ∀ t ∈ l, t.shape = s) (h0 : 0 ≤ a) (h1 : a ≤ s.length) :
    Burn.stack (scanUsize a) l = some (stackAlong (scanAxis a (s.length + 1)) s l) := by
  cases l with
  | nil => exact absurd rfl hne
  | cons t l =>
    have ht : t.shape = s := hs t List.mem_cons_self
    unfold Burn.stack
    have hu : scanUsize a = a.toNat := by unfold scanUsize; rw [if_neg (by omega)]
    dsimp only
    rw [if_pos ⟨fun u hu => (hs u hu).trans ht.symm, by rw [hu, ht]; omega⟩, scanUsize_nonneg h0 (s.length + 1), ht]

/-- C71: the generated code of a Scan whose axes are not negative and whose sequences have an axis besides the one scanned computes the
carried values and the scan outputs of ONNX, and panics exactly where the body does: for every body, every length and all directions, as long
as no assignment overwrites a value read after it. -/
theorem C71_scan_partial (n : ScanNode α) (hwf : WellFormedScan n) (hnc : ScanNoClobber n) (e : Store (Tensor α)) {vs ts ws : List (Tensor α)}
    {len : Nat} (hinit : values (getVal e) n.inits = some vs) (hts : values (getVal e) n.seqs = some ts) (hne : n.seqs ≠ [])
    (hcap : values (getVal e) (n.captures.map Prod.snd) = some ws) (hok : SequencesOk n.attrs len ts) :
    match scanFold (scanStep n.body (define (fun _ => none) (n.captures.map Prod.fst) ws)) ((List.range len).map (scanRow n.attrs ts len)) vs with
    | none => genScan n e = none
    | some (vs', rows) => ∀ shapes : Nat → List Nat,
        (∀ k < n.body.scanOuts.length, 0 < len ∧ (∀ t ∈ column rows k, t.shape = shapes k) ∧ 0 ≤ n.attrs.outAxes.getD k 0 ∧
          n.attrs.outAxes.getD k 0 ≤ (shapes k).length) →
        genScan n e = some (vs' ++ (List.range n.body.scanOuts.length).map fun k => scanOutput n.attrs k (shapes k) (column rows k)) := by
  obtain ⟨e1, hr, hs⟩ := scan_init hwf hinit
  have hlen : seqLen n e1 = some len := by
    unfold seqLen
    cases hq : n.seqs with
    | nil => exact absurd hq hne
    | cons x xs =>
      dsimp only
      have hx : x ∈ n.seqs := by rw [hq]; exact List.mem_cons_self
      rw [getVal_of_look (hs.outer x (hwf.seqs_outer x hx).1)]
      have h0 := values_get hts 0 (x := x) (by rw [hq]; rfl)
      obtain ⟨w, hw⟩ := Option.isSome_iff_exists.1 (values_mem hts hx)
      rw [hw] at h0 ⊢
      obtain ⟨_, o2, o3, o4⟩ := hok 0 w h0.symm
      simp only [Option.bind_some]
      have hu : scanUsize (n.attrs.inAxes.getD 0 0) = (n.attrs.inAxes.getD 0 0).toNat := by unfold scanUsize; rw [if_neg (by omega)]
      rw [hu, List.getElem?_eq_getElem o3]
      rw [List.getD_eq_getElem?_getD, List.getElem?_eq_getElem o3] at o4
      exact congrArg some o4
  have hloop := scan_loop hwf hnc hts hok hcap len (i := 0) (by omega) hs
  rw [← List.range_eq_range'] at hloop
  unfold genScan
  rw [hr]
  simp only [Option.bind_some, hlen]
  cases hf : scanFold (scanStep n.body (define (fun _ => none) (n.captures.map Prod.fst) ws)) ((List.range len).map (scanRow n.attrs ts len)) vs with
  | none => rw [hf] at hloop; dsimp only at hloop ⊢; rw [hloop]; rfl
  | some r =>
    obtain ⟨vs', rows⟩ := r
    rw [hf] at hloop
    dsimp only at hloop ⊢
    obtain ⟨e2, h1, h2, h3, h4⟩ := hloop
    rw [List.nil_append] at h2
    intro shapes hsh
    rw [h1]
    simp only [Option.bind_some, h2.vars]
    rw [mapM_some (g := fun k => scanOutput n.attrs k (shapes k) (column rows k))]
    · rfl
    · intro k hk
      have hk := List.mem_range.1 hk
      obtain ⟨s0, s1, s2, s3⟩ := hsh k hk
      have hcl := column_length h4 hk
      unfold scanFinal scanOutput
      rw [h2.cols k (scanCollector k) (by simp [scanCollectors, hk])]
      dsimp only
      refine stack_eq ?_ ?_ s2 s3
      · intro h
        have := congrArg List.length h
        split at this <;> simp at this <;> simp [this] at hcl <;> omega
      · intro t ht
        refine s1 t ?_
        split at ht
        · simpa using ht
        · exact ht

end

end OnnxIR
