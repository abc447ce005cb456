import Verif.Props.OwnershipSub

/-!
# C25: the general theorem for If and Loop bodies
-/

namespace OnnxIR.Sub

open Rust Gen

/-- How often the nodes of a graph access `x`, captures included, bodies not included. -/
def needs : Prog → String → Nat
  | .done, _ => 0
  | .op _ _ acc r, x => accCount acc x + needs r x
  | .ite _ _ cond b1 _ _ b2 _ _ r, x =>
    accCount cond x + ((b1.map Prod.snd).count x + ((b2.map Prod.snd).count x + needs r x))
  | .loop _ _ init _ _ cond b _ _ r, x =>
    init.count x + (accCount cond x + ((b.map Prod.snd).count x + needs r x))

theorem needs_le_supply {p : Prog} {seen after : List String} (h : Scoped p seen after) (x : String) :
    needs p x ≤ supply (nodesOf p) x := by
  induction p generalizing seen with
  | done => simp [needs]
  | op ins outs acc r ih =>
    have := h.2.1 x
    have := ih h.2.2.2
    simp only [needs, nodesOf, supply]; omega
  | ite ins outs cond b1 p1 r1 b2 p2 r2 r _ _ ih =>
    have := h.2.2.1 x
    have := ih h.2.2.2.2.2
    simp only [needs, nodesOf, supply]; omega
  | loop ins outs init vars gd cond b body rets r _ ih =>
    have := h.2.2.2.1 x
    have := ih h.2.2.2.2.2.2.2
    simp only [needs, nodesOf, supply]; omega

theorem supply_taken {p : Prog} {x : String} : supply (nodesOf p) x = (taken p).count x := by
  induction p with
  | done => rfl
  | op ins outs acc r ih => simp [nodesOf, supply, taken, ih]
  | ite ins outs cond b1 p1 r1 b2 p2 r2 r _ _ ih => simp [nodesOf, supply, taken, ih]
  | loop ins outs init vars gd cond b body rets r _ ih => simp [nodesOf, supply, taken, ih]

theorem needs_zero {p : Prog} {seen after : List String} (h : Scoped p seen after) {x : String}
    (hx : x ∉ taken p) : needs p x = 0 := by
  have := needs_le_supply h x
  rw [supply_taken, List.count_eq_zero.2 hx] at this
  omega

theorem nodup_level {p : Prog} (h : (introduced p).Nodup) :
    (level p).Nodup ∧ ∀ x ∈ level p, x ∉ hidden p := by
  induction p with
  | done => simp [level]
  | op ins outs acc r ih =>
    obtain ⟨h1, h2, h3⟩ := List.nodup_append.1 h
    obtain ⟨i1, i2⟩ := ih h2
    refine ⟨List.nodup_append.2 ⟨h1, i1, fun a ha b hb => h3 a ha b (mem_introduced.2 (Or.inl hb))⟩, ?_⟩
    intro x hx hh
    rcases List.mem_append.1 hx with hx | hx
    · exact h3 x hx x (mem_introduced.2 (Or.inr hh)) rfl
    · exact i2 x hx hh
  | ite ins outs cond b1 p1 r1 b2 p2 r2 r _ _ ih =>
    obtain ⟨h1, h2, h3⟩ := List.nodup_append.1 h
    obtain ⟨-, h5, h6⟩ := List.nodup_append.1 h2
    obtain ⟨-, h7, h8⟩ := List.nodup_append.1 h5
    obtain ⟨i1, i2⟩ := ih h7
    refine ⟨List.nodup_append.2 ⟨h1, i1, fun a ha b hb => h3 a ha b ?_⟩, ?_⟩
    · exact List.mem_append_right _ (List.mem_append_right _ (mem_introduced.2 (Or.inl hb)))
    · intro x hx hh
      simp only [hidden] at hh
      rcases List.mem_append.1 hx with hx | hx
      · refine h3 x hx x ?_ rfl
        rcases List.mem_append.1 hh with hh | hh
        · exact List.mem_append_left _ hh
        · refine List.mem_append_right _ ?_
          rcases List.mem_append.1 hh with hh | hh
          · exact List.mem_append_left _ hh
          · exact List.mem_append_right _ (mem_introduced.2 (Or.inr hh))
      · have hxr : x ∈ introduced r := mem_introduced.2 (Or.inl hx)
        rcases List.mem_append.1 hh with hh | hh
        · exact h6 x hh x (List.mem_append_right _ hxr) rfl
        · rcases List.mem_append.1 hh with hh | hh
          · exact h8 x hh x hxr rfl
          · exact i2 x hx hh
  | loop ins outs init vars gd cond b body rets r _ ih =>
    obtain ⟨h1, h2, h3⟩ := List.nodup_append.1 h
    obtain ⟨-, h7, h8⟩ := List.nodup_append.1 h2
    obtain ⟨i1, i2⟩ := ih h7
    refine ⟨List.nodup_append.2 ⟨h1, i1, fun a ha b hb => h3 a ha b ?_⟩, ?_⟩
    · exact List.mem_append_right _ (mem_introduced.2 (Or.inl hb))
    · intro x hx hh
      simp only [hidden] at hh
      rcases List.mem_append.1 hx with hx | hx
      · refine h3 x hx x ?_ rfl
        rcases List.mem_append.1 hh with hh | hh
        · exact List.mem_append_left _ hh
        · exact List.mem_append_right _ (mem_introduced.2 (Or.inr hh))
      · rcases List.mem_append.1 hh with hh | hh
        · exact h8 x hh x (mem_introduced.2 (Or.inl hx)) rfl
        · exact i2 x hx hh

/-! ## Captures -/

theorem bindings_ok {b : List (String × String)} {P : Nat} {s : Scope} {e : Env} {K : String → Nat}
    (h : ∀ x, 0 < (b.map Prod.snd).count x →
      (∃ v, s x = some v ∧ v.pos ≤ P ∧ (b.map Prod.snd).count x + K x ≤ v.refs) ∧ live x e = true) :
    (∀ c, check ((genBindings P s b).2 c) e = check c ((b.map Prod.fst).reverse.map (·, true) ++ e)) ∧
    (∀ x, 0 < (b.map Prod.snd).count x →
      ∃ v, (genBindings P s b).1 x = some v ∧ v.pos ≤ P ∧ K x ≤ v.refs) := by
  induction b generalizing s e with
  | nil => exact ⟨fun c => rfl, fun x hx => by simp at hx⟩
  | cons q b ih =>
    have hc : ∀ x, ((q :: b).map Prod.snd).count x =
        (b.map Prod.snd).count x + if q.2 = x then 1 else 0 := by
      intro x; simp [List.count_cons]
    obtain ⟨⟨v, hv, hp, hr⟩, hl⟩ := h q.2 (by rw [hc]; simp)
    rw [hc, if_pos rfl] at hr
    have huse : (useOwned s q.2 P).1 = s.upd q.2 ⟨v.refs - 1, v.pos⟩ := by
      unfold useOwned
      rw [hv]
      simp only
      rw [if_pos ⟨hp, by omega⟩]
    have hstep : ∀ x, 0 < (b.map Prod.snd).count x →
        (∃ v, (useOwned s q.2 P).1 x = some v ∧ v.pos ≤ P ∧ (b.map Prod.snd).count x + K x ≤ v.refs) ∧
          live x ((q.1, true) :: e) = true := by
      intro x hx
      obtain ⟨⟨w, hw, wp, wr⟩, wl⟩ := h x (by rw [hc]; omega)
      refine ⟨?_, ?_⟩
      · by_cases hq : x = q.2
        · subst hq
          exact ⟨⟨v.refs - 1, v.pos⟩, by rw [huse]; exact upd_same .., hp, by simp only; omega⟩
        · refine ⟨w, (use_frame hq).trans hw, wp, ?_⟩
          rw [hc, if_neg (Ne.symm hq)] at wr
          omega
      · simp only [live]
        split
        · rfl
        · exact wl
    obtain ⟨i1, i2⟩ := ih hstep
    refine ⟨fun c => ?_, fun x hx => ?_⟩
    · show check (.clone q.2 (.bind q.1 ((genBindings P (useOwned s q.2 P).1 b).2 c))) e = _
      simp only [check]
      rw [if_pos hl, i1]
      simp
    · show ∃ v, (genBindings P (useOwned s q.2 P).1 b).1 x = some v ∧ _
      by_cases hx0 : 0 < (b.map Prod.snd).count x
      · exact i2 x hx0
      · have hq : q.2 = x := by
          by_cases he : q.2 = x
          · exact he
          · rw [hc, if_neg he] at hx; omega
        subst hq
        have hb : q.2 ∉ b.map Prod.snd := List.count_eq_zero.1 (by omega)
        refine ⟨⟨v.refs - 1, v.pos⟩, (bindings_frame hb).trans (by rw [huse]; exact upd_same ..), hp, ?_⟩
        simp only; omega

/-- What holds of a name: the counter covers the accesses to come (`n`) and those reserved for the
enclosing graph (`k`), and the variable owns its value if there are accesses to come (`m` counts those
the scope does not know of). -/
def Cov (s : Scope) (e : Env) (q : Nat) (x : String) (n k m : Nat) : Prop :=
  (0 < n + k → ∃ v, s x = some v ∧ v.pos ≤ q ∧ n + k ≤ v.refs) ∧ (0 < n + m → live x e = true)

/-- The code of a graph is accepted and keeps what follows covered. -/
def Good (p : Prog) : Prop :=
  ∀ (seen after : List String) (pos : Nat) (s : Scope) (e : Env) (k m : String → Nat),
    Scoped p seen after → (introduced p).Nodup → (∀ x ∈ seen, x ∉ introduced p) →
    (∀ x, x ∉ seen → k x = 0) → (∀ x, 0 < needs p x → m x = 0) →
    (∀ x ∈ seen, Cov s e (pos + skip (nodesOf p) x) x (needs p x + after.count x) (k x) (m x)) →
    (∀ x ∈ level p, ∃ v, s x = some v ∧ v.pos ≤ pos + defPos (nodesOf p) x ∧
      needs p x + after.count x ≤ v.refs) →
    (∀ x ∈ hidden p, s x = none) →
    ∃ e', (∀ c, check ((genProg p pos s).2 ++ c) e = check c e') ∧
      ∀ x, x ∈ seen ∨ x ∈ level p →
        (0 < after.count x + k x → ∃ v, (genProg p pos s).1 x = some v ∧ after.count x + k x ≤ v.refs) ∧
        (0 < after.count x + m x → live x e' = true)

/-- One body: its captures, its registration and its code. -/
theorem body_ok {q : Prog} (hq : Good q) {seen vars rets : List String} {b : List (String × String)}
    {P : Nat} {s : Scope} {e : Env} {K : String → Nat} (hw : Scoped q (vars ++ b.map Prod.fst) rets)
    (hr : ∀ x ∈ rets, x ∈ vars ++ b.map Prod.fst ∨ x ∈ level q)
    (hn : (vars ++ (renamed b ++ introduced q)).Nodup)
    (hseen : ∀ x ∈ vars ++ (renamed b ++ introduced q), x ∉ seen)
    (hnone : ∀ x ∈ vars ++ (renamed b ++ introduced q), s x = none)
    (hK : ∀ x, x ∉ seen → K x = 0) (hout : ∀ x ∈ b.map Prod.snd, x ∈ seen)
    (hcap : ∀ x, 0 < (b.map Prod.snd).count x →
      (∃ v, s x = some v ∧ v.pos ≤ P ∧ (b.map Prod.snd).count x + K x ≤ v.refs) ∧ live x e = true)
    (hv : ∀ x ∈ vars, live x e = true) :
    (∃ e', (∀ c, check ((genBindings P s b).2
        ((genProg q (P + 1) (regSub vars q rets P (genBindings P s b).1)).2 ++ c)) e = check c e') ∧
      ∀ x ∈ rets, live x e' = true) ∧
    (∀ x ∈ b.map Prod.snd, ∃ v,
      (genProg q (P + 1) (regSub vars q rets P (genBindings P s b).1)).1 x = some v ∧
        v.pos ≤ P ∧ K x ≤ v.refs) ∧
    (∀ x, x ∉ b.map Prod.snd → x ∉ vars ++ (renamed b ++ introduced q) →
      (genProg q (P + 1) (regSub vars q rets P (genBindings P s b).1)).1 x = s x) := by
  obtain ⟨b1, b2⟩ := bindings_ok hcap
  generalize hs1 : (genBindings P s b).1 = s1 at *
  have hfr : ∀ x, x ∉ b.map Prod.snd → s1 x = s x := fun x hx => by rw [← hs1]; exact bindings_frame hx
  have hnone1 : ∀ x ∈ vars ++ (renamed b ++ introduced q), s1 x = none := fun x hx =>
    (hfr x fun hm => hseen x hx (hout x hm)).trans (hnone x hx)
  obtain ⟨n1, n2, n3⟩ := List.nodup_append.1 hn
  obtain ⟨-, n4, n5⟩ := List.nodup_append.1 n2
  obtain ⟨l1, l2⟩ := nodup_level n4
  have hord := ordered_of_scoped hw
  have hintro : ∀ x ∈ vars ++ b.map Prod.fst, x ∉ introduced q := by
    intro x hx hi
    rcases List.mem_append.1 hx with hx | hx
    · exact n3 x hx x (List.mem_append_right _ hi) rfl
    · rcases mem_inner hx with hx | ⟨-, hx⟩
      · exact n5 x hx x hi rfl
      · exact hseen x (List.mem_append_right _ (List.mem_append_right _ hi)) (hout x hx)
  have hlevel : ∀ x ∈ vars ++ b.map Prod.fst, x ∉ level q := fun x hx hl =>
    hintro x hx (mem_introduced.2 (Or.inl hl))
  have hdis : ∀ x ∈ vars, x ∉ b.map Prod.fst := by
    intro x hx hm
    rcases mem_inner hm with hm | ⟨-, hm⟩
    · exact n3 x hx x (List.mem_append_left _ hm) rfl
    · exact hseen x (List.mem_append_left _ hx) (hout x hm)
  obtain ⟨e', g1, g2⟩ := hq (vars ++ b.map Prod.fst) rets (P + 1) (regSub vars q rets P s1)
    ((b.map Prod.fst).reverse.map (·, true) ++ e) (fun x => if x ∈ b.map Prod.fst then K x else 0)
    (fun _ => 0) hw n4 hintro
    (fun x hx => if_neg fun hm => hx (List.mem_append_right _ hm)) (fun _ _ => rfl)
    (fun x hx => by
      have hsup := needs_le_supply hw x
      refine ⟨fun h0 => ?_, fun _ => ?_⟩
      · by_cases hxv : x ∈ vars
        · rw [if_neg (hdis x hxv)] at h0 ⊢
          refine ⟨_, regSub_var n1 hxv (hnone1 x (List.mem_append_left _ hxv)) (hlevel x hx), ?_, ?_⟩
          · simp only; omega
          · simp only; omega
        · have hxb : x ∈ b.map Prod.fst := (List.mem_append.1 hx).resolve_left hxv
          rw [if_pos hxb] at h0 ⊢
          rcases mem_inner hxb with hxr | ⟨-, hxo⟩
          · have hmem : x ∈ vars ++ (renamed b ++ introduced q) :=
              List.mem_append_right _ (List.mem_append_left _ hxr)
            have hk0 := hK x (hseen x hmem)
            rw [hk0] at h0 ⊢
            obtain ⟨v, v1, v2, v3⟩ := regSub_new (outs := rets) (P := P) hxv (hnone1 x hmem)
              (hlevel x hx) (by omega)
            exact ⟨v, v1, by omega, by omega⟩
          · obtain ⟨v, v1, v2, v3⟩ := b2 x (List.count_pos_iff.2 hxo)
            refine ⟨_, regSub_kept hxv v1 v2 (hlevel x hx), ?_, ?_⟩
            · simp only; omega
            · simp only; omega
      · by_cases hxb : x ∈ b.map Prod.fst
        · exact live_append_bound (by simpa using hxb)
        · rw [live_append_other (by simpa using hxb)]
          exact hv x ((List.mem_append.1 hx).resolve_right hxb))
    (fun x hx => by
      have hsup := needs_le_supply hw x
      have hxi : x ∈ introduced q := mem_introduced.2 (Or.inl hx)
      have hns : x ∉ vars ++ b.map Prod.fst := fun hm => hintro x hm hxi
      refine ⟨_, regSub_def hord (fun hm => hns (List.mem_append_left _ hm)) hns
        (hnone1 x (List.mem_append_right _ (List.mem_append_right _ hxi))) l1 hx, ?_, ?_⟩
      · simp only; omega
      · simp only; omega)
    (fun x hx => by
      have hxi : x ∈ introduced q := mem_introduced.2 (Or.inr hx)
      have hns : x ∉ vars ++ b.map Prod.fst := fun hm => hintro x hm hxi
      have hnl : x ∉ level q := fun hm => l2 x hm hx
      rw [regSub_frame hord (fun hm => hns (List.mem_append_left _ hm)) hns hnl
        (fun hm => (hr x hm).elim hns hnl)]
      exact hnone1 x (List.mem_append_right _ (List.mem_append_right _ hxi)))
  refine ⟨⟨e', fun c => ?_, fun x hx => ?_⟩, fun x hx => ?_, fun x hx hni => ?_⟩
  · rw [b1, g1]
  · have := List.count_pos_iff.2 hx
    exact (g2 x (hr x hx)).2 (by omega)
  · obtain ⟨v, v1, v2, v3⟩ := b2 x (List.count_pos_iff.2 hx)
    obtain ⟨u, u1, u2⟩ := keeps_regSub vars q rets P s1 x v v1
    obtain ⟨w, w1, w2⟩ := keeps_genProg q (P + 1) (regSub vars q rets P s1) x u u1
    by_cases hxb : x ∈ b.map Prod.fst
    · refine ⟨w, w1, by omega, ?_⟩
      by_cases hk0 : K x = 0
      · omega
      · have := (g2 x (Or.inl (List.mem_append_right _ hxb))).1
        rw [if_pos hxb] at this
        obtain ⟨w', h1, h2⟩ := this (by omega)
        rw [w1] at h1; cases h1
        omega
    · have hxm : x ∉ vars ++ (renamed b ++ introduced q) := fun hm => hseen x hm (hout x hx)
      simp only [List.mem_append, not_or] at hxm
      have hns : x ∉ vars ++ b.map Prod.fst := by simp only [List.mem_append, not_or]; exact ⟨hxm.1, hxb⟩
      have hnl : x ∉ level q := fun hm => hxm.2.2 (mem_introduced.2 (Or.inl hm))
      refine ⟨v, ?_, v2, v3⟩
      rw [genProg_frame hw hns hxm.2.2, regSub_frame hord hxm.1 hns hnl
        (fun hm => (hr x hm).elim hns hnl)]
      exact v1
  · simp only [List.mem_append, not_or] at hni
    have hxb : x ∉ b.map Prod.fst := fun hm => (mem_inner hm).elim hni.2.1 fun h => hx h.2
    have hns : x ∉ vars ++ b.map Prod.fst := by simp only [List.mem_append, not_or]; exact ⟨hni.1, hxb⟩
    have hnl : x ∉ level q := fun hm => hni.2.2 (mem_introduced.2 (Or.inl hm))
    rw [genProg_frame hw hns hni.2.2, regSub_frame hord hni.1 hns hnl
      (fun hm => (hr x hm).elim hns hnl)]
    exact hfr x hx

/-- The rest of the graph after one node. -/
theorem rest_ok {r : Prog} (hg : Good r) {ins outs seen after : List String} {pos : Nat} {s : Scope}
    {e : Env} {k m : String → Nat} (hw : Scoped r (outs ++ seen) after) (hn : (introduced r).Nodup)
    (hd : ∀ x ∈ outs ++ seen, x ∉ introduced r) (ho : ∀ x ∈ outs, x ∉ seen)
    (hk : ∀ x, x ∉ seen → k x = 0) (hm : ∀ x, 0 < needs r x → m x = 0)
    (hA : ∀ x ∈ seen, Cov s e (pos + skip ((ins, outs) :: nodesOf r) x) x
      (needs r x + after.count x) (k x) (m x))
    (hB : ∀ x ∈ outs ++ level r, ∃ v, s x = some v ∧
      v.pos ≤ pos + defPos ((ins, outs) :: nodesOf r) x ∧ needs r x + after.count x ≤ v.refs)
    (hC : ∀ x ∈ hidden r, s x = none) :
    ∃ e', (∀ c, check (binds outs (genProg r (pos + 1) s).2 ++ c) e = check c e') ∧
      ∀ x, x ∈ seen ∨ x ∈ outs ++ level r →
        (0 < after.count x + k x → ∃ v, (genProg r (pos + 1) s).1 x = some v ∧
          after.count x + k x ≤ v.refs) ∧
        (0 < after.count x + m x → live x e' = true) := by
  obtain ⟨e', g1, g2⟩ := hg (outs ++ seen) after (pos + 1) s ((outs.reverse.map (·, true)) ++ e) k m hw hn hd
    (fun x hx => hk x fun h => hx (List.mem_append_right _ h)) hm
    (fun x hx => by
      by_cases hxo : x ∈ outs
      · obtain ⟨v, v1, v2, v3⟩ := hB x (List.mem_append_left _ hxo)
        have hk0 := hk x (ho x hxo)
        simp only [defPos, if_pos hxo] at v2
        exact ⟨fun _ => ⟨v, v1, by omega, by omega⟩, fun _ => live_append_bound (by simpa using hxo)⟩
      · obtain ⟨c1, c2⟩ := hA x ((List.mem_append.1 hx).resolve_left hxo)
        refine ⟨fun h0 => ?_, fun h0 => ?_⟩
        · obtain ⟨v, v1, v2, v3⟩ := c1 h0
          refine ⟨v, v1, ?_, v3⟩
          simp only [skip] at v2
          split at v2 <;> omega
        · rw [live_append_other (by simpa using hxo)]
          exact c2 h0)
    (fun x hx => by
      obtain ⟨v, v1, v2, v3⟩ := hB x (List.mem_append_right _ hx)
      have hxo : x ∉ outs := fun h =>
        hd x (List.mem_append_left _ h) (mem_introduced.2 (Or.inl hx))
      simp only [defPos, if_neg hxo] at v2
      exact ⟨v, v1, by omega, v3⟩)
    hC
  refine ⟨e', fun c => ?_, fun x hx => g2 x ?_⟩
  · rw [binds_append, check_binds, g1]
  · rcases hx with hx | hx
    · exact Or.inl (List.mem_append_right _ hx)
    · rcases List.mem_append.1 hx with hx | hx
      · exact Or.inl (List.mem_append_left _ hx)
      · exact Or.inr hx

theorem good_done : Good .done := by
  intro seen after pos s e k m _ _ _ _ _ hA _ _
  refine ⟨e, fun c => rfl, fun x hx => ?_⟩
  obtain ⟨c1, c2⟩ := hA x (hx.resolve_right (by simp [level]))
  simp only [needs, Nat.zero_add] at c1 c2
  refine ⟨fun h0 => ?_, c2⟩
  obtain ⟨v, v1, -, v3⟩ := c1 h0
  exact ⟨v, v1, v3⟩

/-- Accesses through the scope, for a node that lists them among its inputs. -/
theorem accesses_cov {acc : List Access} (hraw : ∀ x, Access.raw x ∉ acc) {ins outs : List String}
    {ns : List (List String × List String)} (hin : ∀ x, 0 < accCount acc x → x ∈ ins)
    {seen : List String} (hsn : ∀ x ∈ ins, x ∈ seen)
    {pos : Nat} {s : Scope} {e : Env} {n k m : String → Nat}
    (hm : ∀ x, 0 < accCount acc x → m x = 0)
    (h : ∀ x ∈ seen, Cov s e (pos + skip ((ins, outs) :: ns) x) x (accCount acc x + n x) (k x) (m x)) :
    ∃ e', (∀ c, check ((genAccesses pos s acc).2 c) e = check c e') ∧
      (∀ x ∈ seen, Cov (genAccesses pos s acc).1 e' (pos + skip ((ins, outs) :: ns) x) x (n x) (k x) (m x)) ∧
      (∀ x, accCount acc x = 0 → (genAccesses pos s acc).1 x = s x ∧ live x e' = live x e) := by
  obtain ⟨e1, k1, k2, k3⟩ := accesses_ok (n := fun x => n x + k x) (m := m) hraw (pos := pos) (s := s)
    (e := e) hm
    (fun x hx => by
      obtain ⟨c1, c2⟩ := h x (hsn x (hin x hx))
      refine ⟨fun _ => ?_, fun _ => c2 (by omega)⟩
      obtain ⟨v, v1, v2, v3⟩ := c1 (by omega)
      simp only [skip, if_pos (hin x hx)] at v2
      exact ⟨v, v1, by omega, by omega⟩)
  refine ⟨e1, k1, fun x hx => ?_, k3⟩
  by_cases h0 : 0 < accCount acc x
  · obtain ⟨c1, c2⟩ := k2 x h0
    refine ⟨fun hh => ?_, fun hh => c2 (by omega)⟩
    obtain ⟨v, v1, v2, v3⟩ := c1 hh
    exact ⟨v, v1, by omega, v3⟩
  · obtain ⟨q1, q2⟩ := k3 x (by omega)
    have := h x hx
    rw [show accCount acc x = 0 by omega, Nat.zero_add] at this
    unfold Cov at this ⊢
    rw [q1, q2]
    exact this

theorem good_op {ins outs : List String} {acc : List Access} {r : Prog} (ih : Good r) :
    Good (.op ins outs acc r) := by
  intro seen after pos s e k m hw hn hd hk hm hA hB hC
  obtain ⟨w1, w2, w3, w4⟩ := hw
  obtain ⟨n1, n2, n3⟩ := List.nodup_append.1 hn
  have hin : ∀ x, 0 < accCount acc x → x ∈ ins := fun x hx => mem_of_access w2 hx
  obtain ⟨e1, k1, k2, k3⟩ := accesses_cov (outs := outs) (ns := nodesOf r) w3 hin w1 (pos := pos) (s := s) (e := e)
    (n := fun x => needs r x + after.count x) (k := k) (m := m)
    (fun x hx => hm x (by simp only [needs]; omega))
    (fun x hx => by have := hA x hx; simpa only [needs, nodesOf, Nat.add_assoc] using this)
  have hz : ∀ x, x ∉ seen → accCount acc x = 0 := fun x hx => by
    by_cases h0 : 0 < accCount acc x
    · exact absurd (w1 x (hin x h0)) hx
    · omega
  have hdi : ∀ x ∈ introduced (.op ins outs acc r), x ∉ seen := fun x hx hs => hd x hs hx
  obtain ⟨e', g1, g2⟩ := rest_ok ih (ins := ins) (s := (genAccesses pos s acc).1) (pos := pos) (e := e1)
    (k := k) (m := m) w4 n2
    (fun x hx hi => by
      rcases List.mem_append.1 hx with hx | hx
      · exact n3 x hx x hi rfl
      · exact hd x hx (List.mem_append_right _ hi))
    (fun x hx => hdi x (List.mem_append_left _ hx)) hk
    (fun x hx => hm x (by simp only [needs]; omega)) k2
    (fun x hx => by
      have hns : x ∉ seen := hdi x (mem_introduced.2 (Or.inl hx))
      obtain ⟨v, v1, v2, v3⟩ := hB x hx
      simp only [needs, hz x hns, Nat.zero_add] at v3
      exact ⟨v, (k3 x (hz x hns)).1.trans v1, v2, v3⟩)
    (fun x hx => (k3 x (hz x (hdi x (mem_introduced.2 (Or.inr hx))))).1.trans (hC x hx))
  refine ⟨e', fun c => ?_, g2⟩
  simp only [genProg]
  rw [accesses_append, k1, g1]

/-- One body in the state the nodes before leave: afterwards everything else is covered as before. -/
theorem body_cov {q : Prog} (hq : Good q) {seen vars rets : List String} {b : List (String × String)}
    {ins outs : List String} {ns : List (List String × List String)}
    {P : Nat} {s : Scope} {e : Env} {n k m : String → Nat} (hw : Scoped q (vars ++ b.map Prod.fst) rets)
    (hr : ∀ x ∈ rets, x ∈ vars ++ b.map Prod.fst ∨ x ∈ level q)
    (hn : (vars ++ (renamed b ++ introduced q)).Nodup)
    (hseen : ∀ x ∈ vars ++ (renamed b ++ introduced q), x ∉ seen)
    (hnone : ∀ x ∈ vars ++ (renamed b ++ introduced q), s x = none)
    (hin : ∀ x ∈ b.map Prod.snd, x ∈ ins) (hsn : ∀ x ∈ ins, x ∈ seen)
    (h : ∀ x ∈ seen, Cov s e (P + skip ((ins, outs) :: ns) x) x ((b.map Prod.snd).count x + n x) (k x) (m x))
    (hv : ∀ x ∈ vars, live x e = true) :
    (∃ e', (∀ c, check ((genBindings P s b).2
        ((genProg q (P + 1) (regSub vars q rets P (genBindings P s b).1)).2 ++ c)) e = check c e') ∧
      ∀ x ∈ rets, live x e' = true) ∧
    (∀ x ∈ seen, Cov (genProg q (P + 1) (regSub vars q rets P (genBindings P s b).1)).1 e
      (P + skip ((ins, outs) :: ns) x) x (n x) (k x) (m x)) ∧
    (∀ x, x ∉ b.map Prod.snd → x ∉ vars ++ (renamed b ++ introduced q) →
      (genProg q (P + 1) (regSub vars q rets P (genBindings P s b).1)).1 x = s x) := by
  obtain ⟨g1, g2, g3⟩ := body_ok hq (seen := seen) (K := fun x => if x ∈ seen then n x + k x else 0) (s := s)
    (e := e) (P := P) hw hr hn hseen hnone (fun x hx => if_neg hx) (fun x hx => hsn x (hin x hx))
    (fun x hx => by
      have hxi := hin x (List.count_pos_iff.1 hx)
      obtain ⟨c1, c2⟩ := h x (hsn x hxi)
      obtain ⟨v, v1, v2, v3⟩ := c1 (by omega)
      simp only [skip, if_pos hxi] at v2
      refine ⟨⟨v, v1, by omega, ?_⟩, c2 (by omega)⟩
      simp only [if_pos (hsn x hxi)]
      omega) hv
  refine ⟨g1, fun x hx => ?_, g3⟩
  obtain ⟨c1, c2⟩ := h x hx
  refine ⟨fun h0 => ?_, fun h0 => c2 (by omega)⟩
  by_cases hxb : x ∈ b.map Prod.snd
  · obtain ⟨v, v1, v2, v3⟩ := g2 x hxb
    simp only [if_pos hx] at v3
    exact ⟨v, v1, by omega, v3⟩
  · rw [g3 x hxb fun hm => hseen x hm hx]
    obtain ⟨v, v1, v2, v3⟩ := c1 (by omega)
    exact ⟨v, v1, v2, by omega⟩

/-- The code of a branch leaves the variables outside as they are. -/
theorem branch_check {q : Prog} {rets : List String} {b : List (String × String)} {P : Nat} {s s' : Scope}
    {e : Env} (hw : Scoped q (b.map Prod.fst) rets)
    (hr : ∀ x ∈ rets, x ∈ b.map Prod.fst ∨ x ∈ level q) (hrn : rets.Nodup)
    (h : ∃ e', (∀ c, check ((genBindings P s b).2 ((genProg q (P + 1) s').2 ++ c)) e = check c e') ∧
      ∀ x ∈ rets, live x e' = true) :
    ∃ ea, check ((genBindings P s b).2 ((genProg q (P + 1) s').2 ++ movesOf rets .done)) e = some ea ∧
      leave e.length ea = e := by
  obtain ⟨e', h1, h2⟩ := h
  obtain ⟨e2, j1, -⟩ := check_moves hrn h2
  have hc := (h1 (movesOf rets .done)).trans (j1 .done)
  refine ⟨e2, hc, ?_⟩
  have hloc : Local ((genBindings P s b).2 ((genProg q (P + 1) s').2 ++ movesOf rets .done)) fun _ => False := by
    refine local_bindings (local_append (local_genProg hw fun x hx => Or.inl hx)
      (local_moves (fun x hx => ?_) trivial))
    rw [bound_genProg]
    exact (hr x hx).elim (fun h => Or.inr (Or.inl h)) Or.inl
  obtain ⟨ext, loc', k1, k2, -⟩ := check_local hloc (loc := []) (e := e) (fun _ h => h.elim) hc
  cases loc' with
  | nil => rw [k1]; exact leave_append ext e
  | cons p loc' => cases k2

theorem good_ite {ins outs : List String} {cond : List Access} {b1 b2 : List (String × String)}
    {p1 p2 : Prog} {r1 r2 : List String} {r : Prog} (ih1 : Good p1) (ih2 : Good p2) (ih : Good r) :
    Good (.ite ins outs cond b1 p1 r1 b2 p2 r2 r) := by
  intro seen after pos s e k m hw hn hd hk hm hA hB hC
  obtain ⟨w1, w2, w3, ⟨w4, w4n, w5⟩, ⟨w6, w6n, w7⟩, w8⟩ := hw
  obtain ⟨n1, n2, n3⟩ := List.nodup_append.1 hn
  obtain ⟨m1, m2, m3⟩ := List.nodup_append.1 n2
  obtain ⟨m4, m5, m6⟩ := List.nodup_append.1 m2
  have hin : ∀ x, 0 < accCount cond x + ((b1.map Prod.snd).count x + (b2.map Prod.snd).count x) →
      x ∈ ins := fun x hx => List.count_pos_iff.1 (by have := w3 x; omega)
  have hdi : ∀ x ∈ introduced (.ite ins outs cond b1 p1 r1 b2 p2 r2 r), x ∉ seen :=
    fun x hx hs => hd x hs hx
  have hz : ∀ x, x ∉ seen → accCount cond x = 0 ∧ (b1.map Prod.snd).count x = 0 ∧
      (b2.map Prod.snd).count x = 0 := fun x hx => by
    by_cases h0 : 0 < accCount cond x + ((b1.map Prod.snd).count x + (b2.map Prod.snd).count x)
    · exact absurd (w1 x (hin x h0)) hx
    · omega
  have hsub1 : ∀ x ∈ renamed b1 ++ introduced p1, x ∈ introduced (.ite ins outs cond b1 p1 r1 b2 p2 r2 r) :=
    fun x hx => List.mem_append_right _ (List.mem_append_left _ hx)
  have hsub2 : ∀ x ∈ renamed b2 ++ introduced p2, x ∈ introduced (.ite ins outs cond b1 p1 r1 b2 p2 r2 r) :=
    fun x hx => List.mem_append_right _ (List.mem_append_right _ (List.mem_append_left _ hx))
  -- the condition
  obtain ⟨e1, a1, a2, a3⟩ := accesses_cov (outs := outs) (ns := nodesOf r) w2 (fun x hx => hin x (by omega)) w1
    (pos := pos) (s := s) (e := e)
    (n := fun x => (b1.map Prod.snd).count x + ((b2.map Prod.snd).count x + (needs r x + after.count x)))
    (k := k) (m := m)
    (fun x hx => hm x (by simp only [needs]; omega))
    (fun x hx => by have := hA x hx; simpa only [needs, nodesOf, Nat.add_assoc] using this)
  -- the branches
  obtain ⟨c1, c2, c3⟩ := body_cov ih1 (vars := []) (outs := outs) (ns := nodesOf r)
    (s := (genAccesses pos s cond).1) (e := e1) (P := pos)
    (n := fun x => (b2.map Prod.snd).count x + (needs r x + after.count x)) (k := k) (m := m)
    w4 w5 m1 (fun x hx => hdi x (hsub1 x hx))
    (fun x hx => (a3 x (hz x (hdi x (hsub1 x hx))).1).1.trans (hC x (List.mem_append_left _ hx)))
    (fun x hx => hin x (by have := List.count_pos_iff.2 hx; omega)) w1 a2 (by simp)
  have hframe1 : ∀ x, x ∉ seen → x ∉ renamed b1 ++ introduced p1 →
      (genProg p1 (pos + 1) (regSub [] p1 r1 pos (genBindings pos (genAccesses pos s cond).1 b1).1)).1 x = s x :=
    fun x hx hx1 => (c3 x (List.count_eq_zero.1 (hz x hx).2.1) hx1).trans (a3 x (hz x hx).1).1
  generalize hs3 : (genProg p1 (pos + 1)
    (regSub [] p1 r1 pos (genBindings pos (genAccesses pos s cond).1 b1).1)).1 = s3 at c2 c3 hframe1
  obtain ⟨d1, d2, d3⟩ := body_cov ih2 (vars := []) (outs := outs) (ns := nodesOf r)
    (s := s3) (e := e1) (P := pos)
    (n := fun x => needs r x + after.count x) (k := k) (m := m)
    w6 w7 m4 (fun x hx => hdi x (hsub2 x hx))
    (fun x hx => (hframe1 x (hdi x (hsub2 x hx)) (fun h => m3 x h x (List.mem_append_left _ hx) rfl)).trans
      (hC x (List.mem_append_right _ (List.mem_append_left _ hx))))
    (fun x hx => hin x (by have := List.count_pos_iff.2 hx; omega)) w1 c2 (by simp)
  have hframe2 : ∀ x, x ∉ seen → x ∉ renamed b1 ++ introduced p1 → x ∉ renamed b2 ++ introduced p2 →
      (genProg p2 (pos + 1) (regSub [] p2 r2 pos (genBindings pos s3 b2).1)).1 x = s x :=
    fun x hx hx1 hx2 => (d3 x (List.count_eq_zero.1 (hz x hx).2.2) hx2).trans (hframe1 x hx hx1)
  generalize hs5 : (genProg p2 (pos + 1) (regSub [] p2 r2 pos (genBindings pos s3 b2).1)).1 = s5
    at d2 d3 hframe2
  -- the rest
  have hout : ∀ x ∈ outs ++ introduced r, x ∉ renamed b1 ++ introduced p1 ∧ x ∉ renamed b2 ++ introduced p2 := by
    intro x hx
    rcases List.mem_append.1 hx with hx | hx
    · exact ⟨fun h => n3 x hx x (List.mem_append_left _ h) rfl,
        fun h => n3 x hx x (List.mem_append_right _ (List.mem_append_left _ h)) rfl⟩
    · exact ⟨fun h => m3 x h x (List.mem_append_right _ hx) rfl, fun h => m6 x h x hx rfl⟩
  have hrin : ∀ x ∈ introduced r, x ∈ introduced (.ite ins outs cond b1 p1 r1 b2 p2 r2 r) := fun x hx =>
    List.mem_append_right _ (List.mem_append_right _ (List.mem_append_right _ hx))
  obtain ⟨e', g1, g2⟩ := rest_ok ih (ins := ins) (s := s5) (pos := pos) (e := e1)
    (k := k) (m := m) w8 m5
    (fun x hx hi => by
      rcases List.mem_append.1 hx with hx | hx
      · exact n3 x hx x (List.mem_append_right _ (List.mem_append_right _ hi)) rfl
      · exact hd x hx (hrin x hi))
    (fun x hx => hdi x (List.mem_append_left _ hx)) hk
    (fun x hx => hm x (by simp only [needs]; omega)) d2
    (fun x hx => by
      have hns : x ∉ seen := hdi x (mem_introduced.2 (Or.inl hx))
      obtain ⟨v, v1, v2, v3⟩ := hB x hx
      have hz' := hz x hns
      simp only [needs, hz'.1, hz'.2.1, hz'.2.2, Nat.zero_add] at v3
      have ho := hout x ((List.mem_append.1 hx).elim (List.mem_append_left _) fun h =>
        List.mem_append_right _ (mem_introduced.2 (Or.inl h)))
      exact ⟨v, (hframe2 x hns ho.1 ho.2).trans v1, v2, v3⟩)
    (fun x hx => by
      have hxr : x ∈ introduced r := mem_introduced.2 (Or.inr hx)
      have ho := hout x (List.mem_append_right _ hxr)
      exact (hframe2 x (hdi x (hrin x hxr)) ho.1 ho.2).trans
        (hC x (List.mem_append_right _ (List.mem_append_right _ hx))))
  refine ⟨e', fun c => ?_, ?_⟩
  · obtain ⟨ea, t1, t2⟩ := branch_check w4 w5 w4n c1
    obtain ⟨eb, t3, t4⟩ := branch_check w6 w7 w6n d1
    simp only [genProg]
    rw [accesses_append, a1, hs3, hs5]
    show check (.ite _ _ (_ ++ c)) e1 = _
    simp only [check]
    rw [t1, t3]
    simp only
    rw [t2, t4, join_self]
    exact g1 c
  · simp only [genProg]
    rw [hs3, hs5]
    exact g2

/-! ## Loops -/

theorem mark_skip {x : String} {v : Bool} {a e : Env} (h : x ∉ names a) :
    mark x v (a ++ e) = a ++ mark x v e := by
  induction a with
  | nil => rfl
  | cons p a ih =>
    obtain ⟨y, b⟩ := p
    simp only [names, List.map_cons, List.mem_cons, not_or] at h
    simp only [List.cons_append, mark, if_neg (Ne.symm h.1), ih h.2]

theorem inits_ok {xs vs : List String} (hn : xs.Nodup) (hl : xs.length = vs.length)
    {loc e : Env} (hv : ∀ x ∈ xs, x ∉ names loc ∧ x ∉ vs) (h : ∀ x ∈ xs, live x e = true) :
    ∃ e2, names e2 = names e ∧ (∀ x, x ∉ xs → live x e2 = live x e) ∧
      ∀ c, check (genInits xs vs c) (loc ++ e) = check c (vs.reverse.map (·, true) ++ (loc ++ e2)) := by
  induction xs generalizing vs loc e with
  | nil =>
    cases vs with
    | nil => exact ⟨e, rfl, fun _ _ => rfl, fun c => rfl⟩
    | cons v vs => simp at hl
  | cons x xs ih =>
    cases vs with
    | nil => simp at hl
    | cons v vs =>
      obtain ⟨n1, n2⟩ := List.nodup_cons.1 hn
      have hne : ∀ y ∈ xs, y ≠ x := fun y hy he => by subst he; exact n1 hy
      obtain ⟨e2, k1, k2, k3⟩ := ih n2 (by simpa using hl) (loc := (v, true) :: loc) (e := mark x false e)
        (fun y hy => by
          obtain ⟨q1, q2⟩ := hv y (by simp [hy])
          simp only [List.mem_cons, not_or] at q2
          refine ⟨?_, q2.2⟩
          simp only [names, List.map_cons, List.mem_cons, not_or]
          exact ⟨q2.1, q1⟩)
        (fun y hy => by rw [live_mark_other e (hne y hy)]; exact h y (by simp [hy]))
      refine ⟨e2, k1.trans (names_mark ..), fun y hy => ?_, fun c => ?_⟩
      · simp only [List.mem_cons, not_or] at hy
        rw [k2 y hy.2, live_mark_other e hy.1]
      · obtain ⟨q1, -⟩ := hv x (by simp)
        simp only [genInits, check]
        rw [if_pos (by rw [live_skip q1]; exact h x (by simp)), mark_skip q1]
        show check _ (((v, true) :: loc) ++ mark x false e) = _
        rw [k3]
        simp

theorem live_mark_true {x : String} {e : Env} (h : x ∈ names e) : live x (mark x true e) = true := by
  induction e with
  | nil => cases h
  | cons p e ih =>
    obtain ⟨y, b⟩ := p
    simp only [mark]
    split
    · rename_i hy; simp [live, hy]
    · rename_i hy
      simp only [live, if_neg hy]
      exact ih ((List.mem_cons.1 h).resolve_left (Ne.symm hy))

theorem updates_ok {vs os : List String} (hn : vs.Nodup) (ho : os.Nodup) (hl : os.length = vs.length)
    (hz : ∀ q ∈ vs.zip os, q.2 = q.1 ∨ q.2 ∉ vs) {e : Env} (hv : ∀ x ∈ vs, x ∈ names e)
    (h : ∀ x ∈ os, live x e = true) :
    ∃ e', check (genUpdates vs os .done) e = some e' ∧ (∀ x ∈ vs, live x e' = true) ∧
      ∀ x, x ∉ vs → x ∉ os → live x e' = live x e := by
  induction vs generalizing os e with
  | nil =>
    cases os with
    | nil => exact ⟨e, rfl, by simp, fun _ _ _ => rfl⟩
    | cons o os => simp at hl
  | cons v vs ih =>
    cases os with
    | nil => simp at hl
    | cons o os =>
      obtain ⟨n1, n2⟩ := List.nodup_cons.1 hn
      obtain ⟨o1, o2⟩ := List.nodup_cons.1 ho
      simp only [List.length_cons, Nat.add_right_cancel_iff] at hl
      have hz' : ∀ q ∈ vs.zip os, q.2 = q.1 ∨ q.2 ∉ vs := fun q hq =>
        (hz q (by simp [hq])).imp_right fun h hm => h (by simp [hm])
      have hvo : v ∉ os := by
        intro hm
        obtain ⟨i, hi, rfl⟩ := List.mem_iff_getElem.1 hm
        have hi' : i < vs.length := by omega
        have hmem : (vs[i], os[i]) ∈ vs.zip os := by
          rw [List.mem_iff_getElem]
          exact ⟨i, by simp; omega, by simp⟩
        rcases hz (vs[i], os[i]) (by simp [hmem]) with h1 | h1
        · simp only at h1
          exact n1 (by rw [h1]; exact List.getElem_mem hi')
        · exact h1 (by simp)
      by_cases hvo' : v = o
      · subst hvo'
        obtain ⟨e', k1, k2, k3⟩ := ih n2 o2 hl hz' (e := e) (fun x hx => hv x (by simp [hx]))
          (fun x hx => h x (by simp [hx]))
        refine ⟨e', by simpa [genUpdates] using k1, fun x hx => ?_, fun x hx hxo => ?_⟩
        · rcases List.mem_cons.1 hx with rfl | hx
          · rw [k3 x n1 o1]; exact h x (by simp)
          · exact k2 x hx
        · simp only [List.mem_cons, not_or] at hx hxo
          exact k3 x hx.2 hxo.2
      · have hone : ∀ x ∈ os, x ≠ o := fun x hx he => by subst he; exact o1 hx
        have hvne : ∀ x ∈ os, x ≠ v := fun x hx he => by subst he; exact hvo hx
        obtain ⟨e', k1, k2, k3⟩ := ih n2 o2 hl hz' (e := mark v true (mark o false e))
          (fun x hx => by rw [names_mark, names_mark]; exact hv x (by simp [hx]))
          (fun x hx => by
            rw [live_mark_other _ (hvne x hx), live_mark_other _ (hone x hx)]
            exact h x (by simp [hx]))
        refine ⟨e', ?_, fun x hx => ?_, fun x hx hxo => ?_⟩
        · simp only [genUpdates, if_neg hvo', check]
          rw [if_pos (h o (by simp))]
          exact k1
        · rcases List.mem_cons.1 hx with rfl | hx
          · rw [k3 x n1 hvo]
            exact live_mark_true (by rw [names_mark]; exact hv x (by simp))
          · exact k2 x hx
        · simp only [List.mem_cons, not_or] at hx hxo
          rw [k3 x hx.2 hxo.2, live_mark_other _ hx.1, live_mark_other _ hxo.1]

theorem names_true (vs : List String) : names (vs.map (·, true)) = vs := by
  induction vs with
  | nil => rfl
  | cons v vs ih => exact congrArg (v :: ·) ih

theorem split_names {a : Env} {xs ys : List String} (h : names a = xs ++ ys) :
    ∃ b c, a = b ++ c ∧ names b = xs ∧ names c = ys := by
  obtain ⟨b, c, h1, h2, h3⟩ := List.map_eq_append_iff.1 h
  exact ⟨b, c, h1, h2, h3⟩

/-- The loop of a Loop node: whatever the number of rounds, the variables own their values after each,
and the variables outside are as before. -/
theorem loop_check {q : Prog} {vars rets : List String} {b : List (String × String)} {P : Nat} {s s' : Scope}
    {e4 : Env} (hw : Scoped q (vars ++ b.map Prod.fst) rets)
    (hr : ∀ x ∈ rets, x ∈ vars ++ b.map Prod.fst ∨ x ∈ level q) (hrn : rets.Nodup)
    (hlen : rets.length = vars.length) (hz : ∀ p ∈ vars.zip rets, p.2 = p.1 ∨ p.2 ∉ vars)
    (hvn : vars.Nodup) (hvb : ∀ x ∈ vars, x ∉ b.map Prod.fst ∧ x ∉ level q)
    (h : ∃ e', (∀ c, check ((genBindings P s b).2 ((genProg q (P + 1) s').2 ++ c))
        (vars.reverse.map (·, true) ++ e4) = check c e') ∧ ∀ x ∈ rets, live x e' = true) :
    ∃ ea, check (.loop ((genBindings P s b).2 ((genProg q (P + 1) s').2 ++ genUpdates vars rets .done))
        (movesOf vars .done)) (vars.reverse.map (·, true) ++ e4) = some ea ∧
      leave e4.length ea = e4 := by
  obtain ⟨e', h1, h2⟩ := h
  have hV : names (vars.reverse.map (·, true)) = vars.reverse := names_true _
  have hnames' : ∀ x ∈ vars, x ∈ names e' := by
    intro x hx
    obtain ⟨ext, e1, k1, k2, -⟩ := check_names (h1 .done)
    rw [k1]
    simp only [names, List.map_append, List.mem_append]
    refine Or.inr ?_
    show x ∈ names e1
    rw [k2]
    simp only [names, List.map_append, List.mem_append]
    exact Or.inl (by show x ∈ names _; rw [hV]; simpa using hx)
  obtain ⟨e2, u1, u2, -⟩ := updates_ok hvn hrn hlen hz hnames' h2
  have hbody := (h1 (genUpdates vars rets .done)).trans u1
  have hloc : Local ((genBindings P s b).2 ((genProg q (P + 1) s').2 ++ genUpdates vars rets .done))
      (· ∈ vars) := by
    refine local_bindings (local_append (local_genProg hw fun x hx => ?_)
      (local_updates (fun x hx => ?_) (fun x hx => ?_)))
    · exact (List.mem_append.1 hx).elim Or.inr Or.inl
    · exact Or.inr (Or.inr hx)
    · rw [bound_genProg]
      rcases hr x hx with h | h
      · exact Or.inr ((List.mem_append.1 h).elim Or.inr Or.inl)
      · exact Or.inl h
  obtain ⟨ext, loc', k1, k2, k3⟩ := check_local hloc (fun x hx => Or.inl (by rw [hV]; simpa using hx)) hbody
  have hloc' : loc' = vars.reverse.map (·, true) := by
    refine all_live (e := e4) (List.pairwise_reverse.2 (hvn.imp Ne.symm)) (k2.trans hV) fun x hx => ?_
    have hx' : x ∈ vars := by simpa using hx
    have := u2 x hx'
    rw [k1, live_skip] at this
    · exact this
    · intro hm
      have := k3 x hm
      rw [bound_bindings, bound_append, bound_genProg, bound_updates] at this
      obtain ⟨q1, q2⟩ := hvb x hx'
      simp only [List.append_nil, List.mem_append] at this
      exact this.elim q1 q2
  subst hloc'
  have hleave : leave (vars.reverse.map (·, true) ++ e4).length e2 = vars.reverse.map (·, true) ++ e4 := by
    rw [k1]; exact leave_append ext _
  obtain ⟨e6, j1, -⟩ := check_moves hvn (e := vars.reverse.map (·, true) ++ e4) (fun x hx =>
    live_append_bound (by simpa using hx))
  have hmoves := j1 .done
  refine ⟨e6, ?_, ?_⟩
  · simp only [check, hbody, hleave, Option.isSome_some, if_true]
    exact hmoves
  · obtain ⟨ext2, loc2, l1, l2, -⟩ := check_local (c := movesOf vars .done) (P := (· ∈ vars))
      (local_moves (fun x hx => hx) trivial) (fun x hx => Or.inl (by rw [hV]; simpa using hx)) hmoves
    rw [l1, ← List.append_assoc]
    exact leave_append _ e4

theorem good_loop {ins outs init vars : List String} {gd cond : List Access}
    {b : List (String × String)} {body : Prog} {rets : List String} {r : Prog} (ih1 : Good body)
    (ih : Good r) : Good (.loop ins outs init vars gd cond b body rets r) := by
  intro seen after pos s e k m hw hn hd hk hm hA hB hC
  obtain ⟨w1, w2, rfl, w3, ⟨wi1, wi2⟩, ⟨wl1, wl2, wl3⟩, ⟨w4, w4n, w5⟩, w8⟩ := hw
  obtain ⟨n1, n2, n3⟩ := List.nodup_append.1 hn
  obtain ⟨m1, m2, m3⟩ := List.nodup_append.1 n2
  obtain ⟨m4, m5, m6⟩ := List.nodup_append.1 m1
  obtain ⟨-, -, m7⟩ := List.nodup_append.1 m5
  have hin : ∀ x, 0 < init.count x + (accCount cond x + (b.map Prod.snd).count x) → x ∈ ins :=
    fun x hx => List.count_pos_iff.1 (by have := w3 x; omega)
  have hdi : ∀ x ∈ introduced (.loop ins outs init vars [] cond b body rets r), x ∉ seen :=
    fun x hx hs => hd x hs hx
  have hz : ∀ x, x ∉ seen → init.count x = 0 ∧ accCount cond x = 0 ∧ (b.map Prod.snd).count x = 0 :=
    fun x hx => by
      by_cases h0 : 0 < init.count x + (accCount cond x + (b.map Prod.snd).count x)
      · exact absurd (w1 x (hin x h0)) hx
      · omega
  have hsub : ∀ x ∈ vars ++ (renamed b ++ introduced body),
      x ∈ introduced (.loop ins outs init vars [] cond b body rets r) := fun x hx =>
    List.mem_append_right _ (List.mem_append_left _ hx)
  have hvars : ∀ x ∈ vars, x ∉ seen := fun x hx => hdi x (hsub x (List.mem_append_left _ hx))
  have hseenI : ∀ x ∈ init, x ∈ seen := fun x hx => w1 x (hin x (by have := List.count_pos_iff.2 hx; omega))
  -- initial values
  obtain ⟨e2, i1, i2, i3⟩ := inits_ok (vs := vars) wi1 wl1 (loc := []) (e := e)
    (fun x hx => ⟨by simp [names], fun hv => hvars x hv (hseenI x hx)⟩)
    (fun x hx => (hA x (hseenI x hx)).2 (by
      have := List.count_pos_iff.2 hx
      simp only [needs]; omega))
  simp only [List.nil_append] at i3
  -- the condition
  have hliveV : ∀ x, x ∉ vars → live x (vars.reverse.map (·, true) ++ e2) = live x e2 := fun x hx =>
    live_append_other (by simpa using hx)
  have hA1 : ∀ x ∈ seen, Cov s (vars.reverse.map (·, true) ++ e2)
      (pos + skip ((ins, outs) :: nodesOf r) x) x
      (accCount cond x + ((b.map Prod.snd).count x + (needs r x + after.count x))) (k x) (m x) := by
    intro x hx
    obtain ⟨c1, c2⟩ := hA x hx
    have hxv : x ∉ vars := fun hv => hvars x hv hx
    simp only [needs, nodesOf] at c1 c2
    refine ⟨fun h0 => ?_, fun h0 => ?_⟩
    · obtain ⟨v, v1, v2, v3⟩ := c1 (by omega)
      exact ⟨v, v1, v2, by omega⟩
    · by_cases hxi : x ∈ init
      · exfalso
        obtain ⟨q1, q2, q3, q4⟩ := wi2 x hxi
        have hcnt := List.count_pos_iff.2 hxi
        have hm0 := hm x (by simp only [needs]; omega)
        rw [q1, List.count_eq_zero.2 q2, needs_zero w8 q3, List.count_eq_zero.2 q4] at h0
        omega
      · rw [hliveV x hxv, i2 x hxi]
        exact c2 (by omega)
  obtain ⟨e3, a1, a2, a3⟩ := accesses_cov w2 (fun x hx => hin x (by omega)) w1
    (n := fun x => (b.map Prod.snd).count x + (needs r x + after.count x))
    (fun x hx => hm x (by simp only [needs]; omega)) hA1
  obtain ⟨V3, e4, f1, f2, f3⟩ : ∃ V3 e4, e3 = V3 ++ e4 ∧ names V3 = vars.reverse ∧ names e4 = names e2 := by
    obtain ⟨ext, ee, x1, x2, x3⟩ := check_names (a1 .done)
    have hext : ext = [] := by
      cases ext with
      | nil => rfl
      | cons p ext =>
        have := x3 p.1 (by simp [names])
        rw [bound_accesses] at this
        simp [bound] at this
    subst hext
    refine split_names ?_
    rw [x1]
    simp only [List.nil_append]
    rw [x2]
    simp only [names, List.map_append]
    congr 1
    exact names_true _
  have hV3 : V3 = vars.reverse.map (·, true) := by
    refine all_live (e := e4) (List.pairwise_reverse.2 (m4.imp Ne.symm)) f2 fun x hx => ?_
    have hx' : x ∈ vars := by simpa using hx
    rw [← f1, (a3 x (hz x (hvars x hx')).2.1).2]
    exact live_append_bound hx
  subst hV3
  have hlive4 : ∀ x, x ∉ vars → live x e3 = live x e4 := fun x hx => by
    rw [f1]; exact live_append_other (by simpa using hx)
  -- the body
  obtain ⟨c1, c2, c3⟩ := body_cov ih1 (outs := outs) (ns := nodesOf r)
    (s := (genAccesses pos s cond).1) (e := e3) (P := pos)
    (n := fun x => needs r x + after.count x) (k := k) (m := m)
    w4 w5 m1 (fun x hx => hdi x (hsub x hx))
    (fun x hx => (a3 x (hz x (hdi x (hsub x hx))).2.1).1.trans (hC x (List.mem_append_left _ hx)))
    (fun x hx => hin x (by have := List.count_pos_iff.2 hx; omega)) w1 a2
    (fun x hx => by rw [f1]; exact live_append_bound (by simpa using hx))
  have hframe : ∀ x, x ∉ seen → x ∉ vars ++ (renamed b ++ introduced body) →
      (genProg body (pos + 1)
        (regSub vars body rets pos (genBindings pos (genAccesses pos s cond).1 b).1)).1 x = s x :=
    fun x hx hx1 => (c3 x (List.count_eq_zero.1 (hz x hx).2.2) hx1).trans (a3 x (hz x hx).2.1).1
  rw [f1] at c1
  obtain ⟨ea, t1, t2⟩ := loop_check w4 w5 w4n wl2 wl3 m4
    (fun x hx => ⟨fun hm => (mem_inner hm).elim
        (fun h => m6 x hx x (List.mem_append_left _ h) rfl)
        (fun h => hvars x hx (w1 x (hin x (by have := List.count_pos_iff.2 h.2; omega)))),
      fun hm => m6 x hx x (List.mem_append_right _ (mem_introduced.2 (Or.inl hm))) rfl⟩) c1
  generalize hs3 : (genProg body (pos + 1)
    (regSub vars body rets pos (genBindings pos (genAccesses pos s cond).1 b).1)).1 = s3 at c2 c3 hframe
  -- the rest
  have hout : ∀ x ∈ outs ++ introduced r, x ∉ vars ++ (renamed b ++ introduced body) := by
    intro x hx h
    rcases List.mem_append.1 hx with hx | hx
    · exact n3 x hx x (List.mem_append_left _ h) rfl
    · exact m3 x h x hx rfl
  have hrin : ∀ x ∈ introduced r, x ∈ introduced (.loop ins outs init vars [] cond b body rets r) :=
    fun x hx => List.mem_append_right _ (List.mem_append_right _ hx)
  obtain ⟨e', g1, g2⟩ := rest_ok ih (ins := ins) (s := s3) (pos := pos) (e := e4)
    (k := k) (m := m) w8 m2
    (fun x hx hi => by
      rcases List.mem_append.1 hx with hx | hx
      · exact n3 x hx x (List.mem_append_right _ hi) rfl
      · exact hd x hx (hrin x hi))
    (fun x hx => hdi x (List.mem_append_left _ hx)) hk
    (fun x hx => hm x (by simp only [needs]; omega))
    (fun x hx => by
      obtain ⟨q1, q2⟩ := c2 x hx
      refine ⟨q1, fun h0 => ?_⟩
      rw [← hlive4 x fun hv => hvars x hv hx]
      exact q2 h0)
    (fun x hx => by
      have hns : x ∉ seen := hdi x (mem_introduced.2 (Or.inl hx))
      obtain ⟨v, v1, v2, v3⟩ := hB x hx
      have hz' := hz x hns
      simp only [needs, hz'.1, hz'.2.1, hz'.2.2, Nat.zero_add] at v3
      have ho := hout x ((List.mem_append.1 hx).elim (List.mem_append_left _) fun h =>
        List.mem_append_right _ (mem_introduced.2 (Or.inl h)))
      exact ⟨v, (hframe x hns ho).trans v1, v2, v3⟩)
    (fun x hx => by
      have hxr : x ∈ introduced r := mem_introduced.2 (Or.inr hx)
      exact (hframe x (hdi x (hrin x hxr)) (hout x (List.mem_append_right _ hxr))).trans
        (hC x (List.mem_append_right _ hx)))
  refine ⟨e', fun c => ?_, ?_⟩
  · have hlen : e.length = e4.length := (names_length (f3.trans i1)).symm
    show check (.block (genInits init vars ((genAccesses pos s cond).2 (.loop ((genBindings pos
      (genAccesses pos s cond).1 b).2 _) _))) (_ ++ c)) e = _
    have hblock := ((i3 _).trans (a1 _)).trans ((congrArg (check _) f1).trans t1)
    simp only [check, show (genAccesses pos s []).1 = s from rfl]
    rw [show check (genInits init vars ((genAccesses pos s cond).2 (.loop ((genBindings pos
      (genAccesses pos s cond).1 b).2 _) _))) e = some ea from hblock]
    simp only
    rw [hlen, t2, hs3]
    exact g1 c
  · show ∀ x, _ → (_ → ∃ v, (genProg r (pos + 1) (genProg body (pos + 1) (regSub vars body rets pos
      (genBindings pos (genAccesses pos s cond).1 b).1)).1).1 x = some v ∧ _) ∧ _
    rw [hs3]
    exact g2

theorem good (p : Prog) : Good p := by
  induction p with
  | done => exact good_done
  | op ins outs acc r ih => exact good_op ih
  | ite ins outs cond b1 p1 r1 b2 p2 r2 r ih1 ih2 ih => exact good_ite ih1 ih2 ih
  | loop ins outs init vars gd cond b body rets r ih1 ih => exact good_loop ih1 ih

end OnnxIR.Sub

namespace OnnxIR

open Rust Gen Sub

/-- **C25.** For every well-formed graph with If and Loop nodes, nested to any depth, with any captures
and any later uses, the borrow checker accepts the generated `forward`: a tensor captured by a body is
still owned where a later node, another body or the graph's result needs it. -/
theorem C25_outer_values_partial (g : Graph) (hg : Sub.WellFormedGraph g) : Accepts (forward g) := by
  obtain ⟨n1, n2, n3⟩ := List.nodup_append.1 hg.names
  obtain ⟨l1, l2⟩ := nodup_level n2
  have hord := ordered_of_scoped hg.prog
  have hbs : buildScope g = regSub g.inputs g.prog g.outputs 0 fun _ => none := by
    unfold buildScope regSub
    rw [Nat.zero_add]
  have hni : ∀ x ∈ g.inputs, x ∉ introduced g.prog := fun x hx hi => n3 x hx x hi rfl
  unfold Accepts forward
  rw [check_binds]
  obtain ⟨e', k1, k2⟩ := good g.prog g.inputs g.outputs 0 (buildScope g)
    ((g.inputs.reverse.map (·, true)) ++ []) (fun _ => 0) (fun x => g.scalarOutputs.count x)
    hg.prog n2 hni (fun _ _ => rfl)
    (fun x hx => by
      refine List.count_eq_zero.2 fun hm => ?_
      have := needs_zero hg.prog (hg.scalars x hm)
      omega)
    (fun x hx => by
      refine ⟨fun _ => ⟨⟨Sub.supply (nodesOf g.prog) x + g.outputs.count x, 0⟩, ?_, Nat.zero_le _, ?_⟩,
        fun _ => live_append_bound (by simpa using hx)⟩
      · rw [hbs]
        exact regSub_var n1 hx rfl fun hl => hni x hx (mem_introduced.2 (Or.inl hl))
      · have := Sub.needs_le_supply hg.prog x
        simp only; omega)
    (fun x hx => by
      have hns : x ∉ g.inputs := fun h => hni x h (mem_introduced.2 (Or.inl hx))
      refine ⟨⟨Sub.supply (nodesOf g.prog) x + g.outputs.count x, 0 + defPos (nodesOf g.prog) x⟩, ?_,
        Nat.le_refl _, ?_⟩
      · rw [hbs]
        exact regSub_def hord hns hns rfl l1 hx
      · have := Sub.needs_le_supply hg.prog x
        simp only; omega)
    (fun x hx => by
      have hns : x ∉ g.inputs := fun h => hni x h (mem_introduced.2 (Or.inr hx))
      have hnl : x ∉ level g.prog := fun h => l2 x h hx
      rw [hbs, regSub_frame hord hns hns hnl]
      intro hm
      exact (hg.outputs x (by simp [hm])).elim hns hnl)
  rw [k1]
  have hdis := List.nodup_append.1 hg.distinct
  obtain ⟨e2, j1, j2⟩ := check_moves (xs := g.scalarOutputs) hdis.2.1 (e := e') (fun x hx => by
    refine (k2 x (hg.outputs x (by simp [hx]))).2 ?_
    have := List.count_pos_iff.2 hx
    omega)
  obtain ⟨e3, i1, -⟩ := check_moves (xs := g.outputs) hdis.1 (e := e2) (fun x hx => by
    rw [j2 x (fun hm => hdis.2.2 x hx x hm rfl)]
    refine (k2 x (hg.outputs x (by simp [hx]))).2 ?_
    have := List.count_pos_iff.2 hx
    omega)
  rw [j1, i1]
  rfl

theorem counts_le {a b c ins : List String} (h : (a ++ (b ++ c)).Sublist ins) (x : String) :
    a.count x + (b.count x + c.count x) ≤ ins.count x := by
  have := h.count_le x
  simpa using this

theorem count_le {a ins : List String} (h : a.Sublist ins) (x : String) : a.count x ≤ ins.count x :=
  h.count_le x

/-- A graph with an If whose branches capture `x`, `d` and `z` (one under another name), an If nested in
a branch, a Loop that captures `x`, and later uses of all of them. -/
def C25_example : Graph := ⟨["c", "d", "x", "z"],
  .ite ["c", "x", "d", "z"] ["y"] [.arg "c"]
    [("x", "x"), ("d", "d")] (.op ["x"] ["t"] [.arg "x"]
      (.ite ["d", "x"] ["t2"] [.arg "d"] [("r", "x")] (.op ["r", "r"] ["a"] [.arg "r", .arg "r"] .done) ["a"]
        [] (.op [] ["b"] [] .done) ["b"] (.op ["t", "t2"] ["t3"] [.arg "t", .arg "t2"] .done))) ["t3"]
    [("q", "z")] (.op ["q"] ["e"] [.arg "q"] .done) ["e"]
  (.op ["x", "y"] ["u"] [.arg "x", .arg "y"]
    (.loop ["u", "x"] ["w"] ["u"] ["v"] [] [] [("x", "x")]
      (.op ["v", "x"] ["o"] [.arg "v", .arg "x"] .done) ["o"]
      (.op ["x", "w", "z"] ["s"] [.arg "x", .arg "w", .arg "z"] .done))),
  ["s", "z"], []⟩

example : Accepts (forward C25_example) := C25_outer_values_partial _ {
  names := by decide +kernel
  prog := by
    refine ⟨by decide, by simp, counts_le (by decide), ⟨⟨by decide, count_le (by decide), by simp, by decide,
      by simp, counts_le (by decide), ⟨⟨by decide, count_le (by decide), by simp, trivial⟩, by decide, by decide⟩,
      ⟨⟨by decide, count_le (by decide), by simp, trivial⟩, by decide, by decide⟩, by decide,
      count_le (by decide), by simp, trivial⟩, by decide, by decide⟩,
      ⟨⟨by decide, count_le (by decide), by simp, trivial⟩, by decide, by decide⟩, by decide,
      count_le (by decide), by simp, by decide, by simp, rfl, counts_le (by decide), ⟨by decide, by decide⟩,
      ⟨rfl, rfl, by decide⟩, ⟨⟨by decide, count_le (by decide), by simp, trivial⟩, by decide, by decide⟩,
      by decide, count_le (by decide), by simp, trivial⟩
  outputs := by decide +kernel
  distinct := by decide +kernel
  scalars := by decide +kernel }

end OnnxIR
