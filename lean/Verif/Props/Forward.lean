import Verif.Lemmas.Forward

/-!
# C80: the generated `forward` computes what the graph computes
-/

namespace OnnxIR

open Rust Gen Boundary

variable {V R : Type}

namespace Forward

/-! ## Variables -/

/-- Every value of the run is in its variable, unless it is on the device and was moved. -/
def Held (L : Target V R) (τ : String → ArgType) (env : Env V) (s : Vars R) (e : Rust.Env) : Prop :=
  ∀ x v, env x = some v → (τ x).isOnDevice = false ∨ live x e = true → ∃ r, s x = some (some r) ∧ L.holds (τ x) r v

theorem live_mark_le {x y : String} {e : Rust.Env} (h : live y (mark x false e) = true) : live y e = true ∧ y ≠ x := by
  by_cases hy : y = x
  · subst hy
    exfalso
    induction e with
    | nil => simp [mark, live] at h
    | cons p e ih =>
      obtain ⟨z, b⟩ := p
      simp only [mark] at h
      split at h
      · rename_i hz; simp [live, hz] at h
      · rename_i hz; simp only [live, if_neg hz] at h; exact ih h
  · rw [live_mark_other e hy] at h
    exact ⟨h, hy⟩

theorem declareAll_spec (xs : List String) : ∀ (vs : List R) (s : Vars R), xs.Nodup → xs.length = vs.length →
    ∃ s', declareAll s xs vs = some s' ∧ (∀ y, y ∉ xs → s' y = s y) ∧
      ∀ (k : Nat) (x : String) (v : R), xs[k]? = some x → vs[k]? = some v → s' x = some (some v) := by
  induction xs with
  | nil =>
    intro vs s _ hl
    cases vs with
    | nil => exact ⟨s, rfl, fun _ _ => rfl, fun k x v hx => by simp at hx⟩
    | cons v vs => simp at hl
  | cons x xs ih =>
    intro vs s hn hl
    cases vs with
    | nil => simp at hl
    | cons v vs =>
      obtain ⟨h1, h2⟩ := List.nodup_cons.1 hn
      obtain ⟨s', k1, k2, k3⟩ := ih vs (s.declare x v) h2 (by simpa using hl)
      refine ⟨s', k1, fun y hy => ?_, fun k y w hy hw => ?_⟩
      · simp only [List.mem_cons, not_or] at hy
        rw [k2 y hy.2]
        simp [Vars.declare, hy.1]
      · cases k with
        | zero =>
          simp only [List.getElem?_cons_zero, Option.some.injEq] at hy hw
          subst hy hw
          rw [k2 x h1]
          simp [Vars.declare]
        | succ k => exact k3 k y w (by simpa using hy) (by simpa using hw)

/-! ## One node -/

theorem uses_ok {L : Target V R} (hL : L.Ok) {τ : String → ArgType} {n : Node V} {p : Nat} {env : OnnxIR.Env V}
    (ht : ∀ a ∈ n.inputs, AtRunTime a → a.ty.form = (τ a.name).form) (us : List Use) :
    ∀ {sc sc' : Scope} {ts : List Take} {s : Vars R} {e e' : Rust.Env} {c : Code},
    (∀ u ∈ us, ∃ a v, n.inputs[u.index]? = some a ∧ AtRunTime a ∧ env a.name = some v) →
    genUses p n sc us = some (sc', ts) → check ((genAccesses p sc (us.filterMap (accessOf n))).2 c) e = some e' →
    Held L τ env s e →
    ∃ rs s' e1, takes L.copy s ts = some (rs, s') ∧ check c e1 = some e' ∧ Held L τ env s' e1 ∧
      (genAccesses p sc (us.filterMap (accessOf n))).1 = sc' ∧ rs.length = us.length ∧
      ∀ (k : Nat) (u : Use) (r : R), us[k]? = some u → rs[k]? = some r →
        ∃ a v, n.inputs[u.index]? = some a ∧ env a.name = some v ∧ L.holds a.ty r v := by
  induction us with
  | nil =>
    intro sc sc' ts s e e' c _ hg hc hh
    simp only [genUses, Option.some.injEq, Prod.mk.injEq] at hg
    obtain ⟨rfl, rfl⟩ := hg
    exact ⟨[], s, e, rfl, hc, hh, rfl, rfl, fun k u r hu => by simp at hu⟩
  | cons u us ih =>
    intro sc sc' ts s e e' c hu hg hc hh
    obtain ⟨a, v, ha, hrt, hv⟩ := hu u List.mem_cons_self
    have hat := ht a (List.mem_of_getElem? ha) hrt
    simp only [genUses] at hg
    cases hgu : genUse p n sc u with
    | none => simp [hgu] at hg
    | some q =>
      obtain ⟨sc1, t⟩ := q
      simp only [hgu] at hg
      cases hgs : genUses p n sc1 us with
      | none => simp [hgs] at hg
      | some q2 =>
        obtain ⟨sc2, ts2⟩ := q2
        simp only [hgs, Option.some.injEq, Prod.mk.injEq] at hg
        obtain ⟨rfl, rfl⟩ := hg
        have hu' : ∀ w ∈ us, ∃ a v, n.inputs[w.index]? = some a ∧ AtRunTime a ∧ env a.name = some v :=
          fun w hw => hu w (List.mem_cons_of_mem _ hw)
        -- the first mention
        obtain ⟨r, s1, e1, htake, hcheck, hheld, hacc, hrep⟩ : ∃ r s1 e1, take L.copy s t = some (r, s1) ∧
            check ((genAccesses p sc1 (us.filterMap (accessOf n))).2 c) e1 = some e' ∧ Held L τ env s1 e1 ∧
            (genAccesses p sc ((u :: us).filterMap (accessOf n))).1 = (genAccesses p sc1 (us.filterMap (accessOf n))).1 ∧
            L.holds a.ty r v := by
          cases hd : a.ty.isOnDevice with
          | false =>
            have hd' : (τ a.name).isOnDevice = false := by rw [← form_device hat]; exact hd
            obtain ⟨r, hr, hrep⟩ := hh a.name v hv (Or.inl hd')
            have hnone : accessOf n u = none := by simp [accessOf, ha, hd]
            rw [List.filterMap_cons_none hnone] at hc ⊢
            have hrep' := hL.form _ _ r v hat.symm hrep
            have hcopy := hL.native _ r v hrep' hd
            cases u with
            | arg i =>
              have hai : n.inputs[i]? = some a := ha
              simp only [genUse, hai, hd, Bool.false_eq_true, if_false, Option.some.injEq, Prod.mk.injEq] at hgu
              obtain ⟨rfl, rfl⟩ := hgu
              exact ⟨r, s, e, by simp [take, hr, hcopy], hc, hh, rfl, hrep'⟩
            | name i =>
              have hai : n.inputs[i]? = some a := ha
              simp only [genUse, hai, Option.some.injEq, Prod.mk.injEq] at hgu
              obtain ⟨rfl, rfl⟩ := hgu
              exact ⟨r, s, e, by simp [take, hr], hc, hh, rfl, hrep'⟩
          | true =>
            cases u with
            | arg i =>
              have hai : n.inputs[i]? = some a := ha
              have hsome : accessOf n (.arg i) = some (.arg a.name) := by simp [accessOf, Use.index, hai, hd]
              rw [List.filterMap_cons_some hsome] at hc ⊢
              simp only [genUse, hai, hd, if_true, Option.some.injEq, Prod.mk.injEq] at hgu
              obtain ⟨rfl, rfl⟩ := hgu
              simp only [genAccesses, genAccess] at hc ⊢
              cases hcl : (useOwned sc a.name p).2 with
              | true =>
                simp only [hcl, if_true, check] at hc
                split at hc
                · rename_i hlive
                  obtain ⟨r, hr, hrep⟩ := hh a.name v hv (Or.inr hlive)
                  exact ⟨r, s, e, by simp [take, hr], hc, hh, trivial, hL.form _ _ r v hat.symm hrep⟩
                · cases hc
              | false =>
                simp only [hcl, Bool.false_eq_true, if_false, check] at hc
                split at hc
                · rename_i hlive
                  obtain ⟨r, hr, hrep⟩ := hh a.name v hv (Or.inr hlive)
                  refine ⟨r, if L.copy r then s else s.leave a.name, mark a.name false e, by simp [take, hr], hc,
                    fun y w hy hyl => ?_, trivial, hL.form _ _ r v hat.symm hrep⟩
                  have hyn : y ≠ a.name := by
                    rintro rfl
                    rcases hyl with h | h
                    · rw [← form_device hat, hd] at h; cases h
                    · exact (live_mark_le h).2 rfl
                  obtain ⟨r', hr', hrep'⟩ := hh y w hy (hyl.imp id fun h => (live_mark_le h).1)
                  refine ⟨r', ?_, hrep'⟩
                  split
                  · exact hr'
                  · simpa [Vars.leave, hyn] using hr'
                · cases hc
            | name i =>
              have hai : n.inputs[i]? = some a := ha
              have hsome : accessOf n (.name i) = some (.peek a.name) := by simp [accessOf, Use.index, hai, hd]
              rw [List.filterMap_cons_some hsome] at hc ⊢
              simp only [genUse, hai, Option.some.injEq, Prod.mk.injEq] at hgu
              obtain ⟨rfl, rfl⟩ := hgu
              simp only [genAccesses, genAccess, check] at hc ⊢
              split at hc
              · rename_i hlive
                obtain ⟨r, hr, hrep⟩ := hh a.name v hv (Or.inr hlive)
                exact ⟨r, s, e, by simp [take, hr], hc, hh, trivial, hL.form _ _ r v hat.symm hrep⟩
              · cases hc
        obtain ⟨rs, s2, e2, k1, k2, k3, k4, k5, k6⟩ := ih hu' hgs hcheck hheld
        refine ⟨r :: rs, s2, e2, by simp [takes, htake, k1], k2, k3, hacc.trans k4, by simp [k5], fun k w q hw hq => ?_⟩
        cases k with
        | zero =>
          simp only [List.getElem?_cons_zero, Option.some.injEq] at hw hq
          subst hw hq
          exact ⟨a, v, ha, hv, hrep⟩
        | succ k => exact k6 k w q (by simpa using hw) (by simpa using hq)

theorem evalArgs_get {env : OnnxIR.Env V} (as : List (Arg V)) : ∀ {xs : List (Option V)}, evalArgs env as = some xs →
    xs.length = as.length ∧ ∀ (k : Nat) (a : Arg V), as[k]? = some a → ∃ x, xs[k]? = some x ∧ evalArg env a = some x := by
  induction as with
  | nil =>
    intro xs h
    simp only [evalArgs, Option.some.injEq] at h
    subst h
    exact ⟨rfl, fun k a ha => by simp at ha⟩
  | cons b as ih =>
    intro xs h
    simp only [evalArgs] at h
    cases hb : evalArg env b with
    | none => simp [hb] at h
    | some x =>
      cases hr : evalArgs env as with
      | none => simp [hb, hr] at h
      | some ys =>
        simp only [hb, hr, Option.some.injEq] at h
        subst h
        obtain ⟨h1, h2⟩ := ih hr
        refine ⟨by simp [h1], fun k a ha => ?_⟩
        cases k with
        | zero =>
          simp only [List.getElem?_cons_zero, Option.some.injEq] at ha
          subst ha
          exact ⟨x, rfl, hb⟩
        | succ k => exact h2 k a (by simpa using ha)

theorem evalArgs_keep {env final : OnnxIR.Env V} (h : ∀ x v, env x = some v → final x = some v) (as : List (Arg V)) :
    ∀ {xs : List (Option V)}, evalArgs env as = some xs → evalArgs final as = some xs := by
  induction as with
  | nil => exact fun h => h
  | cons b as ih =>
    intro xs hx
    simp only [evalArgs] at hx ⊢
    cases hb : evalArg env b with
    | none => simp [hb] at hx
    | some x =>
      cases hr : evalArgs env as with
      | none => simp [hb, hr] at hx
      | some ys =>
        simp only [hb, hr] at hx
        have hb' : evalArg final b = some x := by
          revert hb
          simp only [evalArg]
          split <;> intro hb
          all_goals first
            | exact hb
            | (simp only [Option.map_eq_some_iff] at hb ⊢
               obtain ⟨v, hv, rfl⟩ := hb
               exact ⟨v, h _ _ hv, rfl⟩)
        simp only [hb', ih hr, hx]

theorem inOrder_fresh {nodes : List (Node V)} : ∀ {seen : List String}, InOrder nodes seen → ∀ x ∈ seen,
    x ∉ nodes.flatMap Node.outNames := by
  induction nodes with
  | nil => intro seen _ x _ h; simp at h
  | cons n ns ih =>
    intro seen h x hx hm
    obtain ⟨-, -, h3, h4⟩ := h
    simp only [List.flatMap_cons, List.mem_append] at hm
    rcases hm with hm | hm
    · exact h3 x hm hx
    · exact ih h4 x (by simp [hx]) hm

theorem getElem?_of_lengths {A B : Type} {xs : List A} {ys : List B} (h : xs.length = ys.length) {k : Nat} {x : A}
    (hx : xs[k]? = some x) : ∃ y, ys[k]? = some y := by
  have := (List.getElem?_eq_some_iff.1 hx).1
  exact ⟨ys[k]'(by omega), List.getElem?_eq_getElem (by omega)⟩

/-- The nodes, one after the other. -/
theorem nodes_ok {L : Target V R} (hL : L.Ok) {S : Sem V} {dom : Node V → List (Option V) → Prop} {τ : String → ArgType}
    {code : Node V → Option (NodeCode R)} {final : OnnxIR.Env V} (nodes : List (Node V)) : ∀ {seen : List String} {p : Nat} {sc : Scope} {stmts : List (Instr R)}
    {s : Vars R} {env : OnnxIR.Env V} {e e' : Rust.Env} {c : Code},
    InOrder nodes seen →
    (∀ n ∈ nodes, (∀ a ∈ n.inputs, AtRunTime a → a.ty.form = (τ a.name).form) ∧
      ∀ o ∈ n.outputs, o.ty.form = (τ o.name).form) →
    (∀ n ∈ nodes, ∀ c, code n = some c → Implements L S dom n c) →
    AnnotationsTrue L final nodes → InDomain dom final nodes →
    (∀ x v, env x = some v → x ∈ seen) →
    genNodes code p sc nodes = some stmts →
    check ((genProg (progOf code nodes) p sc).2 ++ c) e = some e' →
    Held L τ env s e → evalNodes S env nodes = some final →
    ∃ s' e1, steps L.copy s stmts = some s' ∧ check c e1 = some e' ∧ Held L τ final s' e1 := by
  induction nodes with
  | nil =>
    intro seen p sc stmts s env e e' c _ _ _ _ _ _ hg hc hh hr
    simp only [genNodes, Option.some.injEq] at hg
    simp only [evalNodes, Option.some.injEq] at hr
    subst hg hr
    exact ⟨s, e, rfl, hc, hh⟩
  | cons n ns ih =>
    intro seen p sc stmts s env e e' c ho ht himp hann hdom hseen hg hc hh hr
    obtain ⟨o1, o2, o3, o4⟩ := ho
    simp only [evalNodes] at hr
    cases hn : evalNode S env n with
    | none => simp [hn] at hr
    | some env1 =>
      simp only [hn] at hr
      obtain ⟨xs, ys, hxs, hys, hlen, rfl⟩ := evalNode_some hn
      simp only [genNodes] at hg
      cases hcn : code n with
      | none => simp [hcn] at hg
      | some nc =>
        simp only [hcn] at hg
        cases hgu : genUses p n sc nc.uses with
        | none => simp [hgu] at hg
        | some q =>
          obtain ⟨sc1, ts⟩ := q
          simp only [hgu] at hg
          cases hgr : genNodes code (p + 1) sc1 ns with
          | none => simp [hgr] at hg
          | some rest =>
            simp only [hgr, Option.some.injEq] at hg
            subst hg
            have hi := himp n List.mem_cons_self nc hcn
            obtain ⟨htn, hto⟩ := ht n List.mem_cons_self
            obtain ⟨hxl, hxget⟩ := evalArgs_get _ hxs
            have hrun : ∀ (k : Nat) (a : Arg V), n.inputs[k]? = some a → AtRunTime a →
                ∃ v, env a.name = some v ∧ xs[k]? = some (some v) := by
              intro k a ha hrt
              obtain ⟨x, hx, hev⟩ := hxget k a ha
              rcases hrt with h | h <;>
              · simp only [evalArg, h, Option.map_eq_some_iff] at hev
                obtain ⟨v, hv, rfl⟩ := hev
                exact ⟨v, hv, hx⟩
            -- values of the run so far stay
            have hkeep : ∀ x v, env x = some v → final x = some v := by
              intro x v hx
              have hsx := hseen x v hx
              have h1 : x ∉ n.outNames := fun hm => o3 x hm hsx
              rw [evalNodes_notMem ns hr (inOrder_fresh o4 x (by simp [hsx])), bindAll_notMem _ _ _ _ h1, hx]
            have houtv : ∀ (k : Nat) (o : Arg V) (y : V), n.outputs[k]? = some o → ys[k]? = some y →
                bindAll env n.outNames ys o.name = some y ∧ final o.name = some y := by
              intro k o y hok hyk
              have hb := bindAll_get n.outNames ys env k o.name y o2 (by simp [Node.outNames, hok]) hyk
              refine ⟨hb, ?_⟩
              rw [evalNodes_notMem ns hr (inOrder_fresh o4 o.name ?_), hb]
              exact List.mem_append_left _ (List.mem_map.2 ⟨o, List.mem_of_getElem? hok, rfl⟩)
            simp only [progOf, genProg, hcn, Option.map_some, Option.getD_some] at hc
            rw [accesses_append, binds_append] at hc
            obtain ⟨rs, s1, e1, k1, k2, k3, k4, k5, k6⟩ := uses_ok hL htn nc.uses (fun u hu => by
              obtain ⟨a, ha, hrt⟩ := hi.inputs u hu
              obtain ⟨v, hv, -⟩ := hrun _ a ha hrt
              exact ⟨a, v, ha, hrt, hv⟩) hgu hc hh
            have hops : Operands L n xs := by
              refine ⟨hxl, fun k a v ha hs => ?_, fun k a ha hs => ?_, fun k a ha hrt => ?_⟩
              · obtain ⟨x, hx, hev⟩ := hxget k a ha
                simp only [evalArg, hs, Option.some.injEq] at hev
                rw [hx, ← hev]
              · obtain ⟨x, hx, hev⟩ := hxget k a ha
                simp only [evalArg, hs, Option.some.injEq] at hev
                rw [hx, ← hev]
              · obtain ⟨v, hv, hx⟩ := hrun k a ha hrt
                exact ⟨v, hx, (hann n List.mem_cons_self).1 a (List.mem_of_getElem? ha) hrt v (hkeep _ _ hv)⟩
            obtain ⟨ws, hws, hwl, hwr⟩ := hi.right xs ys hys hops
              (hdom n List.mem_cons_self xs (evalArgs_keep hkeep _ hxs)) hlen (fun k o y hok hyk =>
              (hann n List.mem_cons_self).2 o (List.mem_of_getElem? hok) y (houtv k o y hok hyk).2) rs k5
              (fun k u r hu hrk => by
                obtain ⟨a, v, ha, hv, hrep⟩ := k6 k u r hu hrk
                obtain ⟨a', ha', hrt⟩ := hi.inputs u (List.mem_of_getElem? hu)
                rw [ha] at ha'
                cases ha'
                obtain ⟨v', hv', hx⟩ := hrun _ a ha hrt
                rw [hv] at hv'
                cases hv'
                exact ⟨a, v, ha, hx, hrep⟩)
            have hnl : n.outNames.length = ws.length := by rw [hwl, hlen]; simp [Node.outNames]
            obtain ⟨s2, d1, d2, d3⟩ := declareAll_spec n.outNames ws s1 o2 hnl
            rw [check_binds, k4] at k2
            have hheld : Held L τ (bindAll env n.outNames ys) s2
                (((n.outputs.filter fun o => o.ty.isOnDevice).map Arg.name).reverse.map (·, true) ++ e1) := by
              intro x v hx hl
              by_cases hm : x ∈ n.outNames
              · obtain ⟨k, hk⟩ := List.mem_iff_getElem?.1 hm
                obtain ⟨o, hok, rfl⟩ : ∃ o, n.outputs[k]? = some o ∧ o.name = x := by
                  simpa [Node.outNames, List.getElem?_map] using hk
                obtain ⟨w, hw⟩ := getElem?_of_lengths hnl hk
                obtain ⟨y, hy⟩ := getElem?_of_lengths hwl hw
                rw [(houtv k o y hok hy).1] at hx
                refine ⟨w, d3 k _ w hk hw, ?_⟩
                rw [← Option.some.inj hx]
                exact hL.form _ _ w y (hto o (List.mem_of_getElem? hok)) (hwr k o w y hok hw hy)
              · rw [bindAll_notMem _ _ _ _ hm] at hx
                rw [d2 x hm]
                refine k3 x v hx (hl.imp id fun h => ?_)
                rw [live_append_other] at h
                · exact h
                · intro hm'
                  refine hm ?_
                  simp only [List.mem_reverse, List.mem_map, List.mem_filter] at hm'
                  obtain ⟨o, ⟨ho, -⟩, rfl⟩ := hm'
                  exact List.mem_map.2 ⟨o, ho, rfl⟩
            obtain ⟨s', e2, j1, j2, j3⟩ := ih (seen := n.outNames ++ seen) o4 (fun m hm => ht m (List.mem_cons_of_mem _ hm))
              (fun m hm => himp m (List.mem_cons_of_mem _ hm)) (fun m hm => hann m (List.mem_cons_of_mem _ hm))
              (fun m hm => hdom m (List.mem_cons_of_mem _ hm))
              (fun x v hx => by
                by_cases hm : x ∈ n.outNames
                · simp [hm]
                · rw [bindAll_notMem _ _ _ _ hm] at hx
                  simp [hseen x v hx]) hgr k2 hheld hr
            refine ⟨s', e2, ?_, j2, j3⟩
            simp [steps, step, k1, hws, d1, j1]

/-! ## The boundary -/

/-- The type an argument has in the signature. -/
theorem boundaryType_eq (t : ArgType) : boundaryType t = (match devOf t with
    | some d => .scalarNative d
    | none => t) := by
  cases t <;> rfl

/-- Conversions of scalars, `pre` to `post`. -/
theorem convert_ok {conv : DType → R → Option R} {copy : R → Bool} {m : List (String × DType)}
    {pre post : ArgType → R → V → Prop} {val : String → V} (as : List (Arg V)) : ∀ {s : Vars R},
    (as.map Arg.name).Nodup → (∀ a ∈ as, mapGet m a.name = devOf a.ty) →
    (∀ a ∈ as, ∀ r v, pre a.ty r v → (devOf a.ty = none → post a.ty r v) ∧
      ∀ d, devOf a.ty = some d → ∃ w, conv d r = some w ∧ post a.ty w v) →
    (∀ a ∈ as, ∃ r, s a.name = some (some r) ∧ pre a.ty r (val a.name)) →
    ∃ s', steps copy s (convertStmts conv m (as.map fun a => { a with ty := boundaryType a.ty })) = some s' ∧
      (∀ y, y ∉ as.map Arg.name → s' y = s y) ∧ ∀ a ∈ as, ∃ r, s' a.name = some (some r) ∧ post a.ty r (val a.name) := by
  induction as with
  | nil => intro s _ _ _ _; exact ⟨s, rfl, fun _ _ => rfl, fun a ha => by simp at ha⟩
  | cons a as ih =>
    intro s hn hm hp hs
    obtain ⟨h1, h2⟩ := List.nodup_cons.1 hn
    obtain ⟨r, hr, hpre⟩ := hs a List.mem_cons_self
    obtain ⟨p1, p2⟩ := hp a List.mem_cons_self r _ hpre
    have hma := hm a List.mem_cons_self
    have hm' : ∀ b ∈ as, mapGet m b.name = devOf b.ty := fun b hb => hm b (List.mem_cons_of_mem _ hb)
    have hp' : ∀ b ∈ as, ∀ r v, pre b.ty r v → (devOf b.ty = none → post b.ty r v) ∧
      ∀ d, devOf b.ty = some d → ∃ w, conv d r = some w ∧ post b.ty w v := fun b hb => hp b (List.mem_cons_of_mem _ hb)
    have hne : ∀ b ∈ as, b.name ≠ a.name := fun b hb he => h1 (List.mem_map.2 ⟨b, hb, he⟩)
    cases hd : devOf a.ty with
    | none =>
      obtain ⟨s', k1, k2, k3⟩ := ih h2 hm' hp' fun b hb => hs b (List.mem_cons_of_mem _ hb)
      have hnone : (mapGet m a.name) = none := hma.trans hd
      refine ⟨s', ?_, fun y hy => k2 y fun h => hy (by simp only [List.map_cons, List.mem_cons, h, or_true]), fun b hb => ?_⟩
      · simpa [convertStmts, hnone] using k1
      · rcases List.mem_cons.1 hb with rfl | hb
        · exact ⟨r, (k2 _ h1).trans hr, p1 hd⟩
        · exact k3 b hb
    | some d =>
      obtain ⟨w, hw, hpost⟩ := p2 d hd
      have hsome : (mapGet m a.name) = some d := hma.trans hd
      obtain ⟨s1, hs1, hs1o⟩ : ∃ s1, take copy s (.move a.name) = some (r, s1) ∧ ∀ y, y ≠ a.name → s1 y = s y := by
        refine ⟨if copy r then s else s.leave a.name, by simp only [take, hr], fun y hy => ?_⟩
        split
        · rfl
        · simp [Vars.leave, hy]
      obtain ⟨s', k1, k2, k3⟩ := ih (s := s1.declare a.name w) h2 hm' hp' (fun b hb => by
        obtain ⟨q, hq, hqp⟩ := hs b (List.mem_cons_of_mem _ hb)
        exact ⟨q, by simp [Vars.declare, hne b hb, hs1o _ (hne b hb), hq], hqp⟩)
      refine ⟨s', ?_, fun y hy => ?_, fun b hb => ?_⟩
      · rw [← k1]
        simp [convertStmts, hsome, steps, step, takes, hs1, hw, declareAll]
      · simp only [List.map_cons, List.mem_cons, not_or] at hy
        rw [k2 y hy.2]
        simp [Vars.declare, hy.1, hs1o y hy.1]
      · rcases List.mem_cons.1 hb with rfl | hb
        · exact ⟨w, by rw [k2 _ h1]; simp [Vars.declare], hpost⟩
        · exact k3 b hb

theorem live_of_moves (xs : List String) : ∀ {c : Code} {e e' : Rust.Env}, check (movesOf xs c) e = some e' →
    (∀ x ∈ xs, live x e = true) ∧ ∃ e1, check c e1 = some e' ∧ ∀ x, live x e1 = true → live x e = true := by
  induction xs with
  | nil => intro c e e' h; exact ⟨fun x hx => by simp at hx, e, h, fun _ h => h⟩
  | cons x xs ih =>
    intro c e e' h
    change check (.move x (movesOf xs c)) e = some e' at h
    simp only [check] at h
    split at h
    · rename_i hl
      obtain ⟨k1, e1, k2, k3⟩ := ih h
      refine ⟨fun y hy => ?_, e1, k2, fun y hy => (live_mark_le (k3 y hy)).1⟩
      rcases List.mem_cons.1 hy with rfl | hy
      · exact hl
      · exact (live_mark_le (k1 y hy)).1
    · cases h

/-- Returning variables that own their values. -/
theorem returns_ok {copy : R → Bool} (xs : List String) : ∀ {s : Vars R}, xs.Nodup →
    (∀ x ∈ xs, ∃ r, s x = some (some r)) →
    ∃ rs s', takes copy s (xs.map .move) = some (rs, s') ∧ rs.length = xs.length ∧
      ∀ (k : Nat) (x : String) (r : R), xs[k]? = some x → rs[k]? = some r → s x = some (some r) := by
  induction xs with
  | nil => intro s _ _; exact ⟨[], s, rfl, rfl, fun k x r hx => by simp at hx⟩
  | cons x xs ih =>
    intro s hn hs
    obtain ⟨h1, h2⟩ := List.nodup_cons.1 hn
    obtain ⟨r, hr⟩ := hs x List.mem_cons_self
    obtain ⟨s1, hs1, hs1o⟩ : ∃ s1, take copy s (.move x) = some (r, s1) ∧ ∀ y, y ≠ x → s1 y = s y := by
      refine ⟨if copy r then s else s.leave x, by simp only [take, hr], fun y hy => ?_⟩
      split
      · rfl
      · simp [Vars.leave, hy]
    have hne : ∀ y ∈ xs, y ≠ x := by rintro y hy rfl; exact h1 hy
    obtain ⟨rs, s', k1, k2, k3⟩ := ih (s := s1) h2 fun y hy => by
      rw [hs1o y (hne y hy)]; exact hs y (List.mem_cons_of_mem _ hy)
    refine ⟨r :: rs, s', by simp [takes, hs1, k1], by simp [k2], fun k y q hy hq => ?_⟩
    cases k with
    | zero =>
      simp only [List.getElem?_cons_zero, Option.some.injEq] at hy hq
      subst hy hq
      exact hr
    | succ k =>
      have hy' : xs[k]? = some y := by simpa using hy
      rw [← hs1o y (hne y (List.mem_of_getElem? hy'))]
      exact k3 k y q hy' (by simpa using hq)

end Forward

open Forward

/-- **C80.** The generated `forward` computes what the graph computes. For every graph without control flow, of any size and any
pattern of uses, whose nodes' code is right one by one (`Implements`): if the graph has a result on some inputs, then a call of the
generated function with values that hold these inputs compiles, does not panic, and returns values that hold the result, in order;
scalars cross the boundary as native numbers. -/
theorem C80_forward_partial {L : Target V R} (hL : L.Ok) {S : Sem V} {dom : Node V → List (Option V) → Prop}
    {code : Node V → Option (NodeCode R)} {τ : String → ArgType} {nodes : List (Node V)} {ins outs : List (Arg V)} (hg : GraphOk τ nodes ins outs)
    (hc : ∀ n ∈ nodes, ∃ c, code n = some c ∧ Implements L S dom n c) {env final : OnnxIR.Env V}
    (henv : ∀ x v, env x = some v → x ∈ ins.map Arg.name) (hrun : evalNodes S env nodes = some final)
    (hann : AnnotationsTrue L final nodes) (hdom : InDomain dom final nodes) {ys : List (Option V)} (hres : evalArgs final outs = some ys)
    {args : List R} (hargs : args.length = ins.length)
    (hin : ∀ (k : Nat) (a : Arg V) (r : R), ins[k]? = some a → args[k]? = some r →
      ∃ v, env a.name = some v ∧ L.holds (boundaryType a.ty) r v) :
    ∃ f, genForward L.toDevice L.toNative code nodes ins outs = some f ∧ ∃ rs, Rust.call L.copy f args = some rs ∧
      rs.length = outs.length ∧ ∀ (k : Nat) (o : Arg V) (r : R), outs[k]? = some o → rs[k]? = some r →
        ∃ y, ys[k]? = some (some y) ∧ L.holds (boundaryType o.ty) r y := by
  have hc' : ∀ n ∈ nodes, ∀ c, code n = some c → Implements L S dom n c := by
    intro n hn c hcn
    obtain ⟨c', h1, h2⟩ := hc n hn
    rw [h1] at hcn
    cases hcn
    exact h2
  -- the generator does not panic
  obtain ⟨stmts, hst⟩ : ∃ stmts, genNodes code 0 (scopeOf nodes ins outs) nodes = some stmts := by
    have : ∀ (ns : List (Node V)) (p : Nat) (sc : Scope), (∀ n ∈ ns, ∃ c, code n = some c ∧ Implements L S dom n c) →
        ∃ stmts, genNodes code p sc ns = some stmts := by
      intro ns
      induction ns with
      | nil => intro p sc _; exact ⟨[], rfl⟩
      | cons n ns ih =>
        intro p sc hcs
        obtain ⟨c, h1, h2⟩ := hcs n List.mem_cons_self
        have huses : ∀ (us : List Use) (sc : Scope), (∀ u ∈ us, ∃ a, n.inputs[u.index]? = some a) →
            ∃ q, genUses p n sc us = some q := by
          intro us
          induction us with
          | nil => intro sc _; exact ⟨_, rfl⟩
          | cons u us ihu =>
            intro sc hus
            obtain ⟨a, ha⟩ := hus u List.mem_cons_self
            obtain ⟨q, hq⟩ : ∃ q, genUse p n sc u = some q := by
              cases u with
              | arg i =>
                have hai : n.inputs[i]? = some a := ha
                simp only [genUse, hai]
                split <;> exact ⟨_, rfl⟩
              | name i =>
                have hai : n.inputs[i]? = some a := ha
                simp only [genUse, hai]
                exact ⟨_, rfl⟩
            obtain ⟨q2, hq2⟩ := ihu q.1 fun w hw => hus w (List.mem_cons_of_mem _ hw)
            exact ⟨_, by simp only [genUses, hq, hq2]; rfl⟩
        obtain ⟨q, hq⟩ := huses c.uses sc fun u hu => by
          obtain ⟨a, ha, -⟩ := h2.inputs u hu
          exact ⟨a, ha⟩
        obtain ⟨rest, hrest⟩ := ih (p + 1) q.1 fun m hm => hcs m (List.mem_cons_of_mem _ hm)
        exact ⟨_, by simp only [genNodes, h1, hq, hrest]; rfl⟩
    exact this nodes 0 _ hc
  refine ⟨_, by simp only [genForward, hst]; rfl, ?_⟩
  -- the borrow checker accepts
  have hacc := C23_no_use_after_move_partial _ (graphOf_wellFormed hg hc')
  obtain ⟨eEnd, hchk⟩ := Option.isSome_iff_exists.1 hacc
  unfold Gen.forward at hchk
  rw [check_binds, ← scopeOf_eq] at hchk
  -- parameters and conversions of inputs
  have hsig : (convertScalars ins).1.map Arg.name = ins.map Arg.name := signature_names ins
  obtain ⟨s0, d1, d2, d3⟩ := declareAll_spec (ins.map Arg.name) args (fun _ => none) hg.inputs (by simp [hargs])
  have hinget : ∀ a ∈ ins, mapGet (convertScalars ins).2 a.name = devOf a.ty := fun a ha =>
    conversions_get (scalarsOnce_of_nodup hg.inputs) ha
  obtain ⟨s1, c1, c2, c3⟩ := convert_ok (conv := L.toDevice) (copy := L.copy) (m := (convertScalars ins).2)
    (pre := fun t r (v : Option V) => ∃ w, v = some w ∧ L.holds (boundaryType t) r w)
    (post := fun t r (v : Option V) => ∃ w, v = some w ∧ L.holds t r w) (val := fun x => env x)
    (ins.map fun a => (⟨a.name, a.ty, .dynamic⟩ : Arg (Option V))) (s := s0)
    (by rw [List.map_map]; exact hg.inputs)
    (by
      intro a ha
      obtain ⟨b, hb, rfl⟩ := List.mem_map.1 ha
      exact hinget b hb)
    (by
      rintro a ha r v ⟨w, rfl, hw⟩
      refine ⟨fun hd => ⟨w, rfl, ?_⟩, fun d hd => ?_⟩
      · rw [boundaryType_eq, hd] at hw; exact hw
      · rw [boundaryType_eq, hd] at hw
        have hty : a.ty = .scalarTensor d := by
          cases h : a.ty <;> simp_all [devOf]
        obtain ⟨r', h1, h2⟩ := hL.toDevice d r w hw
        exact ⟨r', h1, w, rfl, by rw [hty]; exact h2⟩)
    (by
      intro a ha
      obtain ⟨b, hb, rfl⟩ := List.mem_map.1 ha
      obtain ⟨k, hk⟩ := List.mem_iff_getElem?.1 hb
      obtain ⟨r, hr⟩ := getElem?_of_lengths hargs.symm hk
      obtain ⟨v, hv, hrep⟩ := hin k b r hk hr
      exact ⟨r, d3 k b.name r (by simp [hk]) hr, v, hv, hrep⟩)
  have hheld : Held L τ env s1 (((graphOf code nodes ins outs).inputs.reverse.map (·, true)) ++ []) := by
    intro x v hx _
    obtain ⟨a, ha, rfl⟩ := List.mem_map.1 (henv x v hx)
    obtain ⟨r, hr, w, hw, hrep⟩ := c3 ⟨a.name, a.ty, .dynamic⟩ (List.mem_map.2 ⟨a, ha, rfl⟩)
    rw [show env a.name = some v from hx] at hw
    cases hw
    exact ⟨r, hr, hL.form _ _ r v (hg.inTypes a ha) hrep⟩
  obtain ⟨s2, e2, n1, n2, n3⟩ := nodes_ok hL nodes hg.order hg.nodeTypes hc' hann hdom henv hst hchk hheld hrun
  -- results
  obtain ⟨hs, e3, m1, m2⟩ := live_of_moves _ n2
  obtain ⟨ht, -⟩ := live_of_moves _ m1
  obtain ⟨hyl, hyget⟩ := evalArgs_get _ hres
  have hout : ∀ o ∈ outs, ∃ r v, s2 o.name = some (some r) ∧ final o.name = some v ∧ L.holds o.ty r v := by
    intro o ho
    obtain ⟨k, hk⟩ := List.mem_iff_getElem?.1 ho
    obtain ⟨y, hy, hev⟩ := hyget k o hk
    simp only [evalArg, (hg.results o ho).1, Option.map_eq_some_iff] at hev
    obtain ⟨v, hv, rfl⟩ := hev
    have hty := hg.outTypes o ho
    have hl : (τ o.name).isOnDevice = false ∨ live o.name e2 = true := by
      cases hdt : o.ty with
      | tensor t => exact Or.inr (m2 _ (ht _ (List.mem_map.2 ⟨o, List.mem_filter.2 ⟨ho, by simp [hdt, isTensor]⟩, rfl⟩)))
      | scalarTensor d => exact Or.inr (hs _ (List.mem_map.2 ⟨o, List.mem_filter.2 ⟨ho, by simp [hdt, devOf]⟩, rfl⟩))
      | scalarNative d => left; rw [← form_device hty, hdt]; rfl
      | shape q => left; rw [← form_device hty, hdt]; rfl
    obtain ⟨r, hr, hrep⟩ := n3 o.name v hv hl
    exact ⟨r, v, hr, hv, hL.form _ _ r v hty.symm hrep⟩
  have houtget : ∀ a ∈ outs, mapGet (convertScalars outs).2 a.name = devOf a.ty := fun a ha =>
    conversions_get (scalarsOnce_of_nodup hg.outputs) ha
  obtain ⟨s3, f1, f2, f3⟩ := convert_ok (conv := L.toNative) (copy := L.copy) (m := (convertScalars outs).2)
    (pre := fun t r (v : Option V) => ∃ w, v = some w ∧ L.holds t r w)
    (post := fun t r (v : Option V) => ∃ w, v = some w ∧ L.holds (boundaryType t) r w) (val := fun x => final x)
    (outs.map fun a => (⟨a.name, a.ty, .dynamic⟩ : Arg (Option V))) (s := s2)
    (by rw [List.map_map]; exact hg.outputs)
    (by
      intro a ha
      obtain ⟨b, hb, rfl⟩ := List.mem_map.1 ha
      exact houtget b hb)
    (by
      rintro a ha r v ⟨w, rfl, hw⟩
      refine ⟨fun hd => ⟨w, rfl, ?_⟩, fun d hd => ?_⟩
      · rw [boundaryType_eq, hd]; exact hw
      · have hty : a.ty = .scalarTensor d := by
          cases h : a.ty <;> simp_all [devOf]
        rw [hty] at hw
        obtain ⟨r', h1, h2⟩ := hL.toNative d r w hw
        exact ⟨r', h1, w, rfl, by rw [hty]; exact h2⟩)
    (by
      intro a ha
      obtain ⟨b, hb, rfl⟩ := List.mem_map.1 ha
      obtain ⟨r, v, h1, h2, h3⟩ := hout b hb
      exact ⟨r, h1, v, h2, h3⟩)
  obtain ⟨rs, s4, g1, g2, g3⟩ := returns_ok (copy := L.copy) (outs.map Arg.name) (s := s3) hg.outputs fun x hx => by
    obtain ⟨o, ho, rfl⟩ := List.mem_map.1 hx
    obtain ⟨r, hr, -⟩ := f3 ⟨o.name, o.ty, .dynamic⟩ (List.mem_map.2 ⟨o, ho, rfl⟩)
    exact ⟨r, hr⟩
  refine ⟨rs, ?_, by simpa using g2, fun k o r hk hr => ?_⟩
  · have hsteps : ∀ (a b : List (Instr R)) (s : Vars R), steps L.copy s (a ++ b) = (steps L.copy s a).bind fun s' => steps L.copy s' b := by
      intro a
      induction a with
      | nil => intro b s; rfl
      | cons t a iha =>
        intro b s
        simp only [List.cons_append, steps]
        cases step L.copy s t with
        | none => rfl
        | some s' => exact iha b s'
    have hi : convertStmts L.toDevice (convertScalars ins).2 (convertScalars ins).1 =
        convertStmts L.toDevice (convertScalars ins).2
          ((ins.map fun a => (⟨a.name, a.ty, .dynamic⟩ : Arg (Option V))).map fun a => { a with ty := boundaryType a.ty }) := by
      simp only [convertStmts, convertScalars, List.filterMap_map, List.map_map]
      rfl
    have ho : convertStmts L.toNative (convertScalars outs).2 (convertScalars outs).1 =
        convertStmts L.toNative (convertScalars outs).2
          ((outs.map fun a => (⟨a.name, a.ty, .dynamic⟩ : Arg (Option V))).map fun a => { a with ty := boundaryType a.ty }) := by
      simp only [convertStmts, convertScalars, List.filterMap_map, List.map_map]
      rfl
    simp only [Rust.call, hsig, d1, hsteps, hi, ho, c1, n1, f1, Option.bind_some, signature_names outs, g1]
  · have hko : (outs.map Arg.name)[k]? = some o.name := by simp [hk]
    have hown := g3 k o.name r hko hr
    obtain ⟨r', hr', w, hw, hrep⟩ := f3 ⟨o.name, o.ty, .dynamic⟩ (List.mem_map.2 ⟨o, List.mem_of_getElem? hk, rfl⟩)
    rw [hown] at hr'
    cases hr'
    obtain ⟨y, hy, hev⟩ := hyget k o hk
    simp only [evalArg, (hg.results o (List.mem_of_getElem? hk)).1, Option.map_eq_some_iff] at hev
    obtain ⟨v, hv, rfl⟩ := hev
    rw [hv] at hw
    rw [← Option.some.inj hw] at hrep
    exact ⟨v, hy, hrep⟩

end OnnxIR
