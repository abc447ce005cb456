import Verif.Spec.NestedRun

/-!
# C88: removing constants nothing refers to

Whatever the depth of the subgraphs, leaving out the constants no argument refers to changes no result, and only constants something
refers to are left.
-/

namespace OnnxIR.Nested

variable {V : Type}

theorem mapM_eq {A B : Type} {f f' : A → Option B} : ∀ {l : List A}, (∀ a ∈ l, f a = f' a) → l.mapM f = l.mapM f'
  | [], _ => rfl
  | a :: l, h => by
    rw [List.mapM_cons, List.mapM_cons, h a List.mem_cons_self, mapM_eq fun b hb => h b (List.mem_cons_of_mem _ hb)]

/-- Variables that agree but for `T` and the constants not in `R`. -/
def Agree (C T : String → Prop) (R : List String) (e e' : Vars V) : Prop := ∀ x, ¬ T x → (C x → x ∈ R) → e x = e' x

theorem mem_constNames : ∀ {as : List (Arg V)} {b : Arg V}, b ∈ as → b.src = .constant → b.name ≠ "" → b.name ∈ constNames as
  | a :: as, b, hb, hs, hn => by
    unfold constNames
    rcases List.mem_cons.1 hb with rfl | hb
    · simp [hs, hn]
    · have := mem_constNames hb hs hn
      split
      · split
        · exact this
        · exact List.mem_cons_of_mem _ this
      · exact this

theorem constNames_mem : ∀ {as : List (Arg V)} {x : String}, x ∈ constNames as → ∃ b ∈ as, b.src = .constant ∧ b.name = x
  | [], x, h => by simp [constNames] at h
  | a :: as, x, h => by
    unfold constNames at h
    have rest : x ∈ constNames as → ∃ b ∈ a :: as, b.src = .constant ∧ b.name = x := fun h =>
      let ⟨b, hb, h1⟩ := constNames_mem h
      ⟨b, List.mem_cons_of_mem _ hb, h1⟩
    split at h
    · split at h
      · exact rest h
      · rcases List.mem_cons.1 h with rfl | h
        · exact ⟨a, List.mem_cons_self, by assumption, rfl⟩
        · exact rest h
    · exact rest h

theorem valueOf_eq {e e' : Vars V} {b : Arg V} (h : ReadsVar b → e b.name = e' b.name) : valueOf e b = valueOf e' b := by
  unfold valueOf
  split
  · rfl
  · rfl
  · next h1 h2 =>
    apply h
    unfold ReadsVar
    cases hs : b.src with
    | static v => exact absurd hs (h1 v)
    | optional => exact absurd hs h2
    | constant => exact .inl rfl
    | dynamic => exact .inr rfl

theorem valueOf_agree {C T : String → Prop} {R : List String} {e e' : Vars V} (he : Agree C T R e e') {b : Arg V}
    (hb : ReadsVar b → ¬ T b.name ∧ (C b.name → b.src = .constant ∧ b.name ≠ ""))
    (hR : b.src = .constant → b.name ≠ "" → b.name ∈ R) : valueOf e b = valueOf e' b :=
  valueOf_eq fun hr => he _ (hb hr).1 fun hc => hR ((hb hr).2 hc).1 ((hb hr).2 hc).2

/-- Setting the same variables keeps what agrees and makes the set ones agree. -/
theorem setVars_rel : ∀ (as : List (Arg V)) (vs : List V) (e e' : Vars V),
    (setVars e as vs = none ∧ setVars e' as vs = none) ∨
      ∃ f f', setVars e as vs = some f ∧ setVars e' as vs = some f' ∧
        ∀ x, (e x = e' x ∨ ∃ a ∈ as, a.name = x) → f x = f' x
  | [], [], e, e' => .inr ⟨e, e', rfl, rfl, fun x h => h.elim id fun ⟨_, h, _⟩ => absurd h List.not_mem_nil⟩
  | [], _ :: _, _, _ => .inl ⟨rfl, rfl⟩
  | _ :: _, [], _, _ => .inl ⟨rfl, rfl⟩
  | a :: as, v :: vs, e, e' => by
    rcases setVars_rel as vs (fun x => if x = a.name then some v else e x) (fun x => if x = a.name then some v else e' x) with
      h | ⟨f, f', h1, h2, h3⟩
    · exact .inl h
    · refine .inr ⟨f, f', h1, h2, fun x hx => h3 x ?_⟩
      by_cases hxa : x = a.name
      · exact .inl (by simp [hxa])
      · rcases hx with hx | ⟨b, hb, hn⟩
        · exact .inl (by simp [hxa, hx])
        · rcases List.mem_cons.1 hb with rfl | hb
          · exact absurd hn.symm hxa
          · exact .inr ⟨b, hb, hn⟩

theorem handed_agree {C T : String → Prop} {R : List String} {e e' : Vars V} (he : Agree C T R e e') :
    ∀ (refs : List String) (caps : List (Arg V)),
      Agree C (fun x => T x ∨ From (fun y => C y ∨ T y) refs caps x) R (handed e refs caps) (handed e' refs caps)
  | [], caps => fun x h1 h2 => by simpa [handed] using he x (fun h => h1 (.inl h)) h2
  | r :: rs, [] => fun x h1 h2 => by simpa [handed] using he x (fun h => h1 (.inl h)) h2
  | r :: rs, a :: as => fun x h1 h2 => by
    unfold handed
    by_cases hx : x = r
    · rw [if_pos hx, if_pos hx]
      have hn : ReadsVar a → ¬ (C a.name ∨ T a.name) := fun hr hc => h1 (.inr (.inl ⟨hx, hr, hc⟩))
      exact valueOf_eq fun hr => he _ (fun ht => hn hr (.inr ht)) fun hc => absurd (.inl hc) (hn hr)
    · rw [if_neg hx, if_neg hx]
      exact handed_agree he rs as x (fun h => h1 (h.imp id fun h => .inr h)) h2

mutual
theorem run_agree (S : OpMeaning V) : ∀ (g : FGraph V) {C T : String → Prop} {R : List String} {e e' : Vars V}, Marked C T g →
    (∀ x ∈ constRefs g, x ∈ R) → Agree C T R e e' → ∀ args, run S g e args = run S g e' args
  | .mk ins nodes outs, C, T, R, e, e', hm, hR, he, args => by
    unfold Marked at hm
    unfold constRefs at hR
    unfold run
    rcases setVars_rel ins args e e' with ⟨h1, h2⟩ | ⟨f, f', h1, h2, h3⟩
    · rw [h1, h2]
    · rw [h1, h2]
      simp only [Option.bind_some]
      have hf : Agree (fun x => C x ∧ ∀ a ∈ ins, a.name ≠ x) (fun x => T x ∧ ∀ a ∈ ins, a.name ≠ x) R f f' := by
        intro x hx1 hx2
        by_cases hi : ∀ a ∈ ins, a.name ≠ x
        · exact h3 x (.inl (he x (fun ht => hx1 ⟨ht, hi⟩) fun hc => hx2 ⟨hc, hi⟩))
        · simp only [Classical.not_forall] at hi
          obtain ⟨a, ha, hn⟩ := hi
          exact h3 x (.inr ⟨a, ha, by simpa using hn⟩)
      rcases runNodes_agree S nodes hm.1 (fun x hx => hR x (List.mem_append_left _ hx)) hf with ⟨h4, h5⟩ | ⟨k, k', h4, h5, h6⟩
      · rw [h4, h5]
      · rw [h4, h5]
        simp only [Option.bind_some]
        refine mapM_eq fun b hb => valueOf_agree h6 (hm.2 b hb) fun hs hn => hR _ (List.mem_append_right _ (mem_constNames hb hs hn))
theorem runNodes_agree (S : OpMeaning V) : ∀ (ns : List (FNode V)) {C T : String → Prop} {R : List String} {e e' : Vars V},
    MarkedNodes C T ns → (∀ x ∈ nodesConstRefs ns, x ∈ R) → Agree C T R e e' →
      (runNodes S ns e = none ∧ runNodes S ns e' = none) ∨
        ∃ f f', runNodes S ns e = some f ∧ runNodes S ns e' = some f' ∧ Agree C T R f f'
  | [], C, T, R, e, e', _, _, he => .inr ⟨e, e', by simp [runNodes], by simp [runNodes], he⟩
  | .mk ty name ins outs refs bodies :: ns, C, T, R, e, e', hm, hR, he => by
    unfold MarkedNodes at hm
    unfold nodesConstRefs ownCount at hR
    unfold runNodes
    have h1 : (ins.take (ins.length - refs.length)).map (valueOf e) = (ins.take (ins.length - refs.length)).map (valueOf e') :=
      List.map_congr_left fun b hb => valueOf_agree he (hm.1 b hb) fun hs hn =>
        hR _ (List.mem_append_left _ (List.mem_append_left _ (mem_constNames hb hs hn)))
    rw [h1, functions_agree S bodies hm.2.1 (fun x hx => hR x (List.mem_append_left _ (List.mem_append_right _ hx)))
      (handed_agree he refs (ins.drop (ins.length - refs.length)))]
    cases S ty name ((ins.take (ins.length - refs.length)).map (valueOf e'))
        (functions S bodies (handed e' refs (ins.drop (ins.length - refs.length)))) with
    | none => exact .inl ⟨rfl, rfl⟩
    | some vs =>
      simp only [Option.bind_some]
      rcases setVars_rel outs vs e e' with ⟨h2, h3⟩ | ⟨f, f', h2, h3, h4⟩
      · rw [h2, h3]
        exact .inl ⟨rfl, rfl⟩
      · rw [h2, h3]
        exact runNodes_agree S ns hm.2.2 (fun x hx => hR x (List.mem_append_right _ hx)) fun x hx1 hx2 => h4 x (.inl (he x hx1 hx2))
theorem functions_agree (S : OpMeaning V) : ∀ (gs : List (FGraph V)) {C T : String → Prop} {R : List String} {e e' : Vars V},
    MarkedBodies C T gs → (∀ x ∈ bodiesConstRefs gs, x ∈ R) → Agree C T R e e' → functions S gs e = functions S gs e'
  | [], C, T, R, e, e', _, _, _ => by simp [functions]
  | g :: gs, C, T, R, e, e', hm, hR, he => by
    unfold MarkedBodies at hm
    unfold bodiesConstRefs at hR
    unfold functions
    rw [functions_agree S gs hm.2 (fun x hx => hR x (List.mem_append_right _ hx)) he]
    congr 1
    funext args
    exact run_agree S g hm.1 (fun x hx => hR x (List.mem_append_left _ hx)) he args
end

/-- A constant gives one value. -/
def GivesOne (S : OpMeaning V) : Prop := ∀ name ins, ∃ v, S .constant name ins [] = some [v]

/-- Leaving out constants whose name is not in `R`. -/
theorem runNodes_filter (S : OpMeaning V) (hS : GivesOne S) {C : String → Prop} {R : List String} :
    ∀ (ns : List (FNode V)) {e e' : Vars V}, MarkedNodes C (fun _ => False) ns → (∀ x ∈ nodesConstRefs ns, x ∈ R) →
      (∀ n ∈ ns, n.ty = .constant → (∃ a, n.outputs = [a] ∧ C a.name) ∧ n.bodies = []) → Agree C (fun _ => False) R e e' →
      (runNodes S ns e = none ∧ runNodes S (ns.filter (staysIn R)) e' = none) ∨
        ∃ f f', runNodes S ns e = some f ∧ runNodes S (ns.filter (staysIn R)) e' = some f' ∧ Agree C (fun _ => False) R f f'
  | [], e, e', _, _, _, he => .inr ⟨e, e', by simp [runNodes], by simp [runNodes], he⟩
  | .mk ty name ins outs refs bodies :: ns, e, e', hm, hR, hc, he => by
    unfold MarkedNodes at hm
    unfold nodesConstRefs ownCount at hR
    have hR' : ∀ x ∈ nodesConstRefs ns, x ∈ R := fun x hx => hR x (List.mem_append_right _ hx)
    have hc' := fun n hn => hc n (List.mem_cons_of_mem _ hn)
    by_cases hk : staysIn R (.mk ty name ins outs refs bodies) = true
    · rw [List.filter_cons_of_pos hk]
      unfold runNodes
      have h1 : (ins.take (ins.length - refs.length)).map (valueOf e) = (ins.take (ins.length - refs.length)).map (valueOf e') :=
        List.map_congr_left fun b hb => valueOf_agree he (hm.1 b hb) fun hs hn =>
          hR _ (List.mem_append_left _ (List.mem_append_left _ (mem_constNames hb hs hn)))
      rw [h1, functions_agree S bodies hm.2.1 (fun x hx => hR x (List.mem_append_left _ (List.mem_append_right _ hx)))
        (handed_agree he refs (ins.drop (ins.length - refs.length)))]
      cases S ty name ((ins.take (ins.length - refs.length)).map (valueOf e'))
          (functions S bodies (handed e' refs (ins.drop (ins.length - refs.length)))) with
      | none => exact .inl ⟨rfl, rfl⟩
      | some vs =>
        simp only [Option.bind_some]
        rcases setVars_rel outs vs e e' with ⟨h2, h3⟩ | ⟨f, f', h2, h3, h4⟩
        · rw [h2, h3]
          exact .inl ⟨rfl, rfl⟩
        · rw [h2, h3]
          exact runNodes_filter S hS ns hm.2.2 hR' hc' fun x hx1 hx2 => h4 x (.inl (he x hx1 hx2))
    · rw [List.filter_cons_of_neg hk]
      have hty : ty = .constant := by
        cases ty <;> first | rfl | exact absurd rfl hk
      subst hty
      obtain ⟨⟨a, ho, hCa⟩, hb⟩ := hc _ List.mem_cons_self rfl
      simp only [FNode.outputs] at ho
      simp only [FNode.bodies] at hb
      subst ho hb
      have hnot : a.name ∉ R := by
        intro h
        apply hk
        simp [staysIn, FNode.ty, FNode.outputs, firstOutput, h]
      obtain ⟨v, hv⟩ := hS name ((ins.take (ins.length - refs.length)).map (valueOf e))
      have hrun : runNodes S (.mk .constant name ins [a] refs [] :: ns) e = runNodes S ns (fun x => if x = a.name then some v else e x) := by
        rw [runNodes]
        simp only [functions, hv, Option.bind_some, setVars]
      rw [hrun]
      refine runNodes_filter S hS ns hm.2.2 hR' hc' fun x hx1 hx2 => ?_
      have hne : x ≠ a.name := fun h => hnot (h ▸ hx2 (h ▸ hCa))
      simpa [hne] using he x hx1 hx2

theorem dropDead_run (S : OpMeaning V) (hS : GivesOne S) (g : FGraph V) (hg : Proper g) (e : Vars V) (args : List V) :
    run S (dropDead g) e args = run S g e args := by
  obtain ⟨ins, nodes, outs⟩ := g
  obtain ⟨h1, h2, h3⟩ := hg
  generalize hR : constRefs (FGraph.mk ins nodes outs) = R
  have hRe : ∀ x ∈ nodesConstRefs nodes ++ constNames outs, x ∈ R := by
    intro x hx
    rw [← hR]
    unfold constRefs
    exact hx
  unfold Marked at h3
  have hC : (fun x => Consts (FGraph.mk ins nodes outs) x ∧ ∀ a ∈ ins, a.name ≠ x) = Consts (FGraph.mk ins nodes outs) := by
    funext x
    refine propext ⟨fun h => h.1, fun h => ⟨h, fun a ha hn => h2 a ha (hn ▸ h)⟩⟩
  have hT : (fun x => False ∧ ∀ a ∈ ins, a.name ≠ x) = fun _ : String => False := by simp
  rw [hC] at h3
  rw [hT] at h3
  unfold dropDead
  simp only [FGraph.inputs, FGraph.nodes, FGraph.outputs]
  rw [hR]
  unfold run
  cases hv : setVars e ins args with
  | none => rfl
  | some f =>
    simp only [Option.bind_some]
    rcases runNodes_filter S hS (C := Consts (FGraph.mk ins nodes outs)) (R := R) nodes (e := f) (e' := f) h3.1
        (fun x hx => hRe x (List.mem_append_left _ hx))
        (fun n hn hty => by
          obtain ⟨⟨a, ha⟩, hb, _⟩ := h1 n hn hty
          exact ⟨⟨a, ha, n, hn, hty, a, by simp [ha], rfl⟩, hb⟩) (fun _ _ _ => rfl) with ⟨h4, h5⟩ | ⟨k, k', h4, h5, h6⟩
    · rw [h4, h5]
    · rw [h4, h5]
      simp only [Option.bind_some]
      refine (mapM_eq fun b hb => valueOf_agree h6 (fun hr => ?_) fun hs hn => hRe _ (List.mem_append_right _ (mem_constNames hb hs hn))).symm
      have := h3.2 b hb hr
      exact ⟨fun h => h, fun hc => this.2 ⟨hc, fun a ha hn => h2 a ha (hn ▸ hc)⟩⟩

theorem markedNodes_filter {C T : String → Prop} (p : FNode V → Bool) : ∀ (ns : List (FNode V)), MarkedNodes C T ns →
    MarkedNodes C T (ns.filter p)
  | [], h => h
  | .mk ty name ins outs refs bodies :: ns, h => by
    unfold MarkedNodes at h
    by_cases hp : p (.mk ty name ins outs refs bodies) = true
    · rw [List.filter_cons_of_pos hp]
      unfold MarkedNodes
      exact ⟨h.1, h.2.1, markedNodes_filter p ns h.2.2⟩
    · rw [List.filter_cons_of_neg hp]
      exact markedNodes_filter p ns h.2.2

mutual
theorem finish_marked : ∀ (g : FGraph V) {C T : String → Prop}, Marked C T g → Marked C T (finish g)
  | .mk ins nodes outs, C, T, h => by
    unfold Marked at h
    unfold finish dropDead
    simp only [FGraph.inputs, FGraph.nodes, FGraph.outputs]
    unfold Marked
    exact ⟨markedNodes_filter _ _ (finishNodes_marked nodes h.1), h.2⟩
theorem finishNodes_marked : ∀ (ns : List (FNode V)) {C T : String → Prop}, MarkedNodes C T ns → MarkedNodes C T (finishNodes ns)
  | [], C, T, h => by
    unfold finishNodes
    exact h
  | .mk ty name ins outs refs bodies :: ns, C, T, h => by
    unfold MarkedNodes at h
    unfold finishNodes MarkedNodes
    exact ⟨h.1, finishBodies_marked bodies h.2.1, finishNodes_marked ns h.2.2⟩
theorem finishBodies_marked : ∀ (gs : List (FGraph V)) {C T : String → Prop}, MarkedBodies C T gs → MarkedBodies C T (finishBodies gs)
  | [], C, T, h => by
    unfold finishBodies
    exact h
  | g :: gs, C, T, h => by
    unfold MarkedBodies at h
    unfold finishBodies MarkedBodies
    exact ⟨finish_marked g h.1, finishBodies_marked gs h.2⟩
end

theorem mem_finishNodes : ∀ {ns : List (FNode V)} {m : FNode V}, m ∈ finishNodes ns ↔
    ∃ n ∈ ns, m = .mk n.ty (match n with | .mk _ name _ _ _ _ => name) n.inputs n.outputs n.refs (finishBodies n.bodies)
  | [], m => by simp [finishNodes]
  | .mk ty name ins outs refs bodies :: ns, m => by
    unfold finishNodes
    rw [List.mem_cons, mem_finishNodes (ns := ns)]
    simp only [List.mem_cons, exists_eq_or_imp, FNode.ty, FNode.inputs, FNode.outputs, FNode.refs, FNode.bodies]

theorem consts_finish (ins outs : List (Arg V)) (ns : List (FNode V)) :
    Consts (.mk ins (finishNodes ns) outs) = Consts (.mk ins ns outs) := by
  funext x
  refine propext ⟨?_, ?_⟩
  · rintro ⟨m, hm, hty, a, ha, hn⟩
    obtain ⟨n, hn', rfl⟩ := mem_finishNodes.1 hm
    exact ⟨n, hn', hty, a, ha, hn⟩
  · rintro ⟨n, hm, hty, a, ha, hn⟩
    exact ⟨_, mem_finishNodes.2 ⟨n, hm, rfl⟩, hty, a, ha, hn⟩

theorem proper_finish {ins outs : List (Arg V)} {ns : List (FNode V)} (h : Proper (.mk ins ns outs)) :
    Proper (.mk ins (finishNodes ns) outs) := by
  obtain ⟨h1, h2, h3⟩ := h
  refine ⟨?_, ?_, ?_⟩
  · intro m hm hty
    obtain ⟨n, hn, rfl⟩ := mem_finishNodes.1 hm
    obtain ⟨a, b, c⟩ := h1 n hn hty
    refine ⟨a, ?_, c⟩
    simp only [FNode.bodies] at b ⊢
    rw [b, finishBodies]
  · rw [consts_finish]
    exact h2
  · rw [consts_finish]
    unfold Marked at h3 ⊢
    exact ⟨finishNodes_marked ns h3.1, h3.2⟩

mutual
theorem finish_run (S : OpMeaning V) (hS : GivesOne S) : ∀ (g : FGraph V), AllProper g → ∀ e args, run S (finish g) e args = run S g e args
  | .mk ins nodes outs, h, e, args => by
    unfold AllProper at h
    unfold finish
    rw [dropDead_run S hS _ (proper_finish h.1), run, run]
    simp only [finishNodes_run S hS nodes h.2]
theorem finishNodes_run (S : OpMeaning V) (hS : GivesOne S) : ∀ (ns : List (FNode V)), AllProperNodes ns →
    ∀ e, runNodes S (finishNodes ns) e = runNodes S ns e
  | [], _, e => by simp [finishNodes]
  | .mk ty name ins outs refs bodies :: ns, h, e => by
    unfold AllProperNodes at h
    unfold finishNodes
    rw [runNodes, runNodes]
    simp only [finishNodes_run S hS ns h.2, finishBodies_run S hS bodies h.1]
theorem finishBodies_run (S : OpMeaning V) (hS : GivesOne S) : ∀ (gs : List (FGraph V)), AllProperBodies gs →
    ∀ e, functions S (finishBodies gs) e = functions S gs e
  | [], _, e => by simp [finishBodies]
  | g :: gs, h, e => by
    unfold AllProperBodies at h
    unfold finishBodies functions
    rw [finishBodies_run S hS gs h.2]
    congr 1
    funext args
    exact finish_run S hS g h.1 e args
end

/-- **C88.** Finishing a graph, its subgraphs at every depth included, changes no result: for every meaning of the operators (in which a
constant gives one value), all variables around it and all arguments. -/
theorem C88_results_partial (S : OpMeaning V) (hS : ∀ name ins, ∃ v, S .constant name ins [] = some [v]) (g : FGraph V)
    (hg : AllProper g) (e : Vars V) (args : List V) : run S (finish g) e args = run S g e args :=
  finish_run S hS g hg e args

theorem mem_nodesConstRefs : ∀ {ns : List (FNode V)} {x : String}, x ∈ nodesConstRefs ns →
    ∃ n ∈ ns, x ∈ constNames (n.inputs.take (ownCount n.inputs n.refs)) ∨ x ∈ bodiesConstRefs n.bodies
  | [], x, h => by simp [nodesConstRefs] at h
  | .mk ty name ins outs refs bodies :: ns, x, h => by
    unfold nodesConstRefs at h
    rcases List.mem_append.1 h with h | h
    · exact ⟨_, List.mem_cons_self, List.mem_append.1 h⟩
    · obtain ⟨n, hn, h⟩ := mem_nodesConstRefs h
      exact ⟨n, List.mem_cons_of_mem _ hn, h⟩

mutual
theorem uses_of_ref : ∀ (g : FGraph V) {x : String}, x ∈ constRefs g → Uses g x
  | .mk ins nodes outs, x, h => by
    unfold constRefs at h
    rcases List.mem_append.1 h with h | h
    · exact uses_of_nodes nodes (ins := ins) (outs := outs) (fun _ h => h) h
    · obtain ⟨b, hb, hs, rfl⟩ := constNames_mem h
      exact .output (g := .mk ins nodes outs) hb hs
theorem uses_of_nodes : ∀ (ns : List (FNode V)) {ins outs : List (Arg V)} {nodes : List (FNode V)} {x : String},
    (∀ n ∈ ns, n ∈ nodes) → x ∈ nodesConstRefs ns → Uses (.mk ins nodes outs) x
  | [], _, _, _, x, _, h => by simp [nodesConstRefs] at h
  | .mk ty name i o refs bodies :: ns, ins, outs, nodes, x, hn, h => by
    unfold nodesConstRefs at h
    rcases List.mem_append.1 h with h | h
    · rcases List.mem_append.1 h with h | h
      · obtain ⟨b, hb, hs, rfl⟩ := constNames_mem h
        exact .input (g := .mk ins nodes outs) (hn _ List.mem_cons_self) (List.mem_of_mem_take hb) hs
      · obtain ⟨k, hk, hu⟩ := uses_of_bodies bodies h
        exact .nested (g := .mk ins nodes outs) (hn _ List.mem_cons_self) hk hu
    · exact uses_of_nodes ns (fun n h => hn n (List.mem_cons_of_mem _ h)) h
theorem uses_of_bodies : ∀ (gs : List (FGraph V)) {x : String}, x ∈ bodiesConstRefs gs → ∃ g ∈ gs, Uses g x
  | [], x, h => by simp [bodiesConstRefs] at h
  | g :: gs, x, h => by
    unfold bodiesConstRefs at h
    rcases List.mem_append.1 h with h | h
    · exact ⟨g, List.mem_cons_self, uses_of_ref g h⟩
    · obtain ⟨k, hk, hu⟩ := uses_of_bodies gs h
      exact ⟨k, List.mem_cons_of_mem _ hk, hu⟩
end

/-- Constants refer to no constants, so leaving some out takes away no reference. -/
theorem constRefs_filter {R : List String} : ∀ {ns : List (FNode V)},
    (∀ n ∈ ns, n.ty = .constant → n.bodies = [] ∧ ∀ a ∈ n.inputs, ¬ ReadsVar a) →
      ∀ x, x ∈ nodesConstRefs (ns.filter (staysIn R)) ↔ x ∈ nodesConstRefs ns
  | [], _, x => by simp
  | .mk ty name ins outs refs bodies :: ns, h, x => by
    have ih := constRefs_filter (R := R) (fun n hn => h n (List.mem_cons_of_mem _ hn)) x
    by_cases hk : staysIn R (.mk ty name ins outs refs bodies) = true
    · rw [List.filter_cons_of_pos hk]
      unfold nodesConstRefs
      simp only [List.mem_append, ih]
    · rw [List.filter_cons_of_neg hk, ih]
      have hty : ty = .constant := by
        cases ty <;> first | rfl | exact absurd rfl hk
      subst hty
      obtain ⟨hb, hi⟩ := h _ List.mem_cons_self rfl
      simp only [FNode.bodies] at hb
      simp only [FNode.inputs] at hi
      subst hb
      conv => rhs; unfold nodesConstRefs
      simp only [List.mem_append, bodiesConstRefs, List.not_mem_nil, or_false]
      refine ⟨.inr, ?_⟩
      rintro (h | h)
      · obtain ⟨b, hb, hs, _⟩ := constNames_mem h
        exact absurd (.inl hs) (hi b (List.mem_of_mem_take hb))
      · exact h

/-- **C88.** Every constant that is left is read by an argument of the finished graph or of a graph in it. -/
theorem C88_only_used (g : FGraph V) (hg : AllProper g) (n : FNode V) (hn : n ∈ (finish g).nodes) (hc : n.ty = .constant) :
    ∃ a, n.outputs = [a] ∧ Uses (finish g) a.name := by
  obtain ⟨ins, nodes, outs⟩ := g
  unfold AllProper at hg
  obtain ⟨h1, _, _⟩ := proper_finish hg.1
  unfold finish dropDead at hn ⊢
  simp only [FGraph.inputs, FGraph.nodes, FGraph.outputs] at hn h1 ⊢
  generalize hR : constRefs (FGraph.mk ins (finishNodes nodes) outs) = R at hn ⊢
  obtain ⟨hm, hk⟩ := List.mem_filter.1 hn
  obtain ⟨⟨a, ha⟩, _⟩ := h1 n hm hc
  refine ⟨a, ha, uses_of_ref _ ?_⟩
  have hk' : a.name ∈ R := by
    simpa [staysIn, hc, ha, firstOutput] using hk
  rw [← hR] at hk'
  unfold constRefs at hk' ⊢
  rcases List.mem_append.1 hk' with h | h
  · exact List.mem_append_left _ ((constRefs_filter (fun n hn hc => ⟨(h1 n hn hc).2.1, (h1 n hn hc).2.2.2⟩) _).2 h)
  · exact List.mem_append_right _ h

/-- **C88.** Nothing else changes: the inputs, the outputs and, in their order, the nodes that are not constants. -/
theorem C88_rest_kept (g : FGraph V) : (dropDead g).inputs = g.inputs ∧ (dropDead g).outputs = g.outputs ∧
    (dropDead g).nodes.filter (fun n => decide (n.ty ≠ .constant)) = g.nodes.filter (fun n => decide (n.ty ≠ .constant)) := by
  refine ⟨rfl, rfl, ?_⟩
  simp only [dropDead, FGraph.nodes, List.filter_filter]
  refine List.filter_congr fun n _ => ?_
  cases h : n.ty <;> simp [staysIn, h]

/-! ### The hypotheses are met -/

def f32 : ArgType := .tensor ⟨.f32, 1, none⟩
def dyn (x : String) : Arg Nat := ⟨x, f32, .dynamic⟩
def con (x : String) : Arg Nat := ⟨x, f32, .constant⟩

/-- A constant with its data. -/
def constNode (name out : String) (v : Nat) : FNode Nat := .mk .constant name [⟨"", f32, .static v⟩] [con out] [] []

/-- A branch that adds a constant of the enclosing graph and one of its own; it has another one nobody reads. -/
def branch : FGraph Nat :=
  .mk [] [constNode "constant3" "constant3_out1" 30, constNode "constant4" "constant4_out1" 40,
    .mk .add "add1" [con "constant1_out1", con "constant3_out1"] [dyn "add1_out1"] [] [],
    .mk .add "add2" [dyn "add1_out1", dyn "x"] [dyn "add2_out1"] [] []] [dyn "add2_out1"]

/-- Two constants, one of them read in the branch only, and an If. -/
def caller : FGraph Nat :=
  .mk [dyn "x", dyn "b"] [constNode "constant1" "constant1_out1" 10, constNode "constant2" "constant2_out1" 20,
    .mk (.other "If") "if1" [dyn "b", dyn "x", con "constant1_out1"] [dyn "if1_out1"] ["x", "w"] [branch, branch]] [dyn "if1_out1"]

/-- Addition, constants, and a choice between two functions. -/
def meaning : OpMeaning Nat
  | .constant, _, [some v], _ => some [v]
  | .constant, _, _, _ => some [0]
  | .add, _, [some a, some b], _ => some [a + b]
  | .other _, _, [some c], [f, g] => if c = 1 then f [] else g []
  | _, _, _, _ => none

theorem caller_proper : AllProper caller := by
  simp [caller, branch, constNode, AllProper, AllProperNodes, AllProperBodies, Proper, Consts, Marked, MarkedNodes, MarkedBodies, From, ReadsVar,
    dyn, con, FGraph.nodes, FGraph.inputs, FNode.ty, FNode.outputs, FNode.bodies, FNode.refs, FNode.inputs]

example : AllProper caller ∧ (∀ name ins, ∃ v, meaning .constant name ins [] = some [v]) ∧
    run meaning caller (fun _ => none) [5, 1] = some [45] ∧ (finish caller).nodes.length = 2 ∧
    ((finish caller).nodes.map fun n => n.bodies.map fun h => h.nodes.length) = [[], [3, 3]] := by
  refine ⟨caller_proper, ?_, by decide +kernel, by decide +kernel, by decide +kernel⟩
  intro name ins
  match ins with
  | [] => exact ⟨0, rfl⟩
  | [none] => exact ⟨0, rfl⟩
  | [some v] => exact ⟨v, rfl⟩
  | none :: _ :: _ => exact ⟨0, rfl⟩
  | some _ :: _ :: _ => exact ⟨0, rfl⟩

example : ∃ n ∈ (finish caller).nodes, n.ty = .constant ∧ Uses (finish caller) "constant1_out1" := by
  obtain ⟨a, ha, hu⟩ := C88_only_used caller caller_proper (constNode "constant1" "constant1_out1" 10) (by
    have : (finish caller).nodes.head? = some (constNode "constant1" "constant1_out1" 10) := by rfl
    exact List.mem_of_mem_head? this) rfl
  obtain rfl : con "constant1_out1" = a := by
    have : [con "constant1_out1"] = [a] := ha
    simpa using this
  exact ⟨_, List.mem_of_mem_head? (show (finish caller).nodes.head? = some (constNode "constant1" "constant1_out1" 10) from rfl), rfl, hu⟩

/-- The marks matter: if the branch read the constant without the mark, the constant would be missing from the result. -/
theorem C88_unmarked_wrong :
    let body : FGraph Nat := .mk [] [.mk .add "add1" [dyn "constant1_out1", dyn "x"] [dyn "add1_out1"] [] []] [dyn "add1_out1"]
    let g : FGraph Nat := .mk [dyn "x", dyn "b"] [constNode "constant1" "constant1_out1" 10,
      .mk (.other "If") "if1" [dyn "b", dyn "x", con "constant1_out1"] [dyn "if1_out1"] ["x", "w"] [body, body]] [dyn "if1_out1"]
    run meaning g (fun _ => none) [5, 1] = some [15] ∧ run meaning (finish g) (fun _ => none) [5, 1] = none := by
  decide +kernel

end OnnxIR.Nested
