import Verif.Props.TypeInference
import Verif.Spec.ElemRun

/-!
# C15: element types

The induction over the rounds of type inference, for the element types of a run.
-/

namespace OnnxIR

variable {V : Type}

theorem elemSound_skel {R : Rules V} {δ : Elems} {n m : Node V} (h : n.skel = m.skel)
    (hs : ElemSoundFor R δ n) : ElemSoundFor R δ m :=
  ⟨fun k prefs tys hk => hs.1 k prefs tys (hk.trans h.symm), fun k hk => hs.2 k (hk.trans h.symm)⟩

theorem elemSound_all {R : Rules V} {δ : Elems} {ns ms : List (Node V)}
    (h : ns.map Node.skel = ms.map Node.skel) (hs : ∀ n ∈ ns, ElemSoundFor R δ n) :
    ∀ m ∈ ms, ElemSoundFor R δ m := by
  intro m hm
  have : m.skel ∈ ns.map Node.skel := h ▸ List.mem_map_of_mem hm
  obtain ⟨n, hn, he⟩ := List.mem_map.1 this
  exact elemSound_skel he (hs n hn)

theorem merge_elem {a b : ArgType} {d : DType} (h : a.HasElem d) : (a.mergeStaticShape b).HasElem d := by
  cases a <;> cases b <;> simp only [ArgType.mergeStaticShape] <;> try exact h
  next s o =>
    simp only [TensorType.mergeStaticShape]
    split
    · exact h
    · split <;> (try split) <;> exact h

/-- The nodes still to be inferred: outputs annotated truthfully or not at all, and truthful inputs
where no node to come will set them. -/
def ElemReady (δ : Elems) (rest : List (Node V)) : Prop :=
  ∀ n ∈ rest, (∀ o ∈ n.outputs, ElemTrue δ o ∨ o.ty.Unknown) ∧
    ∀ a ∈ n.inputs, a.name ∉ rest.flatMap Node.outNames → ElemTrue δ a

/-- All annotations are truthful. -/
def ElemAll (δ : Elems) (nodes : List (Node V)) : Prop :=
  ∀ n ∈ nodes, (∀ a ∈ n.inputs, ElemTrue δ a) ∧ ∀ o ∈ n.outputs, ElemTrue δ o

theorem syncArg_elem {δ : Elems} {types : String → Option ArgType} {a : Arg V}
    (ht : ∀ t, types a.name = some t → ∀ d, δ a.name = some d → t.HasElem d)
    (h : (∃ t, types a.name = some t) ∨ ElemTrue δ a) : ElemTrue δ (syncArg types a) := by
  intro d hd
  rw [(syncArg_name types a).1] at hd
  cases hx : types a.name with
  | none =>
    simp only [syncArg, hx]
    rcases h with ⟨t, h⟩ | h
    · simp [hx] at h
    · exact h d hd
  | some t => simp only [syncArg, hx]; exact merge_elem (ht t hx d hd)

theorem pushOutputs_elem {δ : Elems} {os : List (Arg V)} {rest : List (Node V)}
    (ho : ∀ o ∈ os, ElemTrue δ o)
    (hr : ∀ n ∈ rest, (∀ o ∈ n.outputs, ElemTrue δ o ∨ o.ty.Unknown) ∧ ∀ a ∈ n.inputs,
      (a.name ∉ os.map Arg.name → a.name ∉ rest.flatMap Node.outNames → ElemTrue δ a)) :
    ElemReady δ (pushOutputs os rest).1 := by
  induction os generalizing rest with
  | nil =>
    intro n hn
    exact ⟨(hr n hn).1, fun a ha => (hr n hn).2 a ha (by simp)⟩
  | cons o os ih =>
    simp only [pushOutputs]
    refine ih (fun p hp => ho p (by simp [hp])) ?_
    rw [skels_outNames (syncNodes_skel (oneType o) rest)]
    intro n hn
    obtain ⟨m, hm, rfl⟩ := syncNodes_mem hn
    refine ⟨(hr m hm).1, fun a ha => ?_⟩
    obtain ⟨b, hb, rfl⟩ := List.mem_map.1 ha
    have h2 := (hr m hm).2 b hb
    have ht : ∀ t, oneType o b.name = some t → ∀ d, δ b.name = some d → t.HasElem d := by
      intro t ht s hs
      unfold oneType at ht
      split at ht
      · next he => cases ht; exact ho o (by simp) s (he ▸ hs)
      · cases ht
    intro h3 h4
    rw [(syncArg_name _ b).1] at h3 h4
    by_cases he : b.name = o.name
    · exact syncArg_elem ht (.inl ⟨o.ty, by simp [oneType, he]⟩)
    · exact syncArg_elem ht (.inr (h2 (by simp [he, h3]) h4))

theorem inferPass_elem {R : Rules V} {δ : Elems} {prefs : String → OutPrefs}
    (hp : ∀ n o, Pref.shape ∈ prefs n o → IsI64 δ o) : ∀ {fuel : Nat}
    {nodes done : List (Node V)} {ch : Bool}, OrderedNodes nodes → ElemReady δ nodes →
    (∀ n ∈ nodes, ElemSoundFor R δ n) → inferPass R prefs fuel nodes = some (done, ch) →
    ElemAll δ done := by
  intro fuel
  induction fuel with
  | zero =>
    intro nodes done ch _ _ _ h
    cases nodes <;> simp [inferPass] at h
    simp [ElemAll, h.1]
  | succ fuel ih =>
    intro nodes done ch ho hr hs h
    cases nodes with
    | nil => simp [inferPass] at h; simp [ElemAll, h.1]
    | cons n rest =>
      simp only [inferPass] at h
      split at h
      · cases h
      · split at h
        · cases h
        · next tys hinf =>
          split at h
          · cases h
          · next hz =>
            split at h
            · cases h
            · next done' ch' hrec =>
              simp only [Option.some.injEq, Prod.mk.injEq] at h
              rw [← h.1]
              have hin : ∀ a ∈ n.inputs, ElemTrue δ a := by
                intro a ha
                refine (hr n (by simp)).2 a ha ?_
                have := ho.1 a.name (List.mem_map_of_mem ha)
                simp only [List.flatMap_cons, List.mem_append, not_or]
                exact this
              have hout : ∀ o ∈ setTypes n.outputs tys, ElemTrue δ o := by
                intro o ho
                obtain ⟨k, hk⟩ := List.mem_iff_getElem?.1 ho
                rw [setTypes_get] at hk
                obtain ⟨a, ha, rfl⟩ := Option.map_eq_some_iff.1 hk
                rcases (hs n (by simp)).1 n (prefs n.name) tys rfl hin (hr n (by simp)).1
                  (fun o _ => hp n.name o.name) hinf k a ha with hu | ht
                · simp only [noRankZeroOutput, Node.withOutputs, Bool.not_eq_true', Bool.not_eq_false,
                    List.all_eq_true] at hz
                  have := hz _ ho
                  simp [show (tys[k]?).getD a.ty = _ from hu] at this
                · exact ht
              have hnames : (setTypes n.outputs tys).map Arg.name = n.outNames := by
                have := congrArg (List.map Prod.fst) (setTypes_names n.outputs tys)
                simpa [List.map_map, Function.comp_def, Node.outNames] using this
              have hready : ElemReady δ (pushOutputs (setTypes n.outputs tys) rest).1 := by
                refine pushOutputs_elem hout fun m hm => ⟨(hr m (by simp [hm])).1, fun a ha => ?_⟩
                have h2 := (hr m (by simp [hm])).2 a ha
                refine fun h3 h4 => h2 ?_
                rw [hnames] at h3
                simp only [List.flatMap_cons, List.mem_append, not_or]
                exact ⟨h3, h4⟩
              have hsk := pushOutputs_skel (setTypes n.outputs tys) rest
              have hrest := ih (ordered_skel hsk.symm ho.2) hready
                (elemSound_all hsk.symm fun m hm => hs m (by simp [hm])) hrec
              intro m hm
              rcases List.mem_cons.1 hm with rfl | hm
              · exact ⟨hin, hout⟩
              · exact hrest m hm

theorem outputType_elem {δ : Elems} {nodes : List (Node V)} (h : ElemAll δ nodes) {x : String}
    {t : ArgType} (ht : outputType nodes x = some t) : ∀ d, δ x = some d → t.HasElem d := by
  obtain ⟨o, ho, rfl, rfl⟩ := outputType_mem ht
  obtain ⟨n, hn, hon⟩ := List.mem_flatMap.1 ho
  exact (h n hn).2 o hon

theorem syncNodes_elem {δ : Elems} {types : String → Option ArgType} {nodes : List (Node V)}
    (h : ElemAll δ nodes) (ht : ∀ x t, types x = some t → ∀ d, δ x = some d → t.HasElem d) :
    ElemAll δ (syncNodes types nodes) := by
  intro n hn
  obtain ⟨m, hm, rfl⟩ := syncNodes_mem hn
  refine ⟨fun a ha => ?_, (h m hm).2⟩
  obtain ⟨b, hb, rfl⟩ := List.mem_map.1 ha
  exact syncArg_elem (ht b.name) (.inr ((h m hm).1 b hb))

theorem ElemAll.ready {δ : Elems} {nodes : List (Node V)} (h : ElemAll δ nodes) : ElemReady δ nodes :=
  fun n hn => ⟨fun o ho => .inl ((h n hn).2 o ho), fun a ha _ => (h n hn).1 a ha⟩

/-- The collected requests for dimensions are for 64-bit integers. -/
def WishesOk (δ : Elems) (c : Collected) : Prop := ∀ e ∈ c, e.2.2 = Pref.shape → IsI64 δ e.1

theorem prefsFor_ok {δ : Elems} {c : Collected} (h : WishesOk δ c) (nodes : List (Node V)) (n o : String)
    (hm : Pref.shape ∈ prefsFor nodes c n o) : IsI64 δ o := by
  simp only [prefsFor, List.mem_map, List.mem_filter, Bool.and_eq_true, decide_eq_true_eq] at hm
  obtain ⟨e, ⟨he, ho, _⟩, hs⟩ := hm
  exact ho ▸ h e he hs

theorem collect_ok {R : Rules V} {δ : Elems} {nodes : List (Node V)} {c : Collected} (hc : WishesOk δ c)
    (hs : ∀ n ∈ nodes, ElemSoundFor R δ n) (ha : ElemAll δ nodes) : WishesOk δ (collectPrefs R nodes c).1 := by
  intro e he hsh
  simp only [collectPrefs, List.mem_append, List.mem_filter, List.mem_flatMap, List.mem_filterMap,
    decide_eq_true_eq] at he
  rcases he with he | ⟨⟨n, hn, a, _, w, ⟨hw, hwa⟩, hsome⟩, _⟩
  · exact hc e he hsh
  · split at hsome
    · simp only [Option.some.injEq] at hsome
      subst hsome
      have : w = (a.name, Pref.shape) := Prod.ext hwa hsh
      exact (hs n hn).2 n rfl (ha n hn).1 a.name (this ▸ hw)
    · cases hsome

theorem inferRound_elem {R : Rules V} {δ : Elems} {first : Bool} {c c' : Collected}
    {nodes nodes' : List (Node V)} {again : Bool} (ho : OrderedNodes nodes) (hc : WishesOk δ c)
    (hr : if first then ElemReady δ nodes else ElemAll δ nodes) (hs : ∀ n ∈ nodes, ElemSoundFor R δ n)
    (h : inferRound R first c nodes = some (nodes', c', again)) : ElemAll δ nodes' ∧ WishesOk δ c' := by
  have hsk := inferRound_skel h
  simp only [inferRound] at h
  split at h
  · cases h
  · next nodes2 ch hp =>
    simp only [Option.some.injEq, Prod.mk.injEq] at h
    have hpr := fun n o => prefsFor_ok hc nodes n o
    have h2 : ElemAll δ nodes2 := by
      cases first with
      | true => exact inferPass_elem hpr ho (by simpa using hr) hs hp
      | false =>
        simp only [Bool.false_eq_true, if_false] at hr hp
        have hsk := syncNodes_skel (outputType nodes) nodes
        exact inferPass_elem hpr (ordered_skel hsk.symm ho)
          (syncNodes_elem hr fun x t ht => outputType_elem hr ht).ready (elemSound_all hsk.symm hs) hp
    have h3 : ElemAll δ nodes' := by
      rw [← h.1]
      exact syncNodes_elem h2 fun x t ht => outputType_elem h2 ht
    refine ⟨h3, ?_⟩
    rw [← h.2.1, h.1]
    exact collect_ok hc (elemSound_all hsk.symm hs) h3

theorem inferRounds_elem {R : Rules V} {δ : Elems} : ∀ {k : Nat} {first : Bool} {c : Collected}
    {nodes nodes' : List (Node V)} {conv : Bool}, (first = true → 0 < k) → OrderedNodes nodes →
    WishesOk δ c → (if first then ElemReady δ nodes else ElemAll δ nodes) →
    (∀ n ∈ nodes, ElemSoundFor R δ n) → inferRounds R k first c nodes = some (nodes', conv) →
    ElemAll δ nodes' := by
  intro k
  induction k with
  | zero =>
    intro first c nodes nodes' conv hk ho _ hr hs h
    simp only [inferRounds, Option.some.injEq, Prod.mk.injEq] at h
    cases first with
    | true => simp at hk
    | false => rw [← h.1]; simpa using hr
  | succ k ih =>
    intro first c nodes nodes' conv _ ho hc hr hs h
    simp only [inferRounds] at h
    split at h
    · cases h
    · next n1 c1 again hround =>
      have h1 := inferRound_elem ho hc hr hs hround
      have h2 := inferRound_skel hround
      split at h
      · exact ih (first := false) (by simp) (ordered_skel h2.symm ho) h1.2 (by simpa using h1.1)
          (elemSound_all h2.symm hs) h
      · simp only [Option.some.injEq, Prod.mk.injEq] at h
        rw [← h.1]; exact h1.1

/-- **C15, element types.** Type inference over a topologically ordered graph whose external values are
annotated with the element types they have, and whose other values are annotated truthfully or not at
all, with operator rules sound for the run: every annotation of every input and output names the element
type of the value computed at run time, whatever the number of rounds. -/
theorem C15_element_types_sound (R : Rules V) (δ : Elems) (nodes nodes' : List (Node V)) (conv : Bool)
    (hord : OrderedNodes nodes)
    (hext : ∀ n ∈ nodes, ∀ a ∈ n.inputs, a.name ∉ nodes.flatMap Node.outNames → ElemTrue δ a)
    (hopen : ∀ n ∈ nodes, ∀ o ∈ n.outputs, ElemTrue δ o ∨ o.ty.Unknown)
    (hsound : ∀ n ∈ nodes, ElemSoundFor R δ n) (h : inferTypes R nodes = some (nodes', conv)) :
    ∀ n ∈ nodes', (∀ a ∈ n.inputs, ElemTrue δ a) ∧ ∀ o ∈ n.outputs, ElemTrue δ o := by
  unfold inferTypes at h
  split at h
  · refine inferRounds_elem (first := true) (by simp [maxRounds]) hord (by intro e he; simp at he) ?_ hsound h
    simp only [if_true]
    intro n hn
    exact ⟨hopen n hn, hext n hn⟩
  · cases h

end OnnxIR
