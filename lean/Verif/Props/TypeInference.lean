import Verif.Props.Broadcast
import Verif.Spec.Truth

/-!
# C15, C44: the type-inference phase

`C15_inference_sound`: with sound operator rules, every annotation after inference is true of the
run, for every graph in topological order and whatever the number of rounds.
`C44_fixed_point`: after every round, so also at the end, the output types of every node are those
its rule gives for its final input types.
-/

namespace OnnxIR

variable {V : Type}

/-! ## Merging with a harmless annotation -/

theorem Truthful.harmless {σ : Shapes} {a : Arg V} (h : Truthful σ a) : Harmless σ a := by
  intro s t hs ht _ p hp
  have := (h s hs).1
  rw [ht] at this
  exact this.2 p hp

theorem merge_admits {a b : ArgType} {s : List Nat} (ha : a.Admits s)
    (hb : ∀ t, b = .tensor t → t.rank = s.length → ∀ p, t.staticShape = some p → p.Describes s) :
    (a.mergeStaticShape b).Admits s := by
  cases a with
  | tensor x =>
    cases b with
    | tensor y =>
      simp only [ArgType.mergeStaticShape, ArgType.Admits] at *
      unfold TensorType.mergeStaticShape
      split
      · exact ha
      · next hr =>
        have hr' : y.rank = s.length := by have := ha.1; simp at hr; omega
        split
        · next o hx hy =>
          split
          · refine ⟨ha.1, fun p hp => ?_⟩; cases hp; exact hb y rfl hr' o hy
          · exact ha
        · next p o hx hy =>
          split
          · refine ⟨ha.1, fun p' hp => ?_⟩; cases hp
            exact mergeDims_describes (ha.2 p hx) (hb y rfl hr' o hy)
          · exact ha
        · exact ha
    | _ => exact ha
  | _ => exact ha

theorem merge_fits {a b : ArgType} {s : List Nat} (ha : a.Fits s)
    (hb : ∀ t, b = .tensor t → t.rank = s.length → ∀ p, t.staticShape = some p → p.Describes s) :
    (a.mergeStaticShape b).Fits s := by
  refine ⟨merge_admits ha.1 hb, ?_⟩
  intro u hu
  have h1 := merge_admits ha.1 hb
  rw [hu] at h1
  cases a with
  | tensor x =>
    have h2 := ha.1
    simp only [ArgType.Admits] at h1 h2
    have := ha.2 x rfl
    omega
  | _ => cases b <;> simp [ArgType.mergeStaticShape] at hu

theorem mergeDims_absorb {p q : PShape} (h : p.length = q.length) :
    mergeDims p (mergeDims p q) = mergeDims p q := by
  apply List.ext_getElem?
  intro i
  rw [mergeDims_get (by rw [mergeDims_length]), mergeDims_get h]
  cases p[i]? with
  | none => rfl
  | some o => cases o <;> rfl

theorem mergeDims_self (p : PShape) : mergeDims p p = p := by
  apply List.ext_getElem?
  intro i
  rw [mergeDims_get rfl]
  cases p[i]? with
  | none => rfl
  | some o => cases o <;> rfl

theorem merge_self (x : TensorType) : x.mergeStaticShape x = x := by
  obtain ⟨dt, rk, ss⟩ := x
  cases ss with
  | none => simp [TensorType.mergeStaticShape]
  | some p => simp [TensorType.mergeStaticShape, mergeDims_self]

theorem merge_absorb (a b : ArgType) :
    a.mergeStaticShape (a.mergeStaticShape b) = a.mergeStaticShape b := by
  cases a with
  | tensor x =>
    cases b with
    | tensor y =>
      obtain ⟨dt, rk, ss⟩ := x
      simp only [ArgType.mergeStaticShape, ArgType.tensor.injEq]
      by_cases hr : rk = y.rank
      · subst hr
        cases ss with
        | none =>
          cases hy : y.staticShape with
          | none => simp [TensorType.mergeStaticShape, hy]
          | some o =>
            by_cases hl : o.length = y.rank <;> simp [TensorType.mergeStaticShape, hy, hl]
        | some p =>
          cases hy : y.staticShape with
          | none => simp [TensorType.mergeStaticShape, hy, mergeDims_self]
          | some o =>
            by_cases hl : p.length = o.length
            · simp [TensorType.mergeStaticShape, hy, hl, mergeDims_length, mergeDims_absorb hl]
            · simp [TensorType.mergeStaticShape, hy, hl, mergeDims_self]
      · have : TensorType.mergeStaticShape ⟨dt, rk, ss⟩ y = ⟨dt, rk, ss⟩ := by
          simp [TensorType.mergeStaticShape, hr]
        rw [this, merge_self]
    | _ => simp only [ArgType.mergeStaticShape, merge_self]
  | _ => cases b <;> rfl

/-! ## Skeletons -/

theorem setTypes_get : ∀ (as : List (Arg V)) (ts : List ArgType) (k : Nat),
    (setTypes as ts)[k]? = as[k]?.map fun a => ⟨a.name, (ts[k]?).getD a.ty, a.src⟩
  | [], ts, k => by simp [setTypes]
  | a :: as, [], k => by simp [setTypes]
  | a :: as, t :: ts, 0 => by simp [setTypes]
  | a :: as, t :: ts, k + 1 => by simpa [setTypes] using setTypes_get as ts k

theorem setTypes_names (as : List (Arg V)) (ts : List ArgType) :
    (setTypes as ts).map (fun a => (a.name, a.src)) = as.map fun a => (a.name, a.src) := by
  induction as generalizing ts with
  | nil => cases ts <;> rfl
  | cons a as ih => cases ts <;> simp [setTypes, ih]

theorem syncArg_name (types : String → Option ArgType) (a : Arg V) :
    (syncArg types a).name = a.name ∧ (syncArg types a).src = a.src := by
  unfold syncArg; split <;> simp

theorem syncNodes_skel (types : String → Option ArgType) (nodes : List (Node V)) :
    (syncNodes types nodes).map Node.skel = nodes.map Node.skel := by
  simp only [syncNodes, List.map_map]
  apply List.map_congr_left
  intro n _
  simp [Node.skel, Node.withInputs, syncArg_name]

theorem pushOutputs_skel (os : List (Arg V)) (rest : List (Node V)) :
    (pushOutputs os rest).1.map Node.skel = rest.map Node.skel := by
  induction os generalizing rest with
  | nil => rfl
  | cons o os ih => simp only [pushOutputs]; rw [ih, syncNodes_skel]

theorem skel_inNames {n m : Node V} (h : n.skel = m.skel) : n.inNames = m.inNames := by
  have := congrArg (fun s => s.inputs.map Prod.fst) h
  simpa [Node.skel, Node.inNames, List.map_map, Function.comp_def] using this

theorem skel_outNames {n m : Node V} (h : n.skel = m.skel) : n.outNames = m.outNames := by
  have := congrArg (fun s => s.outputs.map Prod.fst) h
  simpa [Node.skel, Node.outNames, List.map_map, Function.comp_def] using this

theorem skels_outNames {ns ms : List (Node V)} (h : ns.map Node.skel = ms.map Node.skel) :
    ns.flatMap Node.outNames = ms.flatMap Node.outNames := by
  induction ns generalizing ms with
  | nil => cases ms <;> simp_all
  | cons n ns ih =>
    cases ms with
    | nil => simp at h
    | cons m ms =>
      simp only [List.map_cons, List.cons.injEq] at h
      simp [skel_outNames h.1, ih h.2]

theorem ordered_skel {ns ms : List (Node V)} (h : ns.map Node.skel = ms.map Node.skel)
    (ho : OrderedNodes ns) : OrderedNodes ms := by
  induction ns generalizing ms with
  | nil => cases ms <;> simp_all [OrderedNodes]
  | cons n ns ih =>
    cases ms with
    | nil => simp at h
    | cons m ms =>
      simp only [List.map_cons, List.cons.injEq] at h
      refine ⟨?_, ih h.2 ho.2⟩
      rw [← skel_inNames h.1, ← skel_outNames h.1, ← skels_outNames h.2]
      exact ho.1

theorem soundFor_skel {R : Rules V} {σ : Shapes} {n m : Node V} (h : n.skel = m.skel)
    (hs : SoundFor R σ n) : SoundFor R σ m := by
  intro k prefs tys hk
  exact hs k prefs tys (hk.trans h.symm)

theorem soundAll_skel {R : Rules V} {σ : Shapes} {ns ms : List (Node V)}
    (h : ns.map Node.skel = ms.map Node.skel) (hs : ∀ n ∈ ns, SoundFor R σ n) :
    ∀ m ∈ ms, SoundFor R σ m := by
  intro m hm
  have : m.skel ∈ ns.map Node.skel := h ▸ List.mem_map_of_mem hm
  obtain ⟨n, hn, he⟩ := List.mem_map.1 this
  exact soundFor_skel he (hs n hn)

/-! ## C15 -/

/-- The nodes still to be inferred: harmless annotations, and truthful ones for the inputs no node to
come will set. -/
def Ready (σ : Shapes) (rest : List (Node V)) : Prop :=
  ∀ n ∈ rest, (∀ o ∈ n.outputs, Harmless σ o) ∧ ∀ a ∈ n.inputs, Harmless σ a ∧
    (a.name ∉ rest.flatMap Node.outNames → Truthful σ a)

/-- All annotations are truthful. -/
def AllTrue (σ : Shapes) (nodes : List (Node V)) : Prop :=
  ∀ n ∈ nodes, (∀ a ∈ n.inputs, Truthful σ a) ∧ ∀ o ∈ n.outputs, Truthful σ o

theorem syncArg_truthful {σ : Shapes} {types : String → Option ArgType} {a : Arg V}
    (ha : Harmless σ a) (ht : ∀ t, types a.name = some t → ∀ s, σ a.name = some s → t.Fits s) :
    (∃ t, types a.name = some t) → Truthful σ (syncArg types a) := by
  rintro ⟨t, h⟩ s hs
  simp only [syncArg, h] at hs ⊢
  exact merge_fits (ht t h s hs) fun u hu hr p hp => ha s u hs hu hr p hp

/-- Syncing with true types keeps truthful and harmless annotations. -/
theorem syncArg_keeps {σ : Shapes} {types : String → Option ArgType} {a : Arg V}
    (ha : Harmless σ a) (ht : ∀ t, types a.name = some t → ∀ s, σ a.name = some s → t.Fits s) :
    Harmless σ (syncArg types a) ∧ (Truthful σ a → Truthful σ (syncArg types a)) := by
  cases h : types a.name with
  | none => simp only [syncArg, h]; exact ⟨ha, id⟩
  | some t =>
    have := syncArg_truthful ha ht ⟨t, h⟩
    exact ⟨this.harmless, fun _ => this⟩

theorem syncNodes_mem {types : String → Option ArgType} {nodes : List (Node V)} {n : Node V}
    (h : n ∈ syncNodes types nodes) :
    ∃ m ∈ nodes, n = m.withInputs (m.inputs.map (syncArg types)) := by
  obtain ⟨m, hm, rfl⟩ := List.mem_map.1 h
  exact ⟨m, hm, rfl⟩

/-- Pushing truthful outputs: the inputs that read them become truthful. -/
theorem pushOutputs_ready {σ : Shapes} {os : List (Arg V)} {rest : List (Node V)}
    (ho : ∀ o ∈ os, Truthful σ o)
    (hr : ∀ n ∈ rest, (∀ o ∈ n.outputs, Harmless σ o) ∧ ∀ a ∈ n.inputs, Harmless σ a ∧
      (a.name ∉ os.map Arg.name → a.name ∉ rest.flatMap Node.outNames → Truthful σ a)) :
    Ready σ (pushOutputs os rest).1 := by
  induction os generalizing rest with
  | nil =>
    intro n hn
    exact ⟨(hr n hn).1, fun a ha => ⟨((hr n hn).2 a ha).1, ((hr n hn).2 a ha).2 (by simp)⟩⟩
  | cons o os ih =>
    simp only [pushOutputs]
    refine ih (fun p hp => ho p (by simp [hp])) ?_
    rw [skels_outNames (syncNodes_skel (oneType o) rest)]
    intro n hn
    obtain ⟨m, hm, rfl⟩ := syncNodes_mem hn
    refine ⟨(hr m hm).1, fun a ha => ?_⟩
    obtain ⟨b, hb, rfl⟩ := List.mem_map.1 ha
    obtain ⟨h1, h2⟩ := (hr m hm).2 b hb
    have ht : ∀ t, oneType o b.name = some t → ∀ s, σ b.name = some s → t.Fits s := by
      intro t ht s hs
      unfold oneType at ht
      split at ht
      · next he => cases ht; exact ho o (by simp) s (he ▸ hs)
      · cases ht
    refine ⟨(syncArg_keeps h1 ht).1, fun h3 h4 => ?_⟩
    rw [(syncArg_name _ b).1] at h3 h4
    by_cases he : b.name = o.name
    · exact syncArg_truthful h1 ht ⟨o.ty, by simp [oneType, he]⟩
    · exact (syncArg_keeps h1 ht).2 (h2 (by simp [he, h3]) h4)

theorem inferPass_skel {R : Rules V} {prefs : String → OutPrefs} : ∀ {fuel : Nat}
    {nodes done : List (Node V)} {ch : Bool},
    inferPass R prefs fuel nodes = some (done, ch) → done.map Node.skel = nodes.map Node.skel := by
  intro fuel
  induction fuel with
  | zero =>
    intro nodes done ch h
    cases nodes <;> simp [inferPass] at h
    simp [h.1]
  | succ fuel ih =>
    intro nodes done ch h
    cases nodes with
    | nil => simp [inferPass] at h; simp [h.1]
    | cons n rest =>
      simp only [inferPass] at h
      split at h
      · cases h
      · split at h
        · cases h
        · split at h
          · cases h
          · split at h
            · cases h
            · next hrec =>
              simp only [Option.some.injEq, Prod.mk.injEq] at h
              rw [← h.1, List.map_cons, ih hrec, pushOutputs_skel]
              simp [Node.skel, Node.withOutputs, setTypes_names]

theorem inferPass_true {R : Rules V} {σ : Shapes} {prefs : String → OutPrefs} : ∀ {fuel : Nat}
    {nodes done : List (Node V)} {ch : Bool}, OrderedNodes nodes → Ready σ nodes →
    (∀ n ∈ nodes, SoundFor R σ n) → inferPass R prefs fuel nodes = some (done, ch) →
    AllTrue σ done := by
  intro fuel
  induction fuel with
  | zero =>
    intro nodes done ch _ _ _ h
    cases nodes <;> simp [inferPass] at h
    simp [AllTrue, h.1]
  | succ fuel ih =>
    intro nodes done ch ho hr hs h
    cases nodes with
    | nil => simp [inferPass] at h; simp [AllTrue, h.1]
    | cons n rest =>
      simp only [inferPass] at h
      split at h
      · cases h
      · split at h
        · cases h
        · next tys hinf =>
          split at h
          · cases h
          · next hz =>
            split at h
            · cases h
            · next done' ch' hrec =>
              simp only [Option.some.injEq, Prod.mk.injEq] at h
              rw [← h.1]
              have hin : ∀ a ∈ n.inputs, Truthful σ a := by
                intro a ha
                refine ((hr n (by simp)).2 a ha).2 ?_
                have := ho.1 a.name (List.mem_map_of_mem ha)
                simp only [List.flatMap_cons, List.mem_append, not_or]
                exact this
              have hout : ∀ o ∈ setTypes n.outputs tys, Truthful σ o := by
                intro o ho
                obtain ⟨k, hk⟩ := List.mem_iff_getElem?.1 ho
                rw [setTypes_get] at hk
                obtain ⟨a, ha, rfl⟩ := Option.map_eq_some_iff.1 hk
                intro s hσ
                refine ⟨hs n (by simp) n (prefs n.name) tys rfl hin (hr n (by simp)).1 hinf k a ha s hσ, ?_⟩
                intro u hu
                simp only [noRankZeroOutput, Node.withOutputs, Bool.not_eq_true', Bool.not_eq_false,
                  List.all_eq_true] at hz
                have := hz _ ho
                rw [hu] at this
                simpa using this
              have hnames : (setTypes n.outputs tys).map Arg.name = n.outNames := by
                have := congrArg (List.map Prod.fst) (setTypes_names n.outputs tys)
                simpa [List.map_map, Function.comp_def, Node.outNames] using this
              have hready : Ready σ (pushOutputs (setTypes n.outputs tys) rest).1 := by
                refine pushOutputs_ready hout fun m hm => ⟨(hr m (by simp [hm])).1, fun a ha => ?_⟩
                obtain ⟨h1, h2⟩ := (hr m (by simp [hm])).2 a ha
                refine ⟨h1, fun h3 h4 => h2 ?_⟩
                rw [hnames] at h3
                simp only [List.flatMap_cons, List.mem_append, not_or]
                exact ⟨h3, h4⟩
              have hsk := pushOutputs_skel (setTypes n.outputs tys) rest
              have hrest := ih (ordered_skel hsk.symm ho.2) hready
                (soundAll_skel hsk.symm fun m hm => hs m (by simp [hm])) hrec
              intro m hm
              rcases List.mem_cons.1 hm with rfl | hm
              · exact ⟨hin, hout⟩
              · exact hrest m hm

theorem outputType_mem {nodes : List (Node V)} {x : String} {t : ArgType}
    (h : outputType nodes x = some t) : ∃ o ∈ nodes.flatMap Node.outputs, o.name = x ∧ o.ty = t := by
  obtain ⟨o, ho, rfl⟩ := Option.map_eq_some_iff.1 h
  have h1 := List.mem_of_find?_eq_some ho
  have h2 := List.find?_some ho
  exact ⟨o, by simpa using h1, by simpa using h2, rfl⟩

theorem outputType_true {σ : Shapes} {nodes : List (Node V)} (h : AllTrue σ nodes) {x : String}
    {t : ArgType} (ht : outputType nodes x = some t) : ∀ s, σ x = some s → t.Fits s := by
  obtain ⟨o, ho, rfl, rfl⟩ := outputType_mem ht
  obtain ⟨n, hn, hon⟩ := List.mem_flatMap.1 ho
  exact (h n hn).2 o hon

theorem syncNodes_true {σ : Shapes} {types : String → Option ArgType} {nodes : List (Node V)}
    (h : AllTrue σ nodes) (ht : ∀ x t, types x = some t → ∀ s, σ x = some s → t.Fits s) :
    AllTrue σ (syncNodes types nodes) := by
  intro n hn
  obtain ⟨m, hm, rfl⟩ := syncNodes_mem hn
  refine ⟨fun a ha => ?_, (h m hm).2⟩
  obtain ⟨b, hb, rfl⟩ := List.mem_map.1 ha
  have := (h m hm).1 b hb
  exact (syncArg_keeps this.harmless (ht b.name)).2 this

theorem AllTrue.ready {σ : Shapes} {nodes : List (Node V)} (h : AllTrue σ nodes) : Ready σ nodes :=
  fun n hn => ⟨fun o ho => ((h n hn).2 o ho).harmless,
    fun a ha => ⟨((h n hn).1 a ha).harmless, fun _ => (h n hn).1 a ha⟩⟩

theorem inferRound_skel {R : Rules V} {first : Bool} {c c' : Collected} {nodes nodes' : List (Node V)}
    {again : Bool} (h : inferRound R first c nodes = some (nodes', c', again)) :
    nodes'.map Node.skel = nodes.map Node.skel := by
  simp only [inferRound] at h
  split at h
  · cases h
  · next nodes2 ch hp =>
    simp only [Option.some.injEq, Prod.mk.injEq] at h
    rw [← h.1, syncNodes_skel, inferPass_skel hp]
    cases first with
    | true => rfl
    | false => exact syncNodes_skel _ _

theorem inferRound_true {R : Rules V} {σ : Shapes} {first : Bool} {c c' : Collected}
    {nodes nodes' : List (Node V)} {again : Bool} (ho : OrderedNodes nodes)
    (hr : if first then Ready σ nodes else AllTrue σ nodes) (hs : ∀ n ∈ nodes, SoundFor R σ n)
    (h : inferRound R first c nodes = some (nodes', c', again)) : AllTrue σ nodes' := by
  simp only [inferRound] at h
  split at h
  · cases h
  · next nodes2 ch hp =>
    simp only [Option.some.injEq, Prod.mk.injEq] at h
    have h2 : AllTrue σ nodes2 := by
      cases first with
      | true => exact inferPass_true ho (by simpa using hr) hs hp
      | false =>
        simp only [Bool.false_eq_true, if_false] at hr hp
        have hsk := syncNodes_skel (outputType nodes) nodes
        exact inferPass_true (ordered_skel hsk.symm ho)
          (syncNodes_true hr fun x t ht => outputType_true hr ht).ready (soundAll_skel hsk.symm hs) hp
    rw [← h.1]
    exact syncNodes_true h2 fun x t ht => outputType_true h2 ht

theorem inferRounds_true {R : Rules V} {σ : Shapes} : ∀ {k : Nat} {first : Bool} {c : Collected}
    {nodes nodes' : List (Node V)} {conv : Bool}, (first = true → 0 < k) → OrderedNodes nodes →
    (if first then Ready σ nodes else AllTrue σ nodes) → (∀ n ∈ nodes, SoundFor R σ n) →
    inferRounds R k first c nodes = some (nodes', conv) →
    AllTrue σ nodes' ∧ nodes'.map Node.skel = nodes.map Node.skel := by
  intro k
  induction k with
  | zero =>
    intro first c nodes nodes' conv hk ho hr hs h
    simp only [inferRounds, Option.some.injEq, Prod.mk.injEq] at h
    cases first with
    | true => simp at hk
    | false => rw [← h.1]; exact ⟨by simpa using hr, rfl⟩
  | succ k ih =>
    intro first c nodes nodes' conv _ ho hr hs h
    simp only [inferRounds] at h
    split at h
    · cases h
    · next n1 c1 again hround =>
      have h1 := inferRound_true ho hr hs hround
      have h2 := inferRound_skel hround
      split at h
      · obtain ⟨h3, h4⟩ := ih (first := false) (by simp) (ordered_skel h2.symm ho) (by simpa using h1)
          (soundAll_skel h2.symm hs) h
        exact ⟨h3, h4.trans h2⟩
      · simp only [Option.some.injEq, Prod.mk.injEq] at h
        rw [← h.1]; exact ⟨h1, h2⟩

/-- **C15.** Type inference over a topologically ordered graph whose external values are annotated
truthfully, and whose other annotations are harmless, with operator rules sound for the run: every
annotation of every input and output is true of the run, whatever the number of rounds and whether or
not they converged. Nothing but annotations changes. -/
theorem C15_inference_sound (R : Rules V) (σ : Shapes) (nodes nodes' : List (Node V)) (conv : Bool)
    (hord : OrderedNodes nodes)
    (hext : ∀ n ∈ nodes, ∀ a ∈ n.inputs, a.name ∉ nodes.flatMap Node.outNames → Truthful σ a)
    (hharm : ∀ n ∈ nodes, (∀ a ∈ n.inputs, Harmless σ a) ∧ ∀ o ∈ n.outputs, Harmless σ o)
    (hsound : ∀ n ∈ nodes, SoundFor R σ n) (h : inferTypes R nodes = some (nodes', conv)) :
    AllTrue σ nodes' ∧ nodes'.map Node.skel = nodes.map Node.skel := by
  unfold inferTypes at h
  split at h
  · refine inferRounds_true (first := true) (by simp [maxRounds]) hord ?_ hsound h
    simp only [if_true]
    intro n hn
    exact ⟨(hharm n hn).2, fun a ha => ⟨(hharm n hn).1 a ha, hext n hn a ha⟩⟩
  · cases h

/-! ## C44 -/

/-- The annotation of an input already agrees with the outputs of its producers. -/
def Settled (prods : List (Arg V)) (a : Arg V) : Prop :=
  ∀ o ∈ prods, o.name = a.name → ∃ old, a.ty = o.ty.mergeStaticShape old

theorem pushOutputs_settled {prods os : List (Arg V)} {rest : List (Node V)}
    (hnd : ((prods ++ os).map Arg.name).Nodup)
    (h : ∀ n ∈ rest, ∀ a ∈ n.inputs, Settled prods a) :
    ∀ n ∈ (pushOutputs os rest).1, ∀ a ∈ n.inputs, Settled (prods ++ os) a := by
  induction os generalizing prods rest with
  | nil => simpa [pushOutputs] using h
  | cons o os ih =>
    simp only [pushOutputs]
    have := ih (prods := prods ++ [o]) (rest := syncNodes (oneType o) rest)
      (by simpa using hnd) (by
        intro n hn a ha p hp he
        obtain ⟨m, hm, rfl⟩ := syncNodes_mem hn
        obtain ⟨b, hb, rfl⟩ := List.mem_map.1 ha
        rw [(syncArg_name _ b).1] at he
        simp only [List.map_append, List.map_cons, List.nodup_append, List.nodup_cons,
          List.mem_map, List.mem_cons] at hnd
        rcases List.mem_append.1 hp with hp | hp
        · have hne : b.name ≠ o.name := fun hbo =>
            hnd.2.2 p.name ⟨p, hp, rfl⟩ o.name (.inl rfl) (by rw [he, hbo])
          obtain ⟨old, ho⟩ := h m hm b hb p hp he
          exact ⟨old, by simp [syncArg, oneType, hne, ho]⟩
        · simp only [List.mem_singleton] at hp
          subst hp
          exact ⟨b.ty, by simp [syncArg, oneType, he]⟩)
    simpa using this

/-- What one pass establishes for a node: it is valid, each output has the type its rule gives for its
own inputs, and no output is a tensor of rank zero. -/
def Inferred (R : Rules V) (prefs : String → OutPrefs) (m : Node V) : Prop :=
  ∃ outs tys, outs.map (fun a => (a.name, a.src)) = m.outputs.map (fun a => (a.name, a.src)) ∧
    R.valid (m.withOutputs outs) = true ∧ R.infer (m.withOutputs outs) (prefs m.name) = some tys ∧
    (∀ (k : Nat) (o : Arg V), outs[k]? = some o →
      m.outputs[k]? = some ⟨o.name, (tys[k]?).getD o.ty, o.src⟩) ∧
    ∀ o ∈ m.outputs, ∀ t, o.ty = .tensor t → t.rank ≠ 0

theorem outNames_eq (n : Node V) : n.outNames = n.outputs.map Arg.name := rfl

theorem flatMap_outNames (nodes : List (Node V)) :
    (nodes.flatMap Node.outputs).map Arg.name = nodes.flatMap Node.outNames := by
  induction nodes with
  | nil => rfl
  | cons n ns ih => simp [ih, outNames_eq]

theorem inferPass_settled {R : Rules V} {prefs : String → OutPrefs} : ∀ {fuel : Nat}
    {nodes done : List (Node V)} {ch : Bool} {prods : List (Arg V)}, OrderedNodes nodes →
    (prods.map Arg.name ++ nodes.flatMap Node.outNames).Nodup →
    (∀ n ∈ nodes, ∀ a ∈ n.inputs, Settled prods a) →
    inferPass R prefs fuel nodes = some (done, ch) →
    (∀ n ∈ done, ∀ a ∈ n.inputs, Settled (prods ++ done.flatMap Node.outputs) a) ∧
    ∀ n ∈ done, Inferred R prefs n := by
  intro fuel
  induction fuel with
  | zero =>
    intro nodes done ch prods _ _ _ h
    cases nodes <;> simp [inferPass] at h
    simp [h.1]
  | succ fuel ih =>
    intro nodes done ch prods ho hnd hset h
    cases nodes with
    | nil => simp [inferPass] at h; simp [h.1]
    | cons n rest =>
      have hfull := h
      simp only [inferPass] at h
      split at h
      · cases h
      · next hval =>
        split at h
        · cases h
        · next tys hinf =>
          split at h
          · cases h
          · next hz =>
            split at h
            · cases h
            · next done' ch' hrec =>
              simp only [Option.some.injEq, Prod.mk.injEq] at h
              rw [← h.1]
              have hnames : (setTypes n.outputs tys).map Arg.name = n.outNames := by
                have := congrArg (List.map Prod.fst) (setTypes_names n.outputs tys)
                simpa [List.map_map, Function.comp_def, Node.outNames] using this
              have hsk := pushOutputs_skel (setTypes n.outputs tys) rest
              simp only [Node.withOutputs] at hrec
              have hdone := inferPass_skel hrec
              have hnd' : (prods.map Arg.name ++ (n.outNames ++ rest.flatMap Node.outNames)).Nodup := by
                simpa using hnd
              have hpush := pushOutputs_settled (os := setTypes n.outputs tys) (prods := prods)
                (rest := rest) (by
                  rw [List.map_append, hnames]
                  rw [← List.append_assoc] at hnd'
                  exact (List.nodup_append.1 hnd').1) (fun m hm => hset m (by simp [hm]))
              obtain ⟨hr1, hr2⟩ := ih (prods := prods ++ setTypes n.outputs tys)
                (ordered_skel hsk.symm ho.2) (by
                  rw [skels_outNames hsk, List.map_append, hnames, List.append_assoc]; exact hnd')
                hpush hrec
              refine ⟨fun m hm a ha => ?_, fun m hm => ?_⟩
              · rcases List.mem_cons.1 hm with rfl | hm
                · intro o hp he
                  rcases List.mem_append.1 hp with hp | hp
                  · exact hset n (by simp) a ha o hp he
                  · exfalso
                    have hx := ho.1 a.name (List.mem_map_of_mem ha)
                    have : o.name ∈ n.outNames ++ rest.flatMap Node.outNames := by
                      have h1 := List.mem_map_of_mem (f := Arg.name) hp
                      rw [flatMap_outNames, List.flatMap_cons] at h1
                      rw [show (n.withOutputs (setTypes n.outputs tys)).outNames = n.outNames from hnames,
                        skels_outNames (hdone.trans hsk)] at h1
                      exact h1
                    rw [he] at this
                    rcases List.mem_append.1 this with h1 | h1
                    · exact hx.1 h1
                    · exact hx.2 h1
                · have := hr1 m hm a ha
                  intro o hp he
                  refine this o ?_ he
                  simpa [Node.withOutputs] using hp
              · rcases List.mem_cons.1 hm with rfl | hm
                · refine ⟨n.outputs, tys, (setTypes_names _ _).symm, ?_, hinf, ?_, ?_⟩
                  · simpa [Node.withOutputs] using hval
                  · intro k o hk
                    show (setTypes n.outputs tys)[k]? = _
                    rw [setTypes_get, hk]; rfl
                  · intro o ho' t ht
                    simp only [noRankZeroOutput, Bool.not_eq_true', Bool.not_eq_false,
                      List.all_eq_true] at hz
                    have := hz o ho'
                    rw [ht] at this
                    simpa using this
                · exact hr2 m hm

theorem settled_sync {nodes : List (Node V)}
    (h : ∀ n ∈ nodes, ∀ a ∈ n.inputs, Settled (nodes.flatMap Node.outputs) a) :
    syncNodes (outputType nodes) nodes = nodes ∧ syncChanges (outputType nodes) nodes = false := by
  have key : ∀ n ∈ nodes, ∀ a ∈ n.inputs, syncArg (outputType nodes) a = a := by
    intro n hn a ha
    unfold syncArg
    split
    · next t ht =>
      obtain ⟨o, ho, he, rfl⟩ := outputType_mem ht
      obtain ⟨old, hold⟩ := h n hn a ha o ho he
      have : o.ty.mergeStaticShape a.ty = a.ty := by rw [hold, merge_absorb]
      rw [this]
    · rfl
  constructor
  · unfold syncNodes
    conv => rhs; rw [← List.map_id nodes]
    apply List.map_congr_left
    intro n hn
    have : n.inputs.map (syncArg (outputType nodes)) = n.inputs := by
      conv => rhs; rw [← List.map_id n.inputs]
      exact List.map_congr_left fun a ha => key n hn a ha
    rw [this]; rfl
  · rw [syncChanges, List.any_eq_false]
    intro n hn
    rw [Bool.not_eq_true, List.any_eq_false]
    intro a ha
    rw [key n hn a ha]; simp

/-- What a typed graph satisfies: every node's output types are those its rule gives for its final
input types (under the preferences of the last round), and every input that some node produces
carries its producer's type, enriched only by dimensions that type leaves open. -/
def Consistent (R : Rules V) (prefs : String → OutPrefs) (nodes : List (Node V)) : Prop :=
  (∀ n ∈ nodes, Inferred R prefs n) ∧
  ∀ n ∈ nodes, ∀ a ∈ n.inputs, ∀ m ∈ nodes, ∀ o ∈ m.outputs, o.name = a.name →
    o.ty.mergeStaticShape a.ty = a.ty

theorem inferRound_consistent {R : Rules V} {first : Bool} {c c' : Collected}
    {nodes nodes' : List (Node V)} {again : Bool} (ho : OrderedNodes nodes)
    (hnd : (nodes.flatMap Node.outNames).Nodup)
    (h : inferRound R first c nodes = some (nodes', c', again)) :
    Consistent R (prefsFor nodes c) nodes' ∧ (again = false → c' = c ∧
      ∀ n ∈ nodes', ∀ a ∈ n.inputs, (nodeProducing nodes' a.name).isSome = true → ∀ w ∈ R.wants n,
        w.1 = a.name → (a.name, n.name, w.2) ∈ c) := by
  simp only [inferRound] at h
  split at h
  · cases h
  · next nodes2 ch hp =>
    simp only [Option.some.injEq, Prod.mk.injEq] at h
    have hstart : ∀ ns : List (Node V), ns.map Node.skel = nodes.map Node.skel →
        inferPass R (prefsFor nodes c) ns.length ns = some (nodes2, ch) →
        (∀ n ∈ nodes2, ∀ a ∈ n.inputs, Settled (nodes2.flatMap Node.outputs) a) ∧
        ∀ n ∈ nodes2, Inferred R (prefsFor nodes c) n := by
      intro ns hsk hp
      have := inferPass_settled (prods := []) (ordered_skel hsk.symm ho)
        (by simpa [skels_outNames hsk] using hnd) (fun _ _ _ _ o ho => by simp at ho) hp
      simpa using this
    obtain ⟨h1, h2⟩ := hstart _ (by cases first <;> simp [syncNodes_skel]) hp
    obtain ⟨h3, h4⟩ := settled_sync h1
    rw [h3] at h
    obtain ⟨rfl, hc', hag⟩ := h
    refine ⟨⟨h2, fun n hn a ha m hm o hom he => ?_⟩, fun hfalse => ?_⟩
    · obtain ⟨old, hold⟩ := h1 n hn a ha o (List.mem_flatMap.2 ⟨m, hm, hom⟩) he
      rw [hold, merge_absorb]
    · rw [hfalse] at hag
      simp only [Bool.or_eq_false_iff] at hag
      have hnew : (collectPrefs R nodes2 c).2 = false := hag.2
      simp only [collectPrefs, Bool.not_eq_false', List.isEmpty_iff] at hnew
      constructor
      · rw [← hc', collectPrefs, hnew, List.append_nil]
      · intro n hn a ha hprod w hw hwa
        apply Classical.byContradiction
        intro hnc
        have hmem : (a.name, n.name, w.2) ∈ (nodes2.flatMap fun n => n.inputs.flatMap fun a =>
            ((R.wants n).filter (·.1 = a.name)).filterMap fun w =>
              if (nodeProducing nodes2 a.name).isSome then some (a.name, n.name, w.2) else none).filter
              (! c.contains ·) := by
          rw [List.mem_filter]
          refine ⟨?_, by simpa using hnc⟩
          refine List.mem_flatMap.2 ⟨n, hn, List.mem_flatMap.2 ⟨a, ha, ?_⟩⟩
          refine List.mem_filterMap.2 ⟨w, List.mem_filter.2 ⟨hw, by simpa using hwa⟩, ?_⟩
          rw [if_pos hprod]
        rw [hnew] at hmem
        simp at hmem

theorem nodeProducing_skel {ns ms : List (Node V)} (h : ns.map Node.skel = ms.map Node.skel) (x : String) :
    (nodeProducing ns x).map Node.name = (nodeProducing ms x).map Node.name := by
  unfold nodeProducing
  induction ns generalizing ms with
  | nil => cases ms <;> simp_all
  | cons n ns ih =>
    cases ms with
    | nil => simp at h
    | cons m ms =>
      simp only [List.map_cons, List.cons.injEq] at h
      have hn : n.outputs.any (·.name == x) = m.outputs.any (·.name == x) := by
        have := skel_outNames h.1
        unfold Node.outNames at this
        have h1 : n.outputs.any (·.name == x) = (n.outputs.map Arg.name).any (· == x) := by simp [List.any_map, Function.comp_def]
        have h2 : m.outputs.any (·.name == x) = (m.outputs.map Arg.name).any (· == x) := by simp [List.any_map, Function.comp_def]
        rw [h1, h2, this]
      simp only [List.find?_cons, hn]
      split
      · have := congrArg Skeleton.name h.1
        simp [Node.skel] at this
        simp [this]
      · exact ih h.2

theorem prefsFor_skel {ns ms : List (Node V)} (h : ns.map Node.skel = ms.map Node.skel) (c : Collected) :
    prefsFor ns c = prefsFor ms c := by
  funext node out
  unfold prefsFor
  congr 1
  apply List.filter_congr
  intro k _
  have := nodeProducing_skel h k.1
  cases h1 : nodeProducing ns k.1 <;> cases h2 : nodeProducing ms k.1 <;> simp_all

theorem inferRounds_consistent {R : Rules V} : ∀ {k : Nat} {first : Bool} {c : Collected}
    {nodes nodes' : List (Node V)} {conv : Bool}, OrderedNodes nodes →
    (nodes.flatMap Node.outNames).Nodup → (k = 0 → ∃ c0, Consistent R (prefsFor nodes c0) nodes) →
    inferRounds R k first c nodes = some (nodes', conv) →
    ∃ c0, Consistent R (prefsFor nodes' c0) nodes' ∧ (conv = true →
      ∀ n ∈ nodes', ∀ a ∈ n.inputs, (nodeProducing nodes' a.name).isSome = true → ∀ w ∈ R.wants n,
        w.1 = a.name → (a.name, n.name, w.2) ∈ c0) := by
  intro k
  induction k with
  | zero =>
    intro first c nodes nodes' conv _ _ hk h
    simp only [inferRounds, Option.some.injEq, Prod.mk.injEq] at h
    obtain ⟨c0, hc⟩ := hk rfl
    obtain ⟨rfl, rfl⟩ := h
    exact ⟨c0, hc, by simp⟩
  | succ k ih =>
    intro first c nodes nodes' conv ho hnd _ h
    simp only [inferRounds] at h
    split at h
    · cases h
    · next n1 c1 again hround =>
      have hsk := inferRound_skel hround
      obtain ⟨h1, h2⟩ := inferRound_consistent ho hnd hround
      rw [prefsFor_skel hsk.symm] at h1
      split at h
      · exact ih (ordered_skel hsk.symm ho) (by rw [skels_outNames hsk]; exact hnd) (fun _ => ⟨c, h1⟩) h
      · next hag =>
        simp only [Option.some.injEq, Prod.mk.injEq] at h
        obtain ⟨rfl, rfl⟩ := h
        refine ⟨c, h1, fun _ => (h2 (by simpa using hag)).2⟩

/-- **C44.** For every topologically ordered graph with distinct output names and every set of
operator rules: if inference returns, each node's output types are what its rule gives for its final
input types, and inputs agree with their producers. If the rounds converged, the preferences used are
all those the consumers have for the final types. -/
theorem C44_fixed_point (R : Rules V) (nodes nodes' : List (Node V)) (conv : Bool)
    (hord : OrderedNodes nodes) (hnd : (nodes.flatMap Node.outNames).Nodup)
    (h : inferTypes R nodes = some (nodes', conv)) :
    ∃ c, Consistent R (prefsFor nodes' c) nodes' ∧ (conv = true →
      ∀ n ∈ nodes', ∀ a ∈ n.inputs, (nodeProducing nodes' a.name).isSome = true → ∀ w ∈ R.wants n,
        w.1 = a.name → (a.name, n.name, w.2) ∈ c) := by
  unfold inferTypes at h
  split at h
  · exact inferRounds_consistent hord hnd (by simp [maxRounds]) h
  · cases h

theorem inferRounds_chain {R : Rules V} : ∀ {k : Nat} {first : Bool} {c : Collected}
    {nodes nodes' : List (Node V)} {conv : Bool}, inferRounds R k first c nodes = some (nodes', conv) →
    ∃ (n : Nat) (st : Nat → List (Node V) × Collected), n ≤ k ∧ st 0 = (nodes, c) ∧ (st n).1 = nodes' ∧
      (∀ i < n, ∃ again, inferRound R (if i = 0 then first else false) (st i).2 (st i).1 =
          some ((st (i + 1)).1, (st (i + 1)).2, again) ∧ (again = false ↔ i + 1 = n ∧ conv = true)) ∧
      (conv = false → n = k) ∧ (conv = true → 0 < n) := by
  intro k
  induction k with
  | zero =>
    intro first c nodes nodes' conv h
    simp only [inferRounds, Option.some.injEq, Prod.mk.injEq] at h
    obtain ⟨rfl, rfl⟩ := h
    exact ⟨0, fun _ => (nodes, c), Nat.le_refl _, rfl, rfl, by simp, fun _ => rfl, by simp⟩
  | succ k ih =>
    intro first c nodes nodes' conv h
    simp only [inferRounds] at h
    split at h
    · cases h
    · next n1 c1 again hround =>
      split at h
      · next hag =>
        obtain ⟨n, st, s1, s2, s3, s4, s5, s6⟩ := ih h
        refine ⟨n + 1, fun i => if i = 0 then (nodes, c) else st (i - 1), by omega, rfl, by simpa using s3,
          fun i hi => ?_, fun hc => by rw [s5 hc], fun _ => by omega⟩
        cases i with
        | zero =>
          refine ⟨true, ?_, ?_⟩
          · simp only [if_true]
            rw [hround, hag]
            simp [s2]
          · constructor
            · simp
            · rintro ⟨q1, q2⟩
              have := s6 q2
              omega
        | succ i =>
          obtain ⟨ag, r1, r2⟩ := s4 i (by omega)
          refine ⟨ag, ?_, ?_⟩
          · simp only [Nat.add_one_ne_zero, if_false, Nat.add_sub_cancel]
            have : (if i = 0 then false else false) = false := by split <;> rfl
            rw [this] at r1
            exact r1
          · rw [r2]
            constructor <;> rintro ⟨q1, q2⟩ <;> exact ⟨by omega, q2⟩
      · next hag =>
        simp only [Option.some.injEq, Prod.mk.injEq] at h
        obtain ⟨rfl, rfl⟩ := h
        refine ⟨1, fun i => if i = 0 then (nodes, c) else (n1, c1), by omega, rfl, rfl, fun i hi => ?_, by simp, by simp⟩
        have : i = 0 := by omega
        subst this
        exact ⟨again, by simpa using hround, by simpa using hag⟩

/-- **C44.** Whatever the graph and the rules, a result of inference has been reached by at most ten
rounds from the graph with no preferences; a round asks for another unless it is the last one and the
result is reported as converged, and a result not so reported has used all ten. -/
theorem C44_rounds (R : Rules V) (nodes nodes' : List (Node V)) (conv : Bool)
    (h : inferTypes R nodes = some (nodes', conv)) :
    ∃ (n : Nat) (st : Nat → List (Node V) × Collected), n ≤ 10 ∧ st 0 = (nodes, []) ∧ (st n).1 = nodes' ∧
      (∀ i < n, ∃ again, inferRound R (if i = 0 then true else false) (st i).2 (st i).1 =
          some ((st (i + 1)).1, (st (i + 1)).2, again) ∧ (again = false ↔ i + 1 = n ∧ conv = true)) ∧
      (conv = false → n = 10) := by
  unfold inferTypes at h
  split at h
  · obtain ⟨n, st, s1, s2, s3, s4, s5, -⟩ := inferRounds_chain h
    exact ⟨n, st, s1, s2, s3, s4, s5⟩
  · cases h

end OnnxIR
