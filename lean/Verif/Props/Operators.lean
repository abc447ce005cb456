import Verif.Lemmas.Operators

/-!
# C79: operators are read as the file names them, and every accepted one has code
-/

namespace OnnxIR

open Onnx Ops

variable {V : Type}

theorem lower_eq (c : Char) : Ops.lower c = c.toLower := by
  unfold Ops.lower Char.toLower
  by_cases h : 'A' ≤ c ∧ c ≤ 'Z'
  · have h1 : c.val ≥ 'A'.val ∧ c.val ≤ 'Z'.val := h
    rw [if_pos h, dif_pos h1]
    have hle : c.toNat ≤ 90 := h1.2
    have hv : (c.toNat + 32).isValidChar := Or.inl (by omega)
    apply Char.ext
    apply UInt32.toNat_inj.1
    have h2 : (c.val + ('a'.val - 'A'.val)).toNat = c.toNat + 32 := by
      have : ('a'.val - 'A'.val).toNat = 32 := by decide
      rw [UInt32.toNat_add, this]
      show (c.toNat + 32) % 2 ^ 32 = _
      omega
    rw [h2]
    show (Char.ofNat (c.toNat + 32)).toNat = _
    unfold Char.ofNat
    rw [dif_pos hv]
    rfl
  · have h1 : ¬ (c.val ≥ 'A'.val ∧ c.val ≤ 'Z'.val) := h
    rw [if_neg h, dif_neg h1]

theorem sameIgnoringCase_iff (a b : String) : Ops.sameIgnoringCase a b = true ↔ EqUpToCase a b := by
  have : Ops.lower = Char.toLower := funext lower_eq
  simp [Ops.sameIgnoringCase, EqUpToCase, this]

/-- **C79 (reading).** An operator name is read as the member of the list of known operators with the
same letters up to case, whatever the domain, and there is at most one such member. -/
theorem C79_names (domain op t : String) :
    Ops.read domain op = some t ↔ t ∈ Ops.members ∧ EqUpToCase t op := by
  unfold Ops.read
  constructor
  · intro h
    exact ⟨List.mem_of_find?_eq_some h, (sameIgnoringCase_iff t op).1 (by simpa using List.find?_some (p := fun t => Ops.sameIgnoringCase t op) h)⟩
  · rintro ⟨hm, he⟩
    cases hf : Ops.members.find? fun t => Ops.sameIgnoringCase t op with
    | none =>
      have := List.find?_eq_none.1 hf t hm
      exact absurd ((sameIgnoringCase_iff _ _).2 he) this
    | some u =>
      have hu := (sameIgnoringCase_iff u op).1 (List.find?_some (p := fun t => Ops.sameIgnoringCase t op) hf)
      rw [member_eq (List.mem_of_find?_eq_some hf) hm (hu.trans he.symm)]

/-- **C79 (no confusion).** Two different ONNX operators are never read as the same one. -/
theorem C79_no_confusion (d d' a b t : String) (ha : a ∈ Onnx.operators) (hb : b ∈ Onnx.operators)
    (h : Ops.read d a = some t) (h' : Ops.read d' b = some t) : a = b :=
  operator_eq ha hb (((C79_names d a t).1 h).2.symm.trans ((C79_names d' b t).1 h').2)

theorem remap_spec {op o : String} {s : Ops.Site V} (h : Ops.remap op s = some o) :
    (o = op ∧ op ∉ windowOperators.map Prod.fst) ∨
    ∃ ds d, (op, ds) ∈ windowOperators ∧ d ∈ ds ∧ o = op ++ toString d ++ "d" ∧
      KernelAxes op s.kernel s.weight d := by
  have hk : ∀ d, Ops.kernelAxes op s = some d → KernelAxes op s.kernel s.weight d := by
    intro d hd
    unfold Ops.kernelAxes at hd
    split at hd
    · next ks hks => rw [hks]; cases hd; exact .given _ _ _
    · cases hd
    · next hks =>
      split at hd
      · next hop =>
        split at hd
        · next t ht =>
          split at hd
          · next h2 =>
            rw [hks, ht]
            cases hd
            exact .weights _ _ _ hop (by omega)
          · cases hd
        · cases hd
      · cases hd
  unfold Ops.remap at h
  split at h
  · next hop =>
    obtain ⟨d, hd, h⟩ := Option.bind_eq_some_iff.1 h
    right
    split at h <;> simp only [Option.some.injEq, reduceCtorEq] at h <;> subst h hop
    all_goals exact ⟨[1, 2, 3], _, by simp [windowOperators], by simp, by decide, hk _ hd⟩
  · next h1 =>
    split at h
    · next hop =>
      obtain ⟨d, hd, h⟩ := Option.bind_eq_some_iff.1 h
      right
      split at h <;> simp only [Option.some.injEq, reduceCtorEq] at h <;> subst h hop
      all_goals exact ⟨[1, 2, 3], _, by simp [windowOperators], by simp, by decide, hk _ hd⟩
    · next h2 =>
      split at h
      · next hop =>
        obtain ⟨d, hd, h⟩ := Option.bind_eq_some_iff.1 h
        right
        split at h <;> simp only [Option.some.injEq, reduceCtorEq] at h <;> subst h hop
        all_goals exact ⟨[1, 2], _, by simp [windowOperators], by simp, by decide, hk _ hd⟩
      · next h3 =>
        split at h
        · next hop =>
          obtain ⟨d, hd, h⟩ := Option.bind_eq_some_iff.1 h
          right
          split at h <;> simp only [Option.some.injEq, reduceCtorEq] at h <;> subst h hop
          all_goals exact ⟨[1, 2], _, by simp [windowOperators], by simp, by decide, hk _ hd⟩
        · next h4 =>
          left
          simp only [Option.some.injEq] at h
          exact ⟨h.symm, by simp [windowOperators, h1, h2, h3, h4]⟩

theorem kernelAxes_of {op : String} {s : Ops.Site V} {d : Nat} (h : KernelAxes op s.kernel s.weight d) :
    Ops.kernelAxes op s = some d := by
  obtain ⟨k, w⟩ := s
  simp only at h
  cases h with
  | given ks => rfl
  | weights t d hop hr => simp [Ops.kernelAxes, hop, hr]

/-- What reading a node means: the operator named in the file, up to case, with the number of kernel
axes appended for the window operators. -/
def ReadAs (e : Ops.Entry V) (o : String) : Prop :=
  (o ∈ Ops.members ∧ EqUpToCase o e.opType ∧ o ∉ windowOperators.map Prod.fst) ∨
  ∃ op ds d, EqUpToCase op e.opType ∧ (op, ds) ∈ windowOperators ∧ d ∈ ds ∧ o = op ++ toString d ++ "d" ∧
    KernelAxes op e.site.kernel e.site.weight d

theorem entry_op {e : Ops.Entry V} {o : String} (h : e.op = some o) : ReadAs e o := by
  obtain ⟨t, ht, hr⟩ := Option.bind_eq_some_iff.1 h
  obtain ⟨hm, he⟩ := (C79_names _ _ _).1 ht
  rcases remap_spec hr with ⟨rfl, hw⟩ | ⟨ds, d, hds, hd, ho, hk⟩
  · exact Or.inl ⟨hm, he, hw⟩
  · exact Or.inr ⟨t, ds, d, he, hds, hd, ho, hk⟩

theorem mapM_option {α β : Type} {f : α → Option β} : ∀ {l : List α} {r : List β}, l.mapM f = some r →
    r.length = l.length ∧ ∀ (k : Nat) (x : α) (y : β), l[k]? = some x → r[k]? = some y → f x = some y := by
  intro l
  induction l with
  | nil => intro r h; cases h; simp
  | cons a l ih =>
    intro r h
    rw [List.mapM_cons] at h
    obtain ⟨b, hb, h⟩ := Option.bind_eq_some_iff.1 h
    obtain ⟨bs, hbs, h⟩ := Option.bind_eq_some_iff.1 h
    cases h
    refine ⟨by simp [(ih hbs).1], fun k x y hx hy => ?_⟩
    cases k with
    | zero => simp at hx hy; rw [← hx, ← hy, hb]
    | succ k => exact (ih hbs).2 k x y (by simpa using hx) (by simpa using hy)

theorem mapM_option_none {α β : Type} {f : α → Option β} : ∀ {l : List α}, l.mapM f = none →
    ∃ x ∈ l, f x = none := by
  intro l
  induction l with
  | nil => intro h; cases h
  | cons a l ih =>
    intro h
    rw [List.mapM_cons] at h
    cases ha : f a with
    | none => exact ⟨a, by simp, ha⟩
    | some b =>
      cases hl : l.mapM f with
      | none => obtain ⟨x, hx, hf⟩ := ih hl; exact ⟨x, by simp [hx], hf⟩
      | some bs => rw [ha, hl] at h; cases h

/-- **C79 (accepted graphs).** If the operators of a graph are accepted, the nodes are those of the file,
in order, each read as the operator the file names. -/
theorem C79_accepted (g : List (Ops.Entry V)) (ops : List String) (h : Ops.outcome g = .ok ops) :
    ops.length = g.length ∧ ∀ (k : Nat) (e : Ops.Entry V) (o : String), g[k]? = some e → ops[k]? = some o →
      ReadAs e o := by
  unfold Ops.outcome at h
  split at h
  · cases h
  · next r hr =>
    simp only at h
    split at h
    · cases h
      obtain ⟨h1, h2⟩ := mapM_option hr
      refine ⟨by simpa using h1, fun k e o he ho => ?_⟩
      rw [List.getElem?_map] at ho
      obtain ⟨p, hp, rfl⟩ := Option.map_eq_some_iff.1 ho
      obtain ⟨q, hq, hq'⟩ := Option.map_eq_some_iff.1 (h2 k e p he hp)
      rw [← hq']
      exact entry_op hq
    · cases h

/-- **C79 (refused graphs).** The error of a refused graph names exactly the nodes whose operator has no
processor, by operator and node name, and there is at least one. -/
theorem C79_refused (g : List (Ops.Entry V)) (bad : List (String × String)) (h : Ops.outcome g = .refused bad) :
    bad ≠ [] ∧ ∀ o name, (o, name) ∈ bad ↔
      (∃ e ∈ g, e.name = name ∧ e.op = some o) ∧ ∀ p, (o, p) ∉ Ops.processors := by
  unfold Ops.outcome at h
  split at h
  · cases h
  · next r hr =>
    simp only at h
    split at h
    · cases h
    · next hne =>
      cases h
      obtain ⟨h1, h2⟩ := mapM_option hr
      refine ⟨by simpa using hne, fun o name => ?_⟩
      rw [List.mem_filter]
      have hacc : (!Ops.accepted o) = true ↔ ∀ p, (o, p) ∉ Ops.processors := by
        simp [Ops.accepted, List.lookup_eq_none_iff]
        constructor
        · intro h p hp; exact h o p hp rfl
        · rintro h a b hp rfl; exact h b hp
      rw [hacc]
      refine and_congr_left fun _ => ⟨fun hm => ?_, fun ⟨e, he, hen, heo⟩ => ?_⟩
      · obtain ⟨k, hk⟩ := List.mem_iff_getElem?.1 hm
        have hlt : k < g.length := by
          rw [← h1]; exact (List.getElem?_eq_some_iff.1 hk).1
        have he := List.getElem?_eq_getElem hlt
        obtain ⟨q, hq, hq'⟩ := Option.map_eq_some_iff.1 (h2 k _ _ he hk)
        simp only [Prod.mk.injEq] at hq'
        exact ⟨_, List.getElem_mem hlt, hq'.2, by rw [hq, hq'.1]⟩
      · obtain ⟨k, hk⟩ := List.mem_iff_getElem?.1 he
        have hlt : k < r.length := by
          rw [h1]; exact (List.getElem?_eq_some_iff.1 hk).1
        have hr' := List.getElem?_eq_getElem hlt
        have := h2 k _ _ hk hr'
        rw [heo, hen] at this
        simp only [Option.map_some, Option.some.injEq] at this
        rw [this]; exact List.getElem_mem hlt

theorem processors_code : ∀ e ∈ Ops.processors, e.1 ∉ ["GlobalMaxPool", "Scatter", "Unique"] →
    Ops.codeOf e.1 = some e.1 := Ops.tables.2.2.1

theorem accepted_mem {o : String} (h : Ops.accepted o = true) : ∃ p, (o, p) ∈ Ops.processors := by
  unfold Ops.accepted at h
  obtain ⟨p, hp⟩ := Option.isSome_iff_exists.1 h
  obtain ⟨l, r, hlr, _⟩ := List.lookup_eq_some_iff.1 hp
  exact ⟨p, by rw [hlr]; simp⟩

theorem outcome_accepted {g : List (Ops.Entry V)} {ops : List String} (h : Ops.outcome g = .ok ops) :
    ∀ o ∈ ops, Ops.accepted o = true := by
  unfold Ops.outcome at h
  split at h
  · cases h
  · next r hr =>
    simp only at h
    split at h
    · next hne =>
      cases h
      intro o ho
      obtain ⟨p, hp, rfl⟩ := List.mem_map.1 ho
      have := List.isEmpty_iff.1 hne
      simpa using List.filter_eq_nil_iff.1 this p hp
    · cases h

/-- **C79 (code).** Every operator of an accepted graph gets the code of that operator, and no other,
except for three whose processors only hold a place. -/
theorem C79_code_partial (g : List (Ops.Entry V)) (ops : List String) (h : Ops.outcome g = .ok ops) (o : String)
    (ho : o ∈ ops) (hne : o ≠ "GlobalMaxPool" ∧ o ≠ "Scatter" ∧ o ≠ "Unique") : Ops.codeOf o = some o := by
  obtain ⟨p, hp⟩ := accepted_mem (outcome_accepted h o ho)
  exact processors_code (o, p) hp (by simp [hne])

/-- An operator as a file names it, without kernel axes and weights. -/
def plain (op : String) : Ops.Entry Unit := ⟨"", op, "n", ⟨none, none⟩⟩

theorem plain_op {domain op t : String} (hm : t ∈ Ops.members) (he : EqUpToCase t op)
    (hw : t ∉ windowOperators.map Prod.fst) (name : String) :
    (⟨domain, op, name, ⟨none, none⟩⟩ : Ops.Entry Unit).op = some t := by
  unfold Ops.Entry.op
  rw [(C79_names domain op t).2 ⟨hm, he⟩]
  simp only [windowOperators, List.map_cons, List.map_nil, List.mem_cons, List.not_mem_nil, or_false, not_or] at hw
  simp [Ops.remap, hw]

theorem outcome_one {e : Ops.Entry Unit} {t : String} (h : e.op = some t) (ha : Ops.accepted t = true) :
    Ops.outcome [e] = .ok [t] := by
  simp [Ops.outcome, h, ha]

/-- **C79, disagreement.** Three ONNX operators are accepted by the importer, but generating the code
then panics. -/
theorem C79_placeholder_panics : ∀ op ∈ ["GlobalMaxPool", "Scatter", "Unique"],
    op ∈ Onnx.operators ∧ Ops.outcome [plain op] = .ok [op] ∧ Ops.codeOf op = none := by
  intro op hop
  have hm : op ∈ Onnx.operators ∧ op ∈ Ops.members ∧ op ∉ windowOperators.map Prod.fst ∧
      Ops.accepted op = true ∧ Ops.codeOf op = none := Ops.tables.2.2.2.2.2.2.2.1 op hop
  exact ⟨hm.1, outcome_one (plain_op hm.2.1 rfl hm.2.2.1 _) hm.2.2.2.1, hm.2.2.2.2⟩

/-- **C79, disagreement.** The domain of a node is not looked at: an operator of another operator set with
the name of an ONNX operator, such as the fused `Attention` of `com.microsoft`, is taken for the ONNX one. -/
theorem C79_domain_ignored_wrong (domain : String) :
    Ops.outcome [(⟨domain, "Attention", "n", ⟨none, none⟩⟩ : Ops.Entry Unit)] = .ok ["Attention"] ∧
    Ops.codeOf "Attention" = some "Attention" := by
  have hm : "Attention" ∈ Ops.members ∧ "Attention" ∉ windowOperators.map Prod.fst ∧
      Ops.accepted "Attention" = true ∧ Ops.codeOf "Attention" = some "Attention" :=
    Ops.tables.2.2.2.2.2.2.2.2.1
  exact ⟨outcome_one (plain_op hm.1 rfl hm.2.1 _) hm.2.2.1, hm.2.2.2⟩

/-- **C79, disagreement.** Names that are not ONNX operators are accepted: `Linear`, which is internal,
and `relu`, which ONNX distinguishes from `Relu`. -/
theorem C79_nonstandard_accepted_wrong :
    "Linear" ∉ Onnx.operators ∧ Ops.outcome [plain "Linear"] = .ok ["Linear"] ∧
    "relu" ∉ Onnx.operators ∧ Ops.outcome [plain "relu"] = .ok ["Relu"] := by
  have h1 : "Linear" ∉ Onnx.operators ∧ "Linear" ∈ Ops.members ∧ "Linear" ∉ windowOperators.map Prod.fst ∧
      Ops.accepted "Linear" = true := Ops.tables.2.2.2.2.2.2.2.2.2.1
  have h2 : "relu" ∉ Onnx.operators ∧ "Relu" ∈ Ops.members ∧ "Relu" ∉ windowOperators.map Prod.fst ∧
      Ops.accepted "Relu" = true := Ops.tables.2.2.2.2.2.2.2.2.2.2.1
  exact ⟨h1.1, outcome_one (plain_op h1.2.1 rfl h1.2.2.1 _) h1.2.2.2, h2.1,
    outcome_one (plain_op h2.2.1 (by unfold EqUpToCase; decide +kernel) h2.2.2.1 _) h2.2.2.2⟩

/-- **C79 (window operators).** A window operator with one of the supported numbers of kernel axes is
read as the operator for that number. -/
theorem C79_window_axes (op : String) (ds : List Nat) (d : Nat) (s : Ops.Site V) (h : (op, ds) ∈ windowOperators)
    (hd : d ∈ ds) (hk : KernelAxes op s.kernel s.weight d) : Ops.remap op s = some (op ++ toString d ++ "d") := by
  have hx := kernelAxes_of hk
  simp only [windowOperators, List.mem_cons, Prod.mk.injEq, List.not_mem_nil, or_false] at h
  rcases h with ⟨rfl, rfl⟩ | ⟨rfl, rfl⟩ | ⟨rfl, rfl⟩ | ⟨rfl, rfl⟩ <;>
    simp only [List.mem_cons, List.not_mem_nil, or_false] at hd
  all_goals first
    | (rcases hd with rfl | rfl | rfl <;> simp [Ops.remap, hx] <;> decide)
    | (rcases hd with rfl | rfl <;> simp [Ops.remap, hx] <;> decide)

/-- **C79, disagreement.** A convolution without `kernel_shape` whose weights are computed by other nodes
panics while the nodes are read, since the rank of the weights is not known yet: they have the default
type, of rank 0. ONNX makes the attribute optional. -/
theorem C79_computed_weights_panics (domain name : String) :
    Ops.outcome [(⟨domain, "Conv", name, ⟨none, some ArgType.default⟩⟩ : Ops.Entry V)] = .panics := by
  have : (⟨domain, "Conv", name, ⟨none, some ArgType.default⟩⟩ : Ops.Entry V).op = none := by
    unfold Ops.Entry.op
    cases h : Ops.read domain "Conv" with
    | none => rfl
    | some t =>
      have hm : "Conv" ∈ Ops.members := Ops.tables.2.2.2.2.2.2.2.2.2.2.2.2.2.1 _ (by simp)
      rw [(C79_names domain "Conv" "Conv").2 ⟨hm, rfl⟩] at h
      cases h
      rfl
  simp [Ops.outcome, this]

/-- **C79, disagreement.** Poolings over three axes, which ONNX has, panic while the nodes are read. -/
theorem C79_three_axes_pooling_panics (domain name op : String) (a b c : Int) (w : Option ArgType)
    (hop : op = "MaxPool" ∨ op = "AveragePool") :
    Ops.outcome [(⟨domain, op, name, ⟨some (.i64s [a, b, c]), w⟩⟩ : Ops.Entry V)] = .panics := by
  have : (⟨domain, op, name, ⟨some (.i64s [a, b, c]), w⟩⟩ : Ops.Entry V).op = none := by
    unfold Ops.Entry.op
    have hm : "MaxPool" ∈ Ops.members ∧ "AveragePool" ∈ Ops.members :=
      ⟨Ops.tables.2.2.2.2.2.2.2.2.2.2.2.2.2.1 _ (by simp), Ops.tables.2.2.2.2.2.2.2.2.2.2.2.2.2.1 _ (by simp)⟩
    rcases hop with rfl | rfl
    · rw [(C79_names domain "MaxPool" "MaxPool").2 ⟨hm.1, rfl⟩]; rfl
    · rw [(C79_names domain "AveragePool" "AveragePool").2 ⟨hm.2, rfl⟩]; rfl
  simp [Ops.outcome, this]

/-! ## The documentation -/

theorem documented_supported : ∀ d ∈ documentedSupported, d ≠ "ReduceL" →
    (d ∈ Ops.members ∧ Ops.accepted d = true ∧ Ops.codeOf d = some d) ∨
    d ∈ ["GRU", "LSTM", "RNN"] := Ops.tables.2.2.2.1

theorem documented_unsupported : ∀ d ∈ documentedUnsupported,
    (d ∈ Ops.members ∧ Ops.codeOf d = none) ∨ d ∈ ["DFT", "LRN", "STFT"] ∨ d = "GlobalLpPool" :=
  Ops.tables.2.2.2.2.1

/-- **C79 (documented support).** Every name the documentation marks as imported, except `ReduceL`, is
accepted and gets its own code, and no name marked as not imported gets any code. -/
theorem C79_documented_partial :
    (∀ d ∈ documentedSupported, d ≠ "ReduceL" → ∃ t ∈ Ops.members, EqUpToCase t d ∧ Ops.accepted t = true ∧
      Ops.codeOf t = some t) ∧
    ∀ d ∈ documentedUnsupported, ∀ t ∈ Ops.members, EqUpToCase t d → Ops.codeOf t = none := by
  constructor
  · intro d hd hne
    rcases documented_supported d hd hne with ⟨hm, ha, hc⟩ | h
    · exact ⟨d, hm, rfl, ha, hc⟩
    · simp only [List.mem_cons, List.not_mem_nil, or_false] at h
      have hmem : ∀ t ∈ ["Gru", "Lstm", "Rnn"], t ∈ Ops.members ∧ Ops.accepted t = true ∧ Ops.codeOf t = some t :=
        Ops.tables.2.2.2.2.2.1
      have hcase : EqUpToCase "Gru" "GRU" ∧ EqUpToCase "Lstm" "LSTM" ∧ EqUpToCase "Rnn" "RNN" := by
        unfold EqUpToCase; decide +kernel
      rcases h with rfl | rfl | rfl
      · exact ⟨_, (hmem "Gru" (by simp)).1, hcase.1, (hmem "Gru" (by simp)).2⟩
      · exact ⟨_, (hmem "Lstm" (by simp)).1, hcase.2.1, (hmem "Lstm" (by simp)).2⟩
      · exact ⟨_, (hmem "Rnn" (by simp)).1, hcase.2.2, (hmem "Rnn" (by simp)).2⟩
  · intro d hd t ht he
    rcases documented_unsupported d hd with ⟨hm, hc⟩ | h | rfl
    · rw [member_eq ht hm he]; exact hc
    · simp only [List.mem_cons, List.not_mem_nil, or_false] at h
      have hmem : ∀ t ∈ ["Dft", "Lrn", "Stft"], t ∈ Ops.members ∧ Ops.codeOf t = none :=
        Ops.tables.2.2.2.2.2.2.1
      have hcase : EqUpToCase "Dft" "DFT" ∧ EqUpToCase "Lrn" "LRN" ∧ EqUpToCase "Stft" "STFT" := by
        unfold EqUpToCase; decide +kernel
      rcases h with rfl | rfl | rfl
      · rw [member_eq ht (hmem "Dft" (by simp)).1 (he.trans hcase.1.symm)]; exact (hmem "Dft" (by simp)).2
      · rw [member_eq ht (hmem "Lrn" (by simp)).1 (he.trans hcase.2.1.symm)]; exact (hmem "Lrn" (by simp)).2
      · rw [member_eq ht (hmem "Stft" (by simp)).1 (he.trans hcase.2.2.symm)]; exact (hmem "Stft" (by simp)).2
    · have h1 : nameCode t ∈ memberCodes := by rw [← memberCodes_eq]; exact List.mem_map.2 ⟨t, ht, rfl⟩
      have h2 : nameCode t = nameCode "GlobalLpPool" := by unfold nameCode; rw [he]
      rw [h2] at h1
      exact absurd h1 Ops.tables.2.2.2.2.2.2.2.2.2.2.2.1.2.2.2

/-- **C79, disagreement.** The documentation lists `ReduceL`, which is not an ONNX operator and panics;
`ReduceL1` and `ReduceL2`, which are imported, are not listed. -/
theorem C79_documented_wrong :
    "ReduceL" ∈ documentedSupported ∧ "ReduceL" ∉ Onnx.operators ∧ Ops.outcome [plain "ReduceL"] = .panics ∧
    ∀ op ∈ ["ReduceL1", "ReduceL2"], op ∈ Onnx.operators ∧ op ∉ documentedSupported ∧
      Ops.outcome [plain op] = .ok [op] ∧ Ops.codeOf op = some op := by
  refine ⟨Ops.tables.2.2.2.2.2.2.2.2.2.2.2.1.1, Ops.tables.2.2.2.2.2.2.2.2.2.2.2.1.2.1, ?_, fun op hop => ?_⟩
  · have : (plain "ReduceL").op = none := by
      unfold Ops.Entry.op
      cases h : Ops.read (plain "ReduceL").domain (plain "ReduceL").opType with
      | none => rfl
      | some t =>
        obtain ⟨ht, he⟩ := (C79_names _ _ _).1 h
        have h1 : nameCode t ∈ memberCodes := by rw [← memberCodes_eq]; exact List.mem_map.2 ⟨t, ht, rfl⟩
        have h2 : nameCode t = nameCode "ReduceL" := by unfold nameCode; rw [he]; rfl
        rw [h2] at h1
        exact absurd h1 Ops.tables.2.2.2.2.2.2.2.2.2.2.2.1.2.2.1
    simp [Ops.outcome, this]
  · have hm : op ∈ Onnx.operators ∧ op ∉ documentedSupported ∧ op ∈ Ops.members ∧
        op ∉ windowOperators.map Prod.fst ∧ Ops.accepted op = true ∧ Ops.codeOf op = some op :=
      Ops.tables.2.2.2.2.2.2.2.2.2.2.2.2.1 op hop
    exact ⟨hm.1, hm.2.1, outcome_one (plain_op hm.2.2.1 rfl hm.2.2.2.1 _) hm.2.2.2.2.1, hm.2.2.2.2.2⟩

/-! ## The opset version -/

/-- **C79 (opset).** The version used for every node is the one the file gives for the default domain. -/
theorem C79_opset (pre post : List (String × Int)) (v : Nat) (hv : v < 2 ^ 63) (hpre : ∀ i ∈ pre, i.1 ≠ "") :
    Ops.opsetVersion (pre ++ ("", (v : Int)) :: post) = some v := by
  unfold Ops.opsetVersion
  rw [List.find?_append]
  have : pre.find? (fun i => i.1.isEmpty) = none := by
    rw [List.find?_eq_none]
    intro i hi
    simpa using hpre i hi
  rw [this]
  have he : ("" : String).isEmpty = true := by decide
  simp only [Option.none_or, List.find?_cons, he, Option.map_some, Option.some.injEq]
  omega

/-- **C79, disagreement.** ONNX also calls its default domain `ai.onnx`; a file that does is refused. -/
theorem C79_opset_alias_refused (v : Int) : Ops.opsetVersion [("ai.onnx", v)] = none := by
  simp [Ops.opsetVersion]

/-! ## Examples -/

theorem read_of {op t : String} (hm : t ∈ Ops.members) (he : EqUpToCase t op) (domain : String) :
    Ops.read domain op = some t := (C79_names domain op t).2 ⟨hm, he⟩

/-- A small graph is accepted, with its convolution read by the rank of the weights. -/
example : Ops.outcome
    ([⟨"", "Conv", "c", ⟨none, some (.tensor ⟨.f32, 4, none⟩)⟩⟩, ⟨"", "LSTM", "l", ⟨none, none⟩⟩] :
      List (Ops.Entry Unit)) = .ok ["Conv2d", "Lstm"] := by
  have hc : "Conv" ∈ Ops.members := Ops.tables.2.2.2.2.2.2.2.2.2.2.2.2.2.1 _ (by simp)
  have hl := Ops.tables.2.2.2.2.2.1 "Lstm" (by simp)
  have he : EqUpToCase "Lstm" "LSTM" := by unfold EqUpToCase; decide +kernel
  simp [Ops.outcome, Ops.Entry.op, read_of hc rfl, read_of hl.1 he, Ops.remap,
    Ops.kernelAxes, Ops.tables.2.2.2.2.2.2.2.2.2.2.2.2.2.2.1, hl.2.1]

/-- A graph with two operators without processors is refused, naming both nodes. -/
example : Ops.outcome
    ([⟨"", "Einsum", "e", ⟨none, none⟩⟩, ⟨"", "Relu", "r", ⟨none, none⟩⟩, ⟨"", "Det", "d", ⟨none, none⟩⟩] :
      List (Ops.Entry Unit)) = .refused [("Einsum", "e"), ("Det", "d")] := by
  have hr := Ops.tables.2.2.2.2.2.2.2.2.2.2.1
  have ha : Ops.accepted "Einsum" = false ∧ Ops.accepted "Relu" = true ∧ Ops.accepted "Det" = false :=
    ⟨Ops.tables.2.2.2.2.2.2.2.2.2.2.2.2.2.2.2.1, hr.2.2.2, Ops.tables.2.2.2.2.2.2.2.2.2.2.2.2.2.2.2.2⟩
  simp [Ops.outcome, Ops.Entry.op, read_of (Ops.tables.2.2.2.2.2.2.2.2.2.2.2.2.2.1 "Einsum" (by simp)) rfl, read_of hr.2.1 rfl,
    read_of (Ops.tables.2.2.2.2.2.2.2.2.2.2.2.2.2.1 "Det" (by simp)) rfl, Ops.remap, ha]

example : Ops.opsetVersion [("com.microsoft", 1), ("", 17)] = some 17 := by decide

end OnnxIR
