import Verif.Lemmas.TypeNames

/-!
# C35: generated names are unique

Within one graph, and across all graphs that share one registry, nodes get different names and so
do the values they produce, whatever the sequence of node types and the numbers of outputs. Across
graphs that do not share a registry (the main graph and its subgraphs, or the subgraphs of two
control-flow nodes of the main graph) names repeat: `C35_nested_names_repeat`.
-/

namespace OnnxIR

/-! ## Decimal numbers and names -/

theorem digit_toLower {c : Char} (h : c.isDigit = true) : c.toLower = c := by
  have : ¬ (c.val ≥ 65 ∧ c.val ≤ 90) := by
    simp only [Char.isDigit, Bool.and_eq_true, decide_eq_true_eq, ge_iff_le, UInt32.le_iff_toNat_le] at h ⊢
    simp at h ⊢; omega
  unfold Char.toLower
  simp only [ge_iff_le] at this ⊢
  split
  · rename_i h2; exact absurd h2 this
  · rfl

theorem toDigits_inj {n m : Nat} (h : Nat.toDigits 10 n = Nat.toDigits 10 m) : n = m := by
  rw [← Nat.ofDigitChars_ten_toDigits (n := n), h, Nat.ofDigitChars_ten_toDigits]

theorem toDigits_digits {n : Nat} : ∀ c ∈ Nat.toDigits 10 n, c.isDigit = true :=
  fun _ hc => Nat.isDigit_of_mem_toDigits (by omega) (by omega) hc

theorem toList_toString (n : Nat) : (toString n).toList = Nat.toDigits 10 n := by
  rw [Nat.toString_eq_repr, Nat.toList_repr]

theorem nodeName_toList (t : String) (n : Nat) :
    (nodeName t n).toList = lowerChars t ++ Nat.toDigits 10 n := by
  unfold nodeName lowerChars
  rw [String.toList_map, String.toList_append, List.map_append, toList_toString]
  congr 1
  conv => rhs; rw [← List.map_id (Nat.toDigits 10 n)]
  exact List.map_congr_left fun c hc => digit_toLower (toDigits_digits c hc)

/-- Type and counter can be read off a name. -/
theorem nodeName_inj {t t' : String} {n n' : Nat} (ht : t ∈ nodeTypes) (ht' : t' ∈ nodeTypes)
    (h : nodeName t n = nodeName t' n') : t = t' ∧ n = n' := by
  have hl : lowerChars t ++ Nat.toDigits 10 n = lowerChars t' ++ Nat.toDigits 10 n' := by
    rw [← nodeName_toList, ← nodeName_toList, h]
  have key : t = t' := by
    rcases List.append_eq_append_iff.1 hl with ⟨p, h1, h2⟩ | ⟨p, h1, h2⟩
    · exact lowerChars_prefix ht ht' (fun c hc => toDigits_digits (n := n) c (by
        rw [h2]; exact List.mem_append_left _ hc)) h1
    · exact (lowerChars_prefix ht' ht (fun c hc => toDigits_digits (n := n') c (by
        rw [h2]; exact List.mem_append_left _ hc)) h1).symm
  subst key
  exact ⟨rfl, toDigits_inj (List.append_cancel_left hl)⟩

theorem nodeName_noUnder {t : String} {n : Nat} (ht : t ∈ nodeTypes) :
    '_' ∉ (nodeName t n).toList := by
  rw [nodeName_toList, List.mem_append]
  rintro (h | h)
  · exact lowerChars_noUnder ht h
  · exact Nat.underscore_not_in_toDigits h

/-- Node name and output number can be read off a value's name. -/
theorem outName_inj {a b : String} {i j : Nat} (ha : '_' ∉ a.toList) (hb : '_' ∉ b.toList)
    (h : outName a i = outName b j) : a = b ∧ i = j := by
  have hl : a.toList ++ ('_' :: ("out".toList ++ (toString i).toList)) =
      b.toList ++ ('_' :: ("out".toList ++ (toString j).toList)) := by
    have := congrArg String.toList h
    simpa [outName, List.append_assoc] using this
  have split : ∀ {x y u v : List Char}, '_' ∉ x → '_' ∉ y → x ++ '_' :: u = y ++ '_' :: v →
      x = y ∧ u = v := by
    intro x
    induction x with
    | nil =>
      intro y u v _ hy h
      cases y with
      | nil => simpa using h
      | cons c y => simp at h; exact absurd h.1.symm (fun e => hy (by simp [e]))
    | cons d x ih =>
      intro y u v hx hy h
      cases y with
      | nil => simp at h; exact absurd h.1 (fun e => hx (by simp [e]))
      | cons c y =>
        simp only [List.cons_append, List.cons.injEq] at h
        obtain ⟨h1, h2⟩ := ih (fun hm => hx (List.mem_cons_of_mem _ hm))
          (fun hm => hy (List.mem_cons_of_mem _ hm)) h.2
        exact ⟨by rw [h.1, h1], h2⟩
  obtain ⟨h1, h2⟩ := split ha hb hl
  refine ⟨String.toList_inj.1 h1, ?_⟩
  have h2 := List.append_cancel_left h2
  rw [toList_toString, toList_toString] at h2
  exact toDigits_inj h2

/-! ## Sequences of names -/

theorem count_bump (c : Counters) (t u : String) :
    (c.bump t).count u = if t = u then c.count t + 1 else c.count u := by
  simp only [Counters.count, Counters.bump, mapGet]
  by_cases h : t = u <;> simp [h]

theorem genNames_mem : ∀ (ts : List String) (c : Counters), ∀ x ∈ genNames c ts,
    ∃ t ∈ ts, ∃ m, c.count t < m ∧ x = nodeName t m
  | [], c, x, hx => by cases hx
  | t :: ts, c, x, hx => by
    simp only [genNames, genName] at hx
    cases hx with
    | head => exact ⟨t, List.mem_cons_self, _, Nat.lt_succ_self _, rfl⟩
    | tail _ hx =>
      obtain ⟨u, hu, m, hm, rfl⟩ := genNames_mem ts _ x hx
      refine ⟨u, List.mem_cons_of_mem _ hu, m, ?_, rfl⟩
      rw [count_bump] at hm
      split at hm
      · rename_i h; subst h; omega
      · exact hm

/-- **C35, one registry.** All names handed out from one set of counters are different: for every
starting state and every sequence of node types, also when the calls come from several graphs
that share the registry. -/
theorem C35_registry_names_unique : ∀ (ts : List String) (c : Counters),
    (∀ t ∈ ts, t ∈ nodeTypes) → (genNames c ts).Nodup
  | [], c, _ => List.nodup_nil
  | t :: ts, c, ht => by
    simp only [genNames, genName]
    refine List.nodup_cons.2 ⟨fun hm => ?_, C35_registry_names_unique ts _ fun u hu =>
      ht u (List.mem_cons_of_mem _ hu)⟩
    obtain ⟨u, hu, m, hlt, he⟩ := genNames_mem ts _ _ hm
    obtain ⟨rfl, rfl⟩ := nodeName_inj (ht t List.mem_cons_self) (ht u (List.mem_cons_of_mem _ hu)) he
    rw [count_bump, if_pos rfl] at hlt
    omega

/-- The node types one node asks names for. -/
def callsOf : String × Option String → List String
  | (t, none) => [t]
  | (t, some f) => [t, f]

theorem nameNodes_sublist : ∀ (ns : List (String × Option String)) (c : Counters),
    (nameNodes c ns).Sublist (genNames c (ns.flatMap callsOf))
  | [], c => List.Sublist.slnil
  | (t, none) :: ns, c => by
    simp only [nameNodes, nameNode, List.flatMap_cons, callsOf, List.cons_append, List.nil_append,
      genNames]
    exact (nameNodes_sublist ns _).cons_cons _
  | (t, some f) :: ns, c => by
    simp only [nameNodes, nameNode, List.flatMap_cons, callsOf, List.cons_append, List.nil_append,
      genNames]
    exact ((nameNodes_sublist ns _).cons_cons _).cons _

theorem genNames_append : ∀ (ts us : List String) (c : Counters), ∃ c',
    genNames c (ts ++ us) = genNames c ts ++ genNames c' us
  | [], us, c => ⟨c, rfl⟩
  | t :: ts, us, c => by
    obtain ⟨c', h⟩ := genNames_append ts us (genName c t).2
    exact ⟨c', by simp [genNames, h]⟩

theorem nodeName_constant (n : Nat) : nodeName "Constant" n = "constant" ++ toString n := by
  apply String.toList_inj.1
  rw [nodeName_toList, String.toList_append, toList_toString]
  rfl

set_option maxRecDepth 10000 in
theorem constant_mem : "Constant" ∈ nodeTypes := by
  rw [nodeTypes_eq]
  have : ['C', 'o', 'n', 's', 't', 'a', 'n', 't'] ∈ typeChars := by decide +kernel
  exact List.mem_map.2 ⟨_, this, rfl⟩

theorem initNames_eq (n : Nat) : initNames n = (List.range n).map fun i => nodeName "Constant" (i + 1) := by
  unfold initNames
  exact List.map_congr_left fun i _ => (nodeName_constant _).symm

theorem initCounters_count (n : Nat) : (initCounters n).count "Constant" = n := by
  unfold initCounters
  split
  · simp [Counters.count, mapGet]
  · simp [Counters.count, mapGet]; omega

/-- **C35, one graph.** In a graph with any number of initializers and any sequence of nodes (some
of them changed to another type by fusion), the constants made from initializers and the nodes all
have different names. -/
theorem C35_node_names_unique (inits : Nat) (nodes : List (String × Option String))
    (ht : ∀ p ∈ nodes, ∀ t ∈ callsOf p, t ∈ nodeTypes) :
    (initNames inits ++ nameNodes (initCounters inits) nodes).Nodup := by
  have ht' : ∀ t ∈ nodes.flatMap callsOf, t ∈ nodeTypes := by
    intro t h
    obtain ⟨p, hp, h⟩ := List.mem_flatMap.1 h
    exact ht p hp t h
  rw [List.nodup_append]
  refine ⟨?_, (C35_registry_names_unique _ _ ht').sublist (nameNodes_sublist _ _), ?_⟩
  · rw [initNames_eq, List.nodup_iff_pairwise_ne, List.pairwise_map]
    refine (List.nodup_range (n := inits)).imp ?_
    intro i j hij h
    have := (nodeName_inj constant_mem constant_mem h).2
    omega
  · intro x hx y hy hxy
    subst hxy
    rw [initNames_eq, List.mem_map] at hx
    obtain ⟨i, hi, rfl⟩ := hx
    obtain ⟨t, htm, m, hm, he⟩ := genNames_mem _ _ _ ((nameNodes_sublist _ _).subset hy)
    obtain ⟨rfl, rfl⟩ := nodeName_inj constant_mem (ht' _ htm) he
    rw [initCounters_count] at hm
    have := List.mem_range.1 hi
    omega

theorem names_noUnder (inits : Nat) (nodes : List (String × Option String))
    (ht : ∀ p ∈ nodes, ∀ t ∈ callsOf p, t ∈ nodeTypes) :
    ∀ x ∈ initNames inits ++ nameNodes (initCounters inits) nodes, '_' ∉ x.toList := by
  intro x hx
  rcases List.mem_append.1 hx with h | h
  · rw [initNames_eq, List.mem_map] at h
    obtain ⟨i, _, rfl⟩ := h
    exact nodeName_noUnder constant_mem
  · obtain ⟨t, htm, m, _, rfl⟩ := genNames_mem _ _ _ ((nameNodes_sublist _ _).subset h)
    obtain ⟨p, hp, h⟩ := List.mem_flatMap.1 htm
    exact nodeName_noUnder (ht p hp t h)

/-- If nodes have different names without underscores, all their outputs have different names. -/
theorem outNames_nodup : ∀ (l : List (String × Nat)), (l.map Prod.fst).Nodup →
    (∀ p ∈ l, '_' ∉ p.1.toList) → (l.flatMap fun p => outNamesOf p.1 p.2).Nodup
  | [], _, _ => List.nodup_nil
  | (a, n) :: l, hn, hu => by
    rw [List.map_cons, List.nodup_cons] at hn
    rw [List.flatMap_cons, List.nodup_append]
    refine ⟨?_, outNames_nodup l hn.2 fun p hp => hu p (List.mem_cons_of_mem _ hp), ?_⟩
    · unfold outNamesOf
      rw [List.nodup_iff_pairwise_ne, List.pairwise_map]
      refine (List.nodup_range (n := n)).imp ?_
      intro i j hij h
      have hau := hu (a, n) List.mem_cons_self
      have := (outName_inj hau hau h).2
      omega
    · intro x hx y hy hxy
      subst hxy
      obtain ⟨i, _, rfl⟩ := List.mem_map.1 hx
      obtain ⟨p, hp, hy⟩ := List.mem_flatMap.1 hy
      obtain ⟨j, _, he⟩ := List.mem_map.1 hy
      have := (outName_inj (hu p (List.mem_cons_of_mem _ hp)) (hu (a, n) List.mem_cons_self) he).1
      exact hn.1 (this ▸ List.mem_map_of_mem hp)

theorem zip_fst_sublist {α β : Type} : ∀ (l : List α) (m : List β),
    ((l.zip m).map Prod.fst).Sublist l
  | [], _ => by simp
  | _ :: _, [] => by simp
  | a :: l, b :: m => by
    rw [List.zip_cons_cons, List.map_cons]
    exact (zip_fst_sublist l m).cons_cons a

/-- **C35, values.** All values produced in one graph have different names: `counts` gives the
number of outputs of each constant and node, in order. -/
theorem C35_value_names_unique (inits : Nat) (nodes : List (String × Option String))
    (ht : ∀ p ∈ nodes, ∀ t ∈ callsOf p, t ∈ nodeTypes) (counts : List Nat) :
    (((initNames inits ++ nameNodes (initCounters inits) nodes).zip counts).flatMap
      fun p => outNamesOf p.1 p.2).Nodup := by
  refine outNames_nodup _ ?_ ?_
  · exact (C35_node_names_unique inits nodes ht).sublist (by
      exact zip_fst_sublist _ _)
  · intro p hp
    exact names_noUnder inits nodes ht p.1 (List.of_mem_zip hp).1

/-- The hypotheses are met by a graph with two initializers, a Conv, a MatMul fused into a Linear,
a plain Linear and a Constant node. -/
example : (∀ p ∈ [("Conv2d", none), ("MatMul", some "Linear"), ("Linear", none), ("Constant", none)],
      ∀ t ∈ callsOf p, t ∈ nodeTypes) ∧
    initNames 2 ++ nameNodes (initCounters 2) [("Conv2d", none), ("MatMul", some "Linear"),
      ("Linear", none), ("Constant", none)] =
      ["constant1", "constant2", "conv2d1", "linear1", "linear2", "constant3"] := by
  constructor
  · rw [nodeTypes_eq]; decide +kernel
  · decide +kernel

/-- **C35 fails across graphs.** Main graph: Add, If, Add, Add. The If node's subgraphs get their
names from a registry started at (count + 1); the main graph goes on with its own counters. An Add
in a branch is called `add3`, and so is the third Add of the main graph. The same two values are
also called `add3_out1`. -/
theorem C35_nested_names_repeat :
    "add3" ∈ nameNodes (nestedRegistry (nameNodesEnd [] [("Add", none)]) "If") [("Add", none)] ∧
    "add3" ∈ nameNodes [] [("Add", none), ("If", none), ("Add", none), ("Add", none)] := by
  constructor <;> decide +kernel

/-- Two If nodes in the main graph: their branches reuse each other's names. -/
theorem C35_sibling_names_repeat :
    nameNodes (nestedRegistry (nameNodesEnd [] []) "If") [("Relu", none)] = ["relu1"] ∧
    nameNodes (nestedRegistry (nameNodesEnd [] [("If", none)]) "If") [("Relu", none)] = ["relu1"] := by
  constructor <;> decide +kernel

end OnnxIR
