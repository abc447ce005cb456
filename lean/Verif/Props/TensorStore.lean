import Verif.Model.TensorStore

/-!
# C39: constants are never mixed up
-/

namespace OnnxIR.Store

variable {D T : Type}

/-- Reachable stores: every binding is below the next id. -/
def Ok (s : ValueStore D) : Prop := ∀ p ∈ s.tensors.data, p.1 < s.tensors.nextId

theorem Ok.new : Ok (ValueStore.new : ValueStore D) := by simp [Ok, ValueStore.new, TensorStore.new]

theorem step_mono {s : ValueStore D} (h : Ok s) (e : Event D) :
    Ok (s.step e).1 ∧ s.tensors.nextId ≤ (s.step e).1.tensors.nextId ∧
    (∀ id, id < s.tensors.nextId → idGet (s.step e).1.tensors.data id = idGet s.tensors.data id) ∧
    (∀ id ∈ (s.step e).2, s.tensors.nextId ≤ id ∧ id < (s.step e).1.tensors.nextId) := by
  have hs : ∀ d : D, Ok (⟨(s.tensors.store d).1, s.constants⟩ : ValueStore D) := by
    intro d p hp
    simp only [TensorStore.store, List.mem_cons] at hp ⊢
    rcases hp with rfl | hp
    · simp
    · have := h p hp
      omega
  cases e with
  | storeTensor d =>
    refine ⟨hs d, by simp [ValueStore.step, TensorStore.store], ?_, ?_⟩
    · intro id hid
      simp only [ValueStore.step, TensorStore.store, idGet]
      rw [if_neg (by omega)]
    · simp [ValueStore.step, TensorStore.store]
  | registerConstant n d =>
    refine ⟨hs d, by simp [ValueStore.step, TensorStore.store], ?_, ?_⟩
    · intro id hid
      simp only [ValueStore.step, TensorStore.store, idGet]
      rw [if_neg (by omega)]
    · simp [ValueStore.step, TensorStore.store]
  | addConstantNode o id =>
    exact ⟨h, Nat.le_refl _, fun _ _ => rfl, by simp [ValueStore.step]⟩

theorem run_mono : ∀ (es : List (Event D)) {s : ValueStore D}, Ok s →
    Ok (s.run es).1 ∧ s.tensors.nextId ≤ (s.run es).1.tensors.nextId ∧
    (∀ id, id < s.tensors.nextId → idGet (s.run es).1.tensors.data id = idGet s.tensors.data id) ∧
    (∀ id ∈ (s.run es).2, s.tensors.nextId ≤ id ∧ id < (s.run es).1.tensors.nextId) ∧
    (s.run es).2.Nodup
  | [], s, h => ⟨h, Nat.le_refl _, fun _ _ => rfl, by simp [ValueStore.run], by simp [ValueStore.run]⟩
  | e :: es, s, h => by
    obtain ⟨h1, h2, h3, h4⟩ := step_mono h e
    obtain ⟨r1, r2, r3, r4, r5⟩ := run_mono es h1
    refine ⟨r1, Nat.le_trans h2 r2, ?_, ?_, ?_⟩
    · intro id hid
      exact (r3 id (by omega)).trans (h3 id hid)
    · intro id hid
      simp only [ValueStore.run, List.mem_append, Option.mem_toList] at hid
      rcases hid with hid | hid
      · have := h4 id hid
        exact ⟨this.1, Nat.lt_of_lt_of_le this.2 r2⟩
      · have := r4 id hid
        exact ⟨by omega, this.2⟩
    · simp only [ValueStore.run]
      rw [List.nodup_append]
      refine ⟨by cases (s.step e).2 <;> simp, r5, ?_⟩
      intro a ha b hb
      have ha := (h4 a (Option.mem_toList.1 ha)).2
      have hb := (r4 b hb).1
      omega

theorem run_append (s : ValueStore D) (a b : List (Event D)) :
    s.run (a ++ b) = (((s.run a).1.run b).1, (s.run a).2 ++ ((s.run a).1.run b).2) := by
  induction a generalizing s with
  | nil => simp [ValueStore.run]
  | cons e a ih => simp [ValueStore.run, ih, List.append_assoc]

/-! ### Ids -/

/-- **C39.** Over any history of an import, no id is handed out twice. -/
theorem C39_ids_fresh (history : List (Event D)) : (ValueStore.new.run history).2.Nodup :=
  (run_mono history Ok.new).2.2.2.2

/-- The tensor an event stores, if any. -/
def Event.stored : Event D → Option D
  | .storeTensor d => some d
  | .registerConstant _ d => some d
  | .addConstantNode _ _ => none

/-- **C39.** Reading an id returns the tensor stored under it, whatever was stored before and however
much is stored afterwards. -/
theorem C39_read_back (load : D → T) (before after : List (Event D)) (e : Event D) (d : D)
    (hd : e.stored = some d) :
    ∃ id, (ValueStore.new.run (before ++ [e])).2 = (ValueStore.new.run before).2 ++ [id] ∧
      (ValueStore.new.run (before ++ e :: after)).1.getTensorData load id = some (load d) := by
  obtain ⟨h1, _⟩ := run_mono before (Ok.new (D := D))
  have hmem : idGet ((ValueStore.new.run before).1.step e).1.tensors.data
      (ValueStore.new.run before).1.tensors.nextId = some d := by
    cases e <;> simp [Event.stored] at hd <;> subst hd <;>
      simp [ValueStore.step, TensorStore.store, idGet]
  have hlt : (ValueStore.new.run before).1.tensors.nextId
      < ((ValueStore.new.run before).1.step e).1.tensors.nextId := by
    cases e <;> simp [Event.stored] at hd <;> simp [ValueStore.step, TensorStore.store]
  have hid : ((ValueStore.new.run before).1.step e).2
      = some (ValueStore.new.run before).1.tensors.nextId := by
    cases e <;> simp [Event.stored] at hd <;> simp [ValueStore.step, TensorStore.store]
  refine ⟨(ValueStore.new.run before).1.tensors.nextId, ?_, ?_⟩
  · rw [run_append]
    simp [ValueStore.run, hid]
  · rw [run_append]
    simp only [ValueStore.run]
    have := (run_mono after (step_mono h1 e).1).2.2.1 _ hlt
    rw [ValueStore.getTensorData, TensorStore.get, this, hmem]
    rfl

/-- **C39.** An id that has not been handed out yet reads as nothing. -/
theorem C39_unknown_id (load : D → T) (history : List (Event D)) (id : Nat)
    (h : (ValueStore.new.run history).1.tensors.nextId ≤ id) :
    (ValueStore.new.run history).1.getTensorData load id = none := by
  have hok := (run_mono history (Ok.new (D := D))).1
  have : ∀ m : List (Nat × D), (∀ p ∈ m, p.1 < id) → idGet m id = none := by
    intro m
    induction m with
    | nil => intro _; rfl
    | cons p m ih =>
      intro hm
      have := hm p List.mem_cons_self
      simp only [idGet]
      rw [if_neg (by omega), ih fun q hq => hm q (List.mem_cons_of_mem _ hq)]
  rw [ValueStore.getTensorData, TensorStore.get, this _ fun p hp => Nat.lt_of_lt_of_le (hok p hp) h]
  rfl

/-! ### Names -/

/-- The names an event binds. -/
def Event.names : Event D → List String
  | .storeTensor _ => []
  | .registerConstant n _ => [n]
  | .addConstantNode o _ => o

theorem mapGet_foldl_other {o : List String} {id : Nat} {m : List (String × Nat)} {n : String}
    (h : n ∉ o) : mapGet (o.foldl (fun m x => (x, id) :: m) m) n = mapGet m n := by
  induction o generalizing m with
  | nil => rfl
  | cons x o ih =>
    simp only [List.mem_cons, not_or] at h
    rw [List.foldl_cons, ih h.2, mapGet, if_neg (fun e => h.1 e.symm)]

theorem mapGet_foldl_mem {o : List String} {id : Nat} {m : List (String × Nat)} {n : String}
    (h : n ∈ o) : mapGet (o.foldl (fun m x => (x, id) :: m) m) n = some id := by
  induction o generalizing m with
  | nil => cases h
  | cons x o ih =>
    rw [List.foldl_cons]
    by_cases hn : n ∈ o
    · exact ih hn
    · have : n = x := by
        rcases List.mem_cons.1 h with h | h
        · exact h
        · exact absurd h hn
      rw [mapGet_foldl_other hn, mapGet, if_pos this.symm]

theorem step_constants_other (s : ValueStore D) (e : Event D) {n : String} (h : n ∉ e.names) :
    (s.step e).1.getConstantDataId n = s.getConstantDataId n := by
  cases e with
  | storeTensor d => rfl
  | registerConstant m d =>
    simp only [Event.names, List.mem_singleton] at h
    simp only [ValueStore.step, ValueStore.getConstantDataId, mapGet]
    rw [if_neg (fun e => h e.symm)]
  | addConstantNode o id => exact mapGet_foldl_other h

theorem run_constants_other : ∀ (es : List (Event D)) (s : ValueStore D) {n : String},
    (∀ e ∈ es, n ∉ e.names) → (s.run es).1.getConstantDataId n = s.getConstantDataId n
  | [], _, _, _ => rfl
  | e :: es, s, n, h => by
    show ((s.step e).1.run es).1.getConstantDataId n = _
    rw [run_constants_other es _ fun e' he' => h e' (List.mem_cons_of_mem _ he'),
      step_constants_other s e (h e List.mem_cons_self)]

/-- **C39.** Looking a name up returns the tensor last registered for it: the one registered for it, if
names are registered once, as they are within one graph (C35). -/
theorem C39_name_lookup (load : D → T) (before after : List (Event D)) (n : String) (d : D)
    (hafter : ∀ e ∈ after, n ∉ e.names) :
    let a : Argument D := ⟨n, .constant,
      some (ValueStore.new.run (before ++ .registerConstant n d :: after)).1⟩
    a.value load = some (load d) := by
  obtain ⟨id, h1, h2⟩ := C39_read_back load before after (.registerConstant n d) d rfl
  have hn : (ValueStore.new.run (before ++ .registerConstant n d :: after)).1.getConstantDataId n
      = some (ValueStore.new.run before).1.tensors.nextId := by
    rw [run_append]
    show (((ValueStore.new.run before).1.step (.registerConstant n d)).1.run after).1.getConstantDataId n
      = _
    rw [run_constants_other after _ hafter]
    simp [ValueStore.step, ValueStore.getConstantDataId, mapGet, TensorStore.store]
  have hid : id = (ValueStore.new.run before).1.tensors.nextId := by
    rw [run_append] at h1
    simp [ValueStore.run, ValueStore.step, TensorStore.store] at h1
    exact h1.symm
  subst hid
  simp only [Argument.value, Option.bind_some, hn]
  exact h2

/-- **C39.** The same for a Constant node: its outputs read as the tensor its input refers to. -/
theorem C39_constant_node (load : D → T) (before mid after : List (Event D)) (outs : List String)
    (n : String) (d : D) (hn : n ∈ outs) (hafter : ∀ e ∈ after, n ∉ e.names) :
    ∃ id, (ValueStore.new.run (before ++ [.storeTensor d])).2
        = (ValueStore.new.run before).2 ++ [id] ∧
      let a : Argument D := ⟨n, .constant, some (ValueStore.new.run
        (before ++ .storeTensor d :: (mid ++ .addConstantNode outs id :: after))).1⟩
      a.value load = some (load d) := by
  obtain ⟨id, h1, _⟩ := C39_read_back load before [] (.storeTensor d) d rfl
  obtain ⟨id', h1', h2⟩ := C39_read_back load before (mid ++ .addConstantNode outs id :: after)
    (.storeTensor d) d rfl
  have hid : id' = id := by
    have := h1.symm.trans h1'
    simp at this
    exact this.symm
  subst hid
  refine ⟨id', h1, ?_⟩
  have hl : (ValueStore.new.run (before ++ .storeTensor d ::
      (mid ++ .addConstantNode outs id' :: after))).1.getConstantDataId n = some id' := by
    rw [show before ++ .storeTensor d :: (mid ++ .addConstantNode outs id' :: after)
      = (before ++ .storeTensor d :: mid) ++ .addConstantNode outs id' :: after by simp, run_append]
    show (((ValueStore.new.run (before ++ .storeTensor d :: mid)).1.step
      (.addConstantNode outs id')).1.run after).1.getConstantDataId n = _
    rw [run_constants_other after _ hafter]
    exact mapGet_foldl_mem hn
  simp only [Argument.value, Option.bind_some, hl]
  exact h2

/-! ### Arguments -/

/-- **C39.** A reference taken at some point of the import keeps its value: reading the id through an old
snapshot and through any later one gives the same tensor. -/
theorem C39_snapshots_agree (load : D → T) (before after : List (Event D)) (id : Nat) (v : T)
    (h : (ValueStore.new.run before).1.getTensorData load id = some v) :
    (ValueStore.new.run (before ++ after)).1.getTensorData load id = some v := by
  obtain ⟨hok, _⟩ := run_mono before (Ok.new (D := D))
  have hlt : id < (ValueStore.new.run before).1.tensors.nextId := by
    rcases Nat.lt_or_ge id (ValueStore.new.run before).1.tensors.nextId with h' | h'
    · exact h'
    · rw [C39_unknown_id load before id h'] at h; cases h
  rw [run_append]
  have := (run_mono after hok).2.2.1 id hlt
  rw [ValueStore.getTensorData, TensorStore.get] at h ⊢
  rw [this]; exact h

/-- **C39.** Embedding a constant into its consumer keeps its value, and fails only when the constant
cannot be found. -/
theorem C39_to_static (load : D → T) (a : Argument D) :
    (∀ b, a.toStatic = some b → b.value load = a.value load) ∧
    (a.source = .constant → a.toStatic = none → a.value load = none) := by
  constructor
  · intro b hb
    unfold Argument.toStatic at hb
    split at hb
    · next hc =>
      obtain ⟨s, hs, hb⟩ := Option.bind_eq_some_iff.1 hb
      obtain ⟨id, hid, hb⟩ := Option.bind_eq_some_iff.1 hb
      cases hb
      simp [Argument.value, hc, hs, hid]
    · cases hb
  · intro hc hn
    unfold Argument.toStatic at hn
    rw [hc] at hn
    cases hs : a.store with
    | none => simp [Argument.value, hs]
    | some s =>
      cases hid : s.getConstantDataId a.name with
      | none => simp [Argument.value, hs, hc, hid]
      | some id => simp [hs, hid] at hn

/-- **C39.** While nodes are converted, attaching another graph's store never changes the value of an
argument that already has one: a constant of the enclosing graph used in a subgraph stays the enclosing
graph's constant, even when the subgraph uses the same ids and names. -/
theorem C39_attach_keeps_value (load : D → T) (a : Argument D) (s : ValueStore D) (v : T)
    (h : a.value load = some v) : (a.attach s).value load = some v := by
  unfold Argument.value at h
  obtain ⟨t, ht, h⟩ := Option.bind_eq_some_iff.1 h
  cases hsrc : a.source with
  | static id =>
    simp only [hsrc] at h
    have : (idGet t.tensors.data id).isSome := by
      rw [ValueStore.getTensorData, TensorStore.get] at h
      cases hi : idGet t.tensors.data id <;> simp_all
    simp only [Argument.attach, hsrc, ht, Option.any_some, this, if_true]
    simp [Argument.value, ht, hsrc, h]
  | constant =>
    simp only [hsrc] at h
    have : (t.getConstantDataId a.name).isSome := by
      cases hi : t.getConstantDataId a.name <;> simp_all
    simp only [Argument.attach, hsrc, ht, Option.any_some, this, if_true]
    simpa [Argument.value, ht, hsrc] using h
  | dynamic => simp [hsrc] at h
  | optional => simp [hsrc] at h

/-- **C39.** In the later phases the same holds for embedded constants. -/
theorem C39_finalize_keeps_static (load : D → T) (a : Argument D) (s : ValueStore D) (v : T)
    (id : Nat) (hsrc : a.source = .static id) (h : a.value load = some v) :
    (a.finalize s).value load = some v := by
  unfold Argument.value at h
  obtain ⟨t, ht, h⟩ := Option.bind_eq_some_iff.1 h
  simp only [hsrc] at h
  have : (idGet t.tensors.data id).isSome := by
    rw [ValueStore.getTensorData, TensorStore.get] at h
    cases hi : idGet t.tensors.data id <;> simp_all
  simp only [Argument.finalize, hsrc, ht, Option.any_some, this, if_true]
  simp [Argument.value, ht, hsrc, h]

/-- **C39.** For constants referred to by name the later phases look the name up in the subgraph's own
store: the value is kept when that store extends the one it was read through, as in the main graph. -/
theorem C39_finalize_same_graph (load : D → T) (before after : List (Event D)) (n : String) (v : T)
    (hafter : ∀ e ∈ after, n ∉ e.names)
    (h : (⟨n, .constant, some (ValueStore.new.run before).1⟩ : Argument D).value load = some v) :
    ((⟨n, .constant, some (ValueStore.new.run before).1⟩ : Argument D).finalize
      (ValueStore.new.run (before ++ after)).1).value load = some v := by
  simp only [Argument.value, Option.bind_some] at h
  obtain ⟨id, hid, h⟩ := Option.bind_eq_some_iff.1 h
  have hl : (ValueStore.new.run (before ++ after)).1.getConstantDataId n = some id := by
    rw [run_append]
    show ((ValueStore.new.run before).1.run after).1.getConstantDataId n = _
    rw [run_constants_other after _ hafter, hid]
  simp only [Argument.finalize, Bool.false_eq_true, if_false, Argument.value, Option.bind_some, hl]
  exact C39_snapshots_agree load before after id v h

/-- **C39, disagreement.** A constant of the enclosing graph that a subgraph refers to by name (it was not
embedded) is looked up in the subgraph's store after post-processing, and reads as unknown. -/
theorem C39_captured_constant_forgotten :
    ∃ (outer inner : List (Event Nat)) (n : String),
      let a : Argument Nat := ⟨n, .constant, some (ValueStore.new.run outer).1⟩
      a.value id = some 7 ∧ (a.finalize (ValueStore.new.run inner).1).value id = none :=
  ⟨[.registerConstant "constant1_out1" 7], [.registerConstant "constant2_out1" 8], "constant1_out1",
    by decide, by decide⟩

/-! Two initializers, a Constant node and a folded constant. -/

example :
    let h : List (Event Nat) := [.registerConstant "constant1_out1" 10,
      .registerConstant "constant2_out1" 20, .storeTensor 30, .addConstantNode ["constant3_out1"] 2,
      .registerConstant "add1_out1" 40]
    (ValueStore.new.run h).2 = [0, 1, 2, 3] ∧
    (["constant1_out1", "constant2_out1", "constant3_out1", "add1_out1", "x"].map fun n =>
      (⟨n, .constant, some (ValueStore.new.run h).1⟩ : Argument Nat).value id)
      = [some 10, some 20, some 30, some 40, none] := by
  decide

end OnnxIR.Store
