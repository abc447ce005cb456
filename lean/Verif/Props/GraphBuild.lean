import Verif.Lemmas.Eval
import Verif.Props.Naming
import Verif.Props.Sanitize
import Verif.Spec.OnnxGraph

/-!
# C36: every input refers to the value ONNX means

`C36_import_preserves_meaning_partial`: for every graph whose names stay apart after sanitising,
the imported graph computes what the ONNX graph computes, for every meaning of the operators. The
conditions on names are `NamesOk`; theorems further down show that each is needed.
-/

namespace OnnxIR

variable {V : Type}

/-- Every name in the file; "" is the name of an omitted input or output. -/
def allNames (g : GraphProto V) : List String :=
  "" :: g.inputs ++ g.inits.map Prod.fst ++ g.nodes.flatMap (fun n => n.inputs ++ n.outputs) ++ g.outputs

/-- Names bound by initializers and nodes. -/
def boundNames (g : GraphProto V) : List String :=
  g.inits.map Prod.fst ++ g.nodes.flatMap (fun n => n.outputs)

/-- The conditions on names: sanitising keeps them apart, inputs and initializers are named, no
initializer is repeated, no node output takes the name of a graph input, a `Constant` node's output
is named, graph outputs are defined in this graph, and operators are known ones. -/
structure NamesOk (g : GraphProto V) : Prop where
  apart : ∀ x ∈ allNames g, ∀ y ∈ allNames g, sanitizeName x = sanitizeName y → x = y
  inputsNamed : "" ∉ g.inputs
  initsNamed : "" ∉ g.inits.map Prod.fst
  initsOnce : (g.inits.map Prod.fst).Nodup
  noShadow : ∀ n ∈ g.nodes, ∀ o ∈ n.outputs, o ∉ g.inputs
  constNamed : ∀ n ∈ g.nodes, n.ty = .constant → "" ∉ n.outputs
  outsHere : ∀ x ∈ g.outputs, x ≠ "" ∧ (x ∈ g.inputs ∨ x ∈ boundNames g)
  known : ∀ n ∈ g.nodes, ∀ t ∈ callsOf n.call, t ∈ nodeTypes

/-- What the importer needs to know of one node: its names occur in the file and what it binds is bound there. Every
node of the file fits (`NamesOk.fits`), and so does a node made from two by fusion. -/
structure NodeFits (g : GraphProto V) (np : NodeProto V) : Prop where
  ins : ∀ x ∈ np.inputs, x ∈ allNames g
  outs : ∀ x ∈ np.outputs, x ∈ boundNames g
  noShadow : ∀ o ∈ np.outputs, o ∉ g.inputs
  constNamed : np.ty = .constant → "" ∉ np.outputs
  known : ∀ t ∈ callsOf np.call, t ∈ nodeTypes

theorem sanitizeName_empty : sanitizeName "" = "" := by decide +kernel

section names
variable {g : GraphProto V}

theorem mem_all_empty : "" ∈ allNames g := by simp [allNames]
theorem mem_all_input {x} (h : x ∈ g.inputs) : x ∈ allNames g := by simp [allNames, h]
theorem mem_all_bound {x} (h : x ∈ boundNames g) : x ∈ allNames g := by
  simp only [boundNames, List.mem_append, List.mem_flatMap] at h
  simp only [allNames, List.mem_append, List.mem_flatMap, List.mem_cons]
  rcases h with h | ⟨n, hn, h⟩
  · exact .inl (.inl (.inr h))
  · exact .inl (.inr ⟨n, hn, .inr h⟩)
theorem mem_all_nodeIn {n x} (hn : n ∈ g.nodes) (h : x ∈ n.inputs) : x ∈ allNames g := by
  simp only [allNames, List.mem_append, List.mem_flatMap, List.mem_cons]
  exact .inl (.inr ⟨n, hn, .inl h⟩)
theorem mem_all_out {x} (h : x ∈ g.outputs) : x ∈ allNames g := by
  simp only [allNames, List.mem_append]; exact .inr h
theorem mem_bound_out {n x} (hn : n ∈ g.nodes) (h : x ∈ n.outputs) : x ∈ boundNames g := by
  simp only [boundNames, List.mem_append, List.mem_flatMap]; exact .inr ⟨n, hn, h⟩
theorem mem_bound_init {x} (h : x ∈ g.inits.map Prod.fst) : x ∈ boundNames g :=
  List.mem_append_left _ h

/-- A key of a map made from a name is the original or the sanitised name; either way a name that
leads to it is that name. -/
theorem NamesOk.key (hg : NamesOk g) {x y k : String} (hx : x ∈ allNames g) (hy : y ∈ allNames g)
    (hk : k = x ∨ k = sanitizeName x) (hk' : k = y ∨ k = sanitizeName y) : x = y := by
  apply hg.apart x hx y hy
  have h1 : sanitizeName k = sanitizeName x := by
    rcases hk with rfl | rfl
    · rfl
    · exact C34_sanitizeName_idempotent x
  have h2 : sanitizeName k = sanitizeName y := by
    rcases hk' with rfl | rfl
    · rfl
    · exact C34_sanitizeName_idempotent y
  rw [← h1, h2]

theorem NamesOk.san_ne (hg : NamesOk g) {x : String} (hx : x ∈ allNames g) (h : x ≠ "") :
    sanitizeName x ≠ "" := fun he =>
  h (hg.apart x hx "" mem_all_empty (by rw [he, sanitizeName_empty]))
theorem NamesOk.fits (hg : NamesOk g) {n : NodeProto V} (hn : n ∈ g.nodes) : NodeFits g n :=
  ⟨fun _ hx => mem_all_nodeIn hn hx, fun _ hx => mem_bound_out hn hx, hg.noShadow n hn, hg.constNamed n hn, hg.known n hn⟩

end names

/-! ## The maps -/

theorem mapGet_cons {β : Type} (k k' : String) (v : β) (m : List (String × β)) :
    mapGet ((k', v) :: m) k = if k' = k then some v else mapGet m k := rfl

/-- The last position of a name in a list. -/
def lastIdx (x : String) : List String → Option Nat
  | [] => none
  | y :: ys =>
    match lastIdx x ys with
    | some j => some (j + 1)
    | none => if y = x then some 0 else none

theorem lastIdx_none {x : String} : ∀ {l : List String}, x ∉ l → lastIdx x l = none
  | [], _ => rfl
  | y :: ys, h => by
    simp only [lastIdx, lastIdx_none (fun hm => h (List.mem_cons_of_mem _ hm))]
    rw [if_neg]; intro he; exact h (by simp [he])

theorem lastIdx_some {x : String} : ∀ {l : List String} {j}, lastIdx x l = some j → l[j]? = some x
  | [], _, h => by cases h
  | y :: ys, j, h => by
    simp only [lastIdx] at h
    cases hl : lastIdx x ys with
    | some i =>
      simp only [hl] at h
      cases h
      simpa using lastIdx_some hl
    | none =>
      simp only [hl] at h
      split at h <;> cases h
      simp_all

theorem lastIdx_mem {x : String} : ∀ {l : List String}, x ∈ l → ∃ j, lastIdx x l = some j
  | y :: ys, h => by
    simp only [lastIdx]
    cases hl : lastIdx x ys with
    | some i => exact ⟨_, rfl⟩
    | none =>
      cases h with
      | head => exact ⟨0, by simp⟩
      | tail _ h => obtain ⟨j, hj⟩ := lastIdx_mem h; rw [hl] at hj; cases hj

theorem onnxBind_get : ∀ (xs : List String) (vs : List V) (e : Env V) (x : String), x ≠ "" →
    xs.length = vs.length → onnxBind e xs vs x =
      match lastIdx x xs with
      | some j => vs[j]?
      | none => e x
  | [], [], e, x, _, _ => rfl
  | y :: ys, w :: vs, e, x, hx, hl => by
    simp only [onnxBind, lastIdx]
    rw [onnxBind_get ys vs _ x hx (by simpa using hl)]
    cases hj : lastIdx x ys with
    | some j => simp
    | none =>
      by_cases hyx : y = x
      · subst hyx; simp [hx]
      · simp only [if_neg hyx]
        by_cases hy : y = ""
        · simp [hy]
        · simp [hy, Ne.symm hyx]

/-- Looking up a sanitised name among a node's outputs. -/
theorem addOutputs_get {g : GraphProto V} (hg : NamesOk g) (idx : Nat) (x : String)
    (hx : x ∈ allNames g) : ∀ (outs : List String) (as : List (Arg V)) (k : Nat)
      (m : List (String × (Nat × Nat))), as.map Arg.name = outs.map sanitizeName →
      (∀ o ∈ outs, o ∈ allNames g) →
      mapGet (addOutputs idx k m as) (sanitizeName x) =
        match lastIdx x outs with
        | some j => some (idx, k + j)
        | none => mapGet m (sanitizeName x)
  | [], as, k, m, ha, _ => by
    have : as = [] := by simpa using ha
    subst this; rfl
  | o :: outs, [], k, m, ha, _ => by simp at ha
  | o :: outs, a :: as, k, m, ha, ho => by
    simp only [List.map_cons, List.cons.injEq] at ha
    simp only [addOutputs, lastIdx]
    rw [addOutputs_get hg idx x hx outs as (k + 1) _ ha.2 fun o' h => ho o' (List.mem_cons_of_mem _ h)]
    cases hj : lastIdx x outs with
    | some j => simp; omega
    | none =>
      simp only [mapGet_cons, ha.1]
      by_cases hox : o = x
      · subst hox; simp
      · have : sanitizeName o ≠ sanitizeName x := fun h => hox (hg.apart _ (ho o List.mem_cons_self) _ hx h)
        simp [hox, this]

/-- A name the node does not bind is looked up as before. -/
theorem addOutputs_other {g : GraphProto V} (hg : NamesOk g) (idx : Nat) (x : String)
    (hx : x ∈ allNames g) {key : String} (hkey : key = x ∨ key = sanitizeName x) :
    ∀ (outs : List String) (as : List (Arg V)) (k : Nat)
      (m : List (String × (Nat × Nat))), as.map Arg.name = outs.map sanitizeName →
      (∀ o ∈ outs, o ∈ allNames g) → x ∉ outs →
      mapGet (addOutputs idx k m as) key = mapGet m key
  | [], as, k, m, ha, _, _ => by
    have : as = [] := by simpa using ha
    subst this; rfl
  | o :: outs, [], k, m, ha, _, _ => by simp at ha
  | o :: outs, a :: as, k, m, ha, ho, hno => by
    simp only [List.map_cons, List.cons.injEq] at ha
    simp only [addOutputs]
    rw [addOutputs_other hg idx x hx hkey outs as (k + 1) _ ha.2
      (fun o' h => ho o' (List.mem_cons_of_mem _ h)) (fun h => hno (List.mem_cons_of_mem _ h))]
    rw [mapGet_cons, if_neg]
    intro h
    have := hg.key hx (ho o List.mem_cons_self) hkey (.inr (h ▸ ha.1))
    exact hno (by simp [this])

/-- Where the entries of the map come from. -/
theorem addOutputs_from (idx : Nat) (key : String) (p : Nat × Nat) :
    ∀ (outs : List String) (as : List (Arg V)) (k : Nat) (m : List (String × (Nat × Nat))),
      as.map Arg.name = outs.map sanitizeName →
      mapGet (addOutputs idx k m as) key = some p →
      mapGet m key = some p ∨ ∃ j o, outs[j]? = some o ∧ key = sanitizeName o ∧ p = (idx, k + j)
  | [], as, k, m, ha, h => by
    have : as = [] := by simpa using ha
    subst this; exact .inl h
  | o :: outs, [], k, m, ha, _ => by simp at ha
  | o :: outs, a :: as, k, m, ha, h => by
    simp only [List.map_cons, List.cons.injEq] at ha
    simp only [addOutputs] at h
    rcases addOutputs_from idx key p outs as (k + 1) _ ha.2 h with h | ⟨j, o', h1, h2, h3⟩
    · rw [mapGet_cons] at h
      split at h
      · rename_i he
        cases h
        exact .inr ⟨0, o, rfl, by rw [← he, ha.1], rfl⟩
      · exact .inl h
    · exact .inr ⟨j + 1, o', by simpa using h1, h2, by rw [h3]; congr 1; omega⟩

theorem renameOutputs_length (node : String) : ∀ (as : List (Arg V)) (k : Nat),
    (renameOutputs node k as).length = as.length
  | [], _ => rfl
  | _ :: as, k => by simp [renameOutputs, renameOutputs_length node as]

theorem renameOutputs_get (node : String) : ∀ (as : List (Arg V)) (k j : Nat) (a : Arg V),
    as[j]? = some a → (renameOutputs node k as)[j]? = some { a with name := outName node (k + j + 1) }
  | [], _, _, _, h => by simp at h
  | b :: as, k, 0, a, h => by simp at h; subst h; rfl
  | b :: as, k, j + 1, a, h => by
    simp only [renameOutputs, List.getElem?_cons_succ] at h ⊢
    rw [renameOutputs_get node as (k + 1) j a h]
    congr 3; omega

theorem renameOutputs_names (node : String) : ∀ (as : List (Arg V)) (k : Nat),
    (renameOutputs node k as).map Arg.name = (List.range as.length).map fun i => outName node (k + i + 1)
  | [], _ => rfl
  | a :: as, k => by
    simp only [renameOutputs, List.map_cons, List.length_cons, List.range_succ_eq_map, List.map_map]
    congr 1
    rw [renameOutputs_names node as (k + 1)]
    exact List.map_congr_left fun i _ => by simp only [Function.comp]; congr 1; omega

/-! ## The starting state -/

theorem initMap_from (key : String) (p : Nat × Nat) : ∀ (xs : List String) (i : Nat)
    (m : List (String × (Nat × Nat))), mapGet (initMap i m xs) key = some p →
    mapGet m key = some p ∨ ∃ j x, xs[j]? = some x ∧ (key = x ∨ key = sanitizeName x) ∧ p = (i + j, 0)
  | [], i, m, h => .inl h
  | x :: xs, i, m, h => by
    simp only [initMap] at h
    rcases initMap_from key p xs (i + 1) _ h with h | ⟨j, y, h1, h2, h3⟩
    · split at h
      · rw [mapGet_cons, mapGet_cons] at h
        split at h
        · rename_i he; cases h; exact .inr ⟨0, x, rfl, .inr he.symm, rfl⟩
        · split at h
          · rename_i he; cases h; exact .inr ⟨0, x, rfl, .inl he.symm, rfl⟩
          · exact .inl h
      · rw [mapGet_cons] at h
        split at h
        · rename_i he; cases h; exact .inr ⟨0, x, rfl, .inl he.symm, rfl⟩
        · exact .inl h
    · exact .inr ⟨j + 1, y, by simpa using h1, h2, by rw [h3]; congr 1; omega⟩

theorem initMap_isSome (key : String) : ∀ (xs : List String) (i : Nat)
    (m : List (String × (Nat × Nat))), ((mapGet m key).isSome ∨ ∃ x ∈ xs, key = x ∨ key = sanitizeName x) →
    (mapGet (initMap i m xs) key).isSome
  | [], i, m, h => by
    rcases h with h | ⟨x, hx, _⟩
    · exact h
    · cases hx
  | x :: xs, i, m, h => by
    simp only [initMap]
    apply initMap_isSome key xs (i + 1)
    rcases h with h | ⟨y, hy, hk⟩
    · left
      split
      · rw [mapGet_cons, mapGet_cons]; split
        · rfl
        · split
          · rfl
          · exact h
      · rw [mapGet_cons]; split
        · rfl
        · exact h
    · cases hy with
      | tail _ hy => exact .inr ⟨y, hy, hk⟩
      | head =>
        left
        by_cases hs : sanitizeName x = x
        · rw [if_neg (by simpa using hs), mapGet_cons, if_pos]
          · rfl
          · rcases hk with hk | hk <;> simp [hk, hs]
        · rw [if_pos hs, mapGet_cons, mapGet_cons]
          rcases hk with hk | hk
          · split
            · rfl
            · rw [if_pos hk.symm]; rfl
          · rw [if_pos hk.symm]; rfl

theorem initializerNodes_get : ∀ (inits : List (String × V)) (i j : Nat) (x : String) (v : V),
    inits[j]? = some (x, v) → (initializerNodes i inits)[j]? = some (constNode (i + j) v)
  | [], _, _, _, _, h => by simp at h
  | (y, w) :: inits, i, 0, x, v, h => by
    simp at h; simp [initializerNodes, h.2]
  | (y, w) :: inits, i, j + 1, x, v, h => by
    simp only [initializerNodes, List.getElem?_cons_succ] at h ⊢
    rw [initializerNodes_get inits (i + 1) j x v h]
    congr 2; omega

/-- What the input map contains. -/
theorem inputLoop_from (om : List (String × (Nat × Nat))) (key : String) (i : Nat) :
    ∀ (xs : List String) (args : List (Arg V)) (m : List (String × Nat)),
      (∀ k i, mapGet m k = some i → ∃ a, args[i]? = some a) →
      mapGet (inputLoop om args.length args m xs).2 key = some i →
      (mapGet m key = some i ∧ ∃ a, args[i]? = some a ∧ (inputLoop om args.length args m xs).1[i]? = some a) ∨
      ∃ x ∈ xs, mapGet om x = none ∧ (key = x ∨ key = sanitizeName x) ∧
        (inputLoop om args.length args m xs).1[i]? = some ⟨sanitizeName x, .default, .dynamic⟩
  | [], args, m, hm, h => by
    obtain ⟨a, ha⟩ := hm _ _ h
    exact .inl ⟨h, a, ha, ha⟩
  | x :: xs, args, m, hm, h => by
    simp only [inputLoop] at h ⊢
    by_cases hx : (mapGet om x).isSome = true
    · rw [if_pos hx] at h ⊢
      rcases inputLoop_from om key i xs args m hm h with h | ⟨y, hy, h⟩
      · exact .inl h
      · exact .inr ⟨y, List.mem_cons_of_mem _ hy, h⟩
    · rw [if_neg hx] at h ⊢
      have hx' : mapGet om x = none := by simpa using hx
      have hlen : args.length + 1 = (args ++ [(⟨sanitizeName x, .default, .dynamic⟩ : Arg V)]).length := by simp
      rw [hlen] at h ⊢
      have hcase : ∀ k i, mapGet (if sanitizeName x ≠ x then
            (sanitizeName x, args.length) :: (x, args.length) :: m else (x, args.length) :: m) k = some i →
          mapGet m k = some i ∨ (i = args.length ∧ (k = x ∨ k = sanitizeName x)) := by
        intro k i h
        split at h
        · rw [mapGet_cons, mapGet_cons] at h
          split at h
          · rename_i he; cases h; exact .inr ⟨rfl, .inr he.symm⟩
          · split at h
            · rename_i he; cases h; exact .inr ⟨rfl, .inl he.symm⟩
            · exact .inl h
        · rw [mapGet_cons] at h
          split at h
          · rename_i he; cases h; exact .inr ⟨rfl, .inl he.symm⟩
          · exact .inl h
      rcases inputLoop_from om key i xs _ _ (by
          intro k i h
          rcases hcase k i h with h | ⟨rfl, _⟩
          · obtain ⟨a, ha⟩ := hm k i h
            exact ⟨a, by rw [List.getElem?_append_left (by
              exact (List.getElem?_eq_some_iff.1 ha).1)]; exact ha⟩
          · exact ⟨⟨sanitizeName x, .default, .dynamic⟩, by
              rw [List.getElem?_append_right (Nat.le_refl _)]; simp⟩) h with
        ⟨h1, a, h2, h3⟩ | ⟨y, hy, h⟩
      · rcases hcase key i h1 with h4 | ⟨rfl, hk⟩
        · obtain ⟨b, hb⟩ := hm key i h4
          have hb' : (args ++ [(⟨sanitizeName x, .default, .dynamic⟩ : Arg V)])[i]? = some b := by
            rw [List.getElem?_append_left (List.getElem?_eq_some_iff.1 hb).1]; exact hb
          have hab : b = a := Option.some.inj (hb'.symm.trans h2)
          exact .inl ⟨h4, a, hab ▸ hb, h3⟩
        · right
          refine ⟨x, List.mem_cons_self, hx', hk, ?_⟩
          rw [List.getElem?_append_right (Nat.le_refl _)] at h2
          simp at h2; subst h2; exact h3
      · exact .inr ⟨y, List.mem_cons_of_mem _ hy, h⟩

theorem inputLoop_isSome (om : List (String × (Nat × Nat))) (key : String) :
    ∀ (xs : List String) (idx : Nat) (args : List (Arg V)) (m : List (String × Nat)),
      ((mapGet m key).isSome ∨ ∃ x ∈ xs, mapGet om x = none ∧ (key = x ∨ key = sanitizeName x)) →
      (mapGet (inputLoop om idx args m xs).2 key).isSome
  | [], idx, args, m, h => by
    rcases h with h | ⟨x, hx, _⟩
    · exact h
    · cases hx
  | x :: xs, idx, args, m, h => by
    simp only [inputLoop]
    by_cases hx : (mapGet om x).isSome = true
    · rw [if_pos hx]
      apply inputLoop_isSome om key xs
      rcases h with h | ⟨y, hy, h1, h2⟩
      · exact .inl h
      · cases hy with
        | head => rw [h1] at hx; cases hx
        | tail _ hy => exact .inr ⟨y, hy, h1, h2⟩
    · rw [if_neg hx]
      apply inputLoop_isSome om key xs
      have grow : (mapGet m key).isSome ∨ (key = x ∨ key = sanitizeName x) →
          (mapGet (if sanitizeName x ≠ x then
            (sanitizeName x, idx) :: (x, idx) :: m else (x, idx) :: m) key).isSome := by
        intro h
        by_cases hs : sanitizeName x = x
        · rw [if_neg (by simpa using hs), mapGet_cons]
          split
          · rfl
          · rename_i h2
            rcases h with h | h | h
            · exact h
            · exact absurd h.symm h2
            · exact absurd (hs.symm.trans h.symm) h2
        · rw [if_pos hs, mapGet_cons, mapGet_cons]
          split
          · rfl
          · rename_i h2
            split
            · rfl
            · rename_i h3
              rcases h with h | h | h
              · exact h
              · exact absurd h.symm h3
              · exact absurd h.symm h2
      rcases h with h | ⟨y, hy, h1, h2⟩
      · exact .inl (grow (.inl h))
      · cases hy with
        | head => exact .inl (grow (.inr h2))
        | tail _ hy => exact .inr ⟨y, hy, h1, h2⟩

/-! ## The invariant of the node loop -/

/-- What holds of the state while nodes are added; `done` are the names bound so far. -/
structure Inv (g : GraphProto V) (outer : List (String × Arg V)) (done : List String)
    (st : GState V) : Prop where
  inputs : st.inputs = (GState.start outer g).inputs
  inputMap : st.inputMap = (GState.start outer g).inputMap
  outerEq : st.outer = outer
  doneSub : ∀ x ∈ done, x ∈ boundNames g
  initsDone : ∀ x ∈ g.inits.map Prod.fst, x ∈ done
  entries : ∀ k p, mapGet st.outMap k = some p → ∃ y ∈ done, (k = y ∨ k = sanitizeName y) ∧
    ∃ a, st.output p = some a ∧ (k = "" → a.src = .optional)
  present : ∀ x ∈ done, (mapGet st.outMap (sanitizeName x)).isSome
  outNames : ∀ n ∈ st.nodes, n.outNames = outNamesOf n.name n.outputs.length
  names : ∃ ns : List (String × Option String), (∀ p ∈ ns, ∀ t ∈ callsOf p, t ∈ nodeTypes) ∧
    st.nodes.map Node.name = initNames g.inits.length ++ nameNodes (initCounters g.inits.length) ns ∧
    st.counters = nameNodesEnd (initCounters g.inits.length) ns

theorem nameNodes_snoc : ∀ (ns : List (String × Option String)) (c : Counters) (p : String × Option String),
    nameNodes c (ns ++ [p]) = nameNodes c ns ++ [(nameNode (nameNodesEnd c ns) p.1 p.2).1] ∧
      nameNodesEnd c (ns ++ [p]) = (nameNode (nameNodesEnd c ns) p.1 p.2).2
  | [], _, _ => ⟨rfl, rfl⟩
  | (t, f) :: ns, c, p => by
    simp only [List.cons_append, nameNodes, nameNodesEnd]
    obtain ⟨h1, h2⟩ := nameNodes_snoc ns (nameNode c t f).2 p
    rw [h1, h2]; exact ⟨rfl, rfl⟩

/-- The values produced have different names. -/
theorem Inv.nodup {g : GraphProto V} {outer done} {st : GState V} (h : Inv g outer done st) :
    (st.nodes.flatMap Node.outNames).Nodup := by
  obtain ⟨ts, ht, hn, -⟩ := h.names
  have hnd := C35_node_names_unique g.inits.length ts ht
  have hun := names_noUnder g.inits.length ts ht
  rw [← hn] at hnd hun
  have := outNames_nodup (st.nodes.map fun n => (n.name, n.outputs.length)) (by
    rw [List.map_map]; exact hnd) (by
    intro p hp
    obtain ⟨n, hm, rfl⟩ := List.mem_map.1 hp
    exact hun _ (List.mem_map_of_mem hm))
  rw [List.flatMap_map] at this
  have he : st.nodes.flatMap Node.outNames = st.nodes.flatMap fun n => outNamesOf n.name n.outputs.length := by
    rw [List.flatMap_def, List.flatMap_def]
    congr 1
    exact List.map_congr_left h.outNames
  rw [he]; exact this

/-- What the input map of the starting state contains. -/
theorem start_inputs {g : GraphProto V} (hg : NamesOk g) (outer : List (String × Arg V))
    {x : String} (hx : x ∈ allNames g) {key : String} (hkey : key = x ∨ key = sanitizeName x)
    {i : Nat} (h : mapGet (GState.start outer g).inputMap key = some i) :
    x ∈ g.inputs ∧ x ∉ g.inits.map Prod.fst ∧
      (GState.start outer g).inputs[i]? = some ⟨sanitizeName x, .default, .dynamic⟩ := by
  rcases inputLoop_from (V := V) (initMap 0 [] (g.inits.map Prod.fst)) key i g.inputs [] [] (by
    intro k i h; cases h) h with ⟨h, _⟩ | ⟨y, hy, h1, h2, h3⟩
  · cases h
  · have : x = y := hg.key hx (mem_all_input hy) hkey h2
    subst this
    refine ⟨hy, fun hm => ?_, h3⟩
    have := initMap_isSome x (g.inits.map Prod.fst) 0 [] (.inr ⟨x, hm, .inl rfl⟩)
    rw [h1] at this; cases this

theorem start_inputs_key {g : GraphProto V} (hg : NamesOk g) (outer : List (String × Arg V))
    {x key : String} (hx : x ∈ g.inputs) (hn : x ∉ g.inits.map Prod.fst)
    (hk : key = x ∨ key = sanitizeName x) :
    (mapGet (GState.start outer g).inputMap key).isSome := by
  apply inputLoop_isSome
  refine .inr ⟨x, hx, ?_, hk⟩
  cases h : mapGet (initMap 0 [] (g.inits.map Prod.fst)) x with
  | none => rfl
  | some p =>
    rcases initMap_from x p _ 0 [] h with h | ⟨j, y, h1, h2, _⟩
    · cases h
    · have hy : y ∈ g.inits.map Prod.fst := List.mem_of_getElem? h1
      have := hg.key (mem_all_input hx) (mem_all_bound (mem_bound_init hy)) (.inl rfl) h2
      exact absurd (this ▸ hy) hn

theorem initializerNodes_names : ∀ (inits : List (String × V)) (i : Nat),
    (initializerNodes i inits).map Node.name = (List.range inits.length).map fun j => "constant" ++ toString (i + j + 1)
  | [], _ => rfl
  | (_, v) :: inits, i => by
    simp only [initializerNodes, List.map_cons, List.length_cons, List.range_succ_eq_map, List.map_map]
    rw [initializerNodes_names inits (i + 1)]
    congr 1
    exact List.map_congr_left fun j _ => by
      simp only [Function.comp]; congr 2; omega

theorem initializerNodes_mem : ∀ (inits : List (String × V)) (i : Nat), ∀ n ∈ initializerNodes i inits,
    ∃ j v, n = constNode j v
  | [], _, n, h => by cases h
  | (_, v) :: inits, i, n, h => by
    cases h with
    | head => exact ⟨i, v, rfl⟩
    | tail _ h => exact initializerNodes_mem inits (i + 1) n h

theorem start_output {g : GraphProto V} (outer : List (String × Arg V)) {j : Nat} {x : String}
    (h : (g.inits.map Prod.fst)[j]? = some x) : ∃ v, g.inits[j]? = some (x, v) ∧
    (GState.start outer g).nodes[j]? = some (constNode j v) := by
  rw [List.getElem?_map] at h
  cases hj : g.inits[j]? with
  | none => simp [hj] at h
  | some q =>
    obtain ⟨y, v⟩ := q
    simp [hj] at h; subst h
    refine ⟨v, rfl, ?_⟩
    have := initializerNodes_get g.inits 0 j y v hj
    rw [Nat.zero_add] at this
    exact this

theorem inv_start {g : GraphProto V} (hg : NamesOk g) (outer : List (String × Arg V)) :
    Inv g outer (g.inits.map Prod.fst) (GState.start outer g) where
  inputs := rfl
  inputMap := rfl
  outerEq := rfl
  doneSub := fun x hx => mem_bound_init hx
  initsDone := fun x hx => hx
  entries := by
    intro k p h
    rcases initMap_from k p _ 0 [] h with h | ⟨j, y, h1, h2, h3⟩
    · cases h
    · refine ⟨y, List.mem_of_getElem? h1, h2, ?_⟩
      obtain ⟨v, -, hv⟩ := start_output outer h1
      subst h3
      refine ⟨⟨outName ("constant" ++ toString (j + 1)) 1, .default, .constant⟩, ?_, ?_⟩
      · simp [GState.output, hv, constNode]
      · rintro rfl
        exfalso
        have hy := List.mem_of_getElem? h1
        have := hg.key mem_all_empty (mem_all_bound (mem_bound_init hy)) (.inl rfl) h2
        exact hg.initsNamed (this ▸ hy)
  present := fun x hx => initMap_isSome _ _ 0 [] (.inr ⟨x, hx, .inr rfl⟩)
  outNames := by
    intro n hn
    obtain ⟨j, v, rfl⟩ := initializerNodes_mem _ _ n hn
    rfl
  names := by
    refine ⟨[], by simp, ?_, rfl⟩
    simp only [nameNodes, List.append_nil]
    exact (initializerNodes_names g.inits 0).trans (by simp [initNames])

/-- Under the invariant every name of the file resolves. -/
theorem Inv.resolves {g : GraphProto V} (hg : NamesOk g) {outer done} {st : GState V}
    (h : Inv g outer done st) {x : String} (hx : x ∈ allNames g) :
    ∃ a, st.initIn x = some a := by
  unfold GState.initIn
  rw [h.inputMap, h.inputs]
  cases hi : mapGet (GState.start outer g).inputMap x with
  | some i => exact ⟨_, (start_inputs hg outer hx (.inl rfl) hi).2.2⟩
  | none =>
    cases ho : mapGet st.outMap (sanitizeName x) with
    | some p => obtain ⟨_, _, _, a, ha, _⟩ := h.entries _ _ ho; exact ⟨a, ha⟩
    | none =>
      cases ho' : mapGet st.outMap x with
      | some p => obtain ⟨_, _, _, a, ha, _⟩ := h.entries _ _ ho'; exact ⟨a, by simp [ha]⟩
      | none => exact ⟨_, rfl⟩

theorem initAll_exists {st : GState V} : ∀ {xs : List String}, (∀ x ∈ xs, ∃ a, st.initIn x = some a) →
    ∃ as, st.initAll xs = some as
  | [], _ => ⟨[], rfl⟩
  | x :: xs, h => by
    obtain ⟨a, ha⟩ := h x List.mem_cons_self
    obtain ⟨as, has⟩ := initAll_exists fun y hy => h y (List.mem_cons_of_mem _ hy)
    exact ⟨a :: as, by simp [GState.initAll, ha, has]⟩

/-- The node before its outputs are renamed. -/
def rawNode (st : GState V) (np : NodeProto V) (args : List (Arg V)) : Node V :=
  extractConstant
    { ty := np.ty, name := (np.named st.counters).1, inputs := args,
      outputs := np.outputs.map fun o => argFromName (sanitizeName o), attrs := np.attrs }

/-- The node as it is stored. -/
def storedNode (st : GState V) (np : NodeProto V) (args : List (Arg V)) : Node V :=
  { rawNode st np args with
    outputs := renameOutputs (rawNode st np args).name 0 (rawNode st np args).outputs }

theorem convertNode_eq {st : GState V} {np : NodeProto V} {args} (h : st.initAll np.inputs = some args) :
    st.convertNode np = some { st.addNode (rawNode st np args) with
      counters := (np.named st.counters).2 } := by
  unfold GState.convertNode
  rw [h]; rfl

theorem extractConstant_name (n : Node V) : (extractConstant n).name = n.name := by
  unfold extractConstant; split <;> rfl
theorem extractConstant_ty (n : Node V) : (extractConstant n).ty = n.ty := by
  unfold extractConstant; split
  · rename_i h _; exact h.symm ▸ rfl
  · rfl
theorem extractConstant_outs (n : Node V) :
    (extractConstant n).outputs.map Arg.name = n.outputs.map Arg.name := by
  unfold extractConstant; split
  · simp only; split <;> simp_all
  · rfl
/-- Outputs keep their source, or belong to a `Constant` node and become constants. -/
theorem extractConstant_src (n : Node V) {j : Nat} {a : Arg V} (h : n.outputs[j]? = some a) :
    (extractConstant n).outputs[j]? = some a ∨
      (n.ty = .constant ∧ (extractConstant n).outputs[j]? = some { a with src := .constant }) := by
  unfold extractConstant; split
  · rename_i ht _
    simp only
    split
    · rename_i ho; rw [ho] at h; simp at h
    · rename_i o os ho
      rw [ho] at h
      cases j with
      | zero => simp at h; subst h; exact .inr ⟨ht, rfl⟩
      | succ j => exact .inl (by simpa using h)
  · exact .inl h

theorem rawNode_outs (st : GState V) (np : NodeProto V) (args : List (Arg V)) :
    (rawNode st np args).outputs.map Arg.name = np.outputs.map sanitizeName := by
  unfold rawNode
  rw [extractConstant_outs]
  simp [argFromName]

theorem rawNode_length (st : GState V) (np : NodeProto V) (args : List (Arg V)) :
    (rawNode st np args).outputs.length = np.outputs.length := by
  simpa using congrArg List.length (rawNode_outs st np args)

/-- The `j`-th output of the node as stored: its name, and its source unless omitted. -/
theorem stored_output {g : GraphProto V} (hg : NamesOk g) (st : GState V) {np : NodeProto V}
    (hnp : NodeFits g np) (args : List (Arg V)) {j : Nat} {o : String} (ho : np.outputs[j]? = some o) :
    ∃ a, (renameOutputs (rawNode st np args).name 0 (rawNode st np args).outputs)[j]? = some a ∧
      a.name = outName (rawNode st np args).name (j + 1) ∧
      (o = "" → a.src = .optional) ∧ (o ≠ "" → a.src = .dynamic ∨ a.src = .constant) := by
  have hom : o ∈ np.outputs := List.mem_of_getElem? ho
  have hoa := mem_all_bound (hnp.outs _ hom)
  have h0 : (np.outputs.map fun o => (argFromName (sanitizeName o) : Arg V))[j]? =
      some (argFromName (sanitizeName o)) := by simp [ho]
  rcases extractConstant_src (n := ⟨np.ty, (np.named st.counters).1, args, _, np.attrs⟩) h0 with h | ⟨ht, h⟩
  · refine ⟨_, renameOutputs_get _ _ 0 j _ h, by simp, ?_, ?_⟩
    · rintro rfl; simp [argFromName, sanitizeName_empty]
    · intro hne; simp [argFromName, hg.san_ne hoa hne]
  · refine ⟨_, renameOutputs_get _ _ 0 j _ h, by simp, ?_, ?_⟩
    · rintro rfl; exact absurd hom (hnp.constNamed ht)
    · intro _; simp

/-- One node keeps the invariant. -/
theorem inv_step {g : GraphProto V} (hg : NamesOk g) {outer done} {st : GState V}
    (h : Inv g outer done st) {np : NodeProto V} (hnp : NodeFits g np) {args}
    (hargs : st.initAll np.inputs = some args) :
    ∃ st', st.convertNode np = some st' ∧ Inv g outer (done ++ np.outputs) st' ∧
      st'.outMap = addOutputs st.nodes.length 0 st.outMap (rawNode st np args).outputs ∧
      st'.nodes = st.nodes ++ [storedNode st np args] := by
  refine ⟨_, convertNode_eq hargs, ?_, rfl, rfl⟩
  have houts := rawNode_outs st np args
  have hall : ∀ o ∈ np.outputs, o ∈ allNames g := fun o ho => mem_all_bound (hnp.outs _ ho)
  have hold : ∀ p a, st.output p = some a →
      (GState.output { st.addNode (rawNode st np args) with
        counters := (np.named st.counters).2 } p) = some a := by
    intro p a hp
    simp only [GState.output, GState.addNode] at hp ⊢
    cases hn : st.nodes[p.1]? with
    | none => simp [hn] at hp
    | some m =>
      rw [List.getElem?_append_left (List.getElem?_eq_some_iff.1 hn).1, hn]
      rw [hn] at hp; exact hp
  exact
    { inputs := h.inputs
      inputMap := h.inputMap
      outerEq := h.outerEq
      doneSub := by
        intro x hx
        rcases List.mem_append.1 hx with hx | hx
        · exact h.doneSub x hx
        · exact hnp.outs _ hx
      initsDone := fun x hx => List.mem_append_left _ (h.initsDone x hx)
      entries := by
        intro k p hk
        rcases addOutputs_from st.nodes.length k p np.outputs _ 0 st.outMap houts hk with hk | ⟨j, o, h1, h2, h3⟩
        · obtain ⟨y, hy, hky, a, ha, hs⟩ := h.entries k p hk
          exact ⟨y, List.mem_append_left _ hy, hky, a, hold p a ha, hs⟩
        · refine ⟨o, List.mem_append_right _ (List.mem_of_getElem? h1), .inr h2, ?_⟩
          obtain ⟨a, ha, -, hs, -⟩ := stored_output hg st hnp args h1
          refine ⟨a, ?_, ?_⟩
          · subst h3
            simp [GState.output, GState.addNode, ha]
          · rintro rfl
            exact hs (hg.apart _ (hall o (List.mem_of_getElem? h1)) _ mem_all_empty
              (by rw [← h2, sanitizeName_empty]))
      present := by
        intro x hx
        have hxa : x ∈ allNames g := by
          rcases List.mem_append.1 hx with hx | hx
          · exact mem_all_bound (h.doneSub x hx)
          · exact hall x hx
        show (mapGet (addOutputs st.nodes.length 0 st.outMap _) _).isSome = true
        rw [addOutputs_get hg _ x hxa np.outputs _ 0 st.outMap houts hall]
        cases hl : lastIdx x np.outputs with
        | some j => rfl
        | none =>
          rcases List.mem_append.1 hx with hx | hx
          · exact h.present x hx
          · obtain ⟨j, hj⟩ := lastIdx_mem hx; rw [hl] at hj; cases hj
      outNames := by
        intro n hn
        rcases List.mem_append.1 hn with hn | hn
        · exact h.outNames n hn
        · simp only [List.mem_singleton] at hn
          subst hn
          simp only [Node.outNames, renameOutputs_names, renameOutputs_length, outNamesOf]
          simp
      names := by
        obtain ⟨ts, ht, hn, hc⟩ := h.names
        refine ⟨ts ++ [np.call], ?_, ?_, ?_⟩
        · intro p hm
          rcases List.mem_append.1 hm with hm | hm
          · exact ht p hm
          · simp only [List.mem_singleton] at hm; exact hm ▸ hnp.known
        · rw [(nameNodes_snoc ts _ _).1, ← List.append_assoc, ← hn, ← hc]
          simp [GState.addNode, rawNode, extractConstant_name, NodeProto.named]
        · rw [(nameNodes_snoc ts _ _).2, ← hc]; rfl }

/-- The loop never fails on names of the file, and only adds nodes. -/
theorem convertNodes_total {g : GraphProto V} (hg : NamesOk g) {outer} : ∀ (nps : List (NodeProto V))
    {done} {st : GState V}, Inv g outer done st → (∀ np ∈ nps, NodeFits g np) →
    ∃ st', st.convertNodes nps = some st' ∧
      Inv g outer (done ++ nps.flatMap fun n => n.outputs) st' ∧ ∃ q, st'.nodes = st.nodes ++ q
  | [], done, st, h, _ => ⟨st, rfl, by simpa using h, [], by simp⟩
  | np :: nps, done, st, h, hm => by
    obtain ⟨args, hargs⟩ := initAll_exists (st := st) (xs := np.inputs) fun x hx =>
      h.resolves hg ((hm np List.mem_cons_self).ins x hx)
    obtain ⟨st1, h1, hinv, -, hn⟩ := inv_step hg h (hm np List.mem_cons_self) hargs
    obtain ⟨st2, h2, hinv2, q, hq⟩ := convertNodes_total hg nps hinv fun x hx => hm x (List.mem_cons_of_mem _ hx)
    refine ⟨st2, by simp [GState.convertNodes, h1, h2], ?_, [storedNode st np args] ++ q, ?_⟩
    · rw [List.flatMap_cons, ← List.append_assoc]; exact hinv2
    · rw [hq, hn, List.append_assoc]

/-! ## Values -/

/-- Every bound ONNX name resolves to an argument with the same value. -/
def Agrees (g : GraphProto V) (st : GState V) (e f : Env V) : Prop :=
  ∀ x ∈ allNames g, x ≠ "" → ∀ v, e x = some v →
    ∃ a, st.initIn x = some a ∧ evalArg f a = some (some v)

/-- An omitted input resolves to an absent argument. -/
theorem Inv.omitted {g : GraphProto V} (hg : NamesOk g) {outer done} {st : GState V}
    (h : Inv g outer done st) (ho : mapGet outer "" = none) (f : Env V) :
    ∃ a, st.initIn "" = some a ∧ evalArg f a = some none := by
  unfold GState.initIn
  rw [h.inputMap, h.inputs, sanitizeName_empty]
  cases hi : mapGet (GState.start outer g).inputMap "" with
  | some i => exact absurd (start_inputs hg outer mem_all_empty (.inl rfl) hi).1 hg.inputsNamed
  | none =>
    cases hm : mapGet st.outMap "" with
    | some p =>
      obtain ⟨_, _, _, a, ha, hs⟩ := h.entries _ _ hm
      exact ⟨a, ha, by simp [evalArg, hs rfl]⟩
    | none =>
      refine ⟨_, rfl, ?_⟩
      simp only [GState.fromOuter, sanitizeName_empty, h.outerEq, ho]
      rfl

theorem args_agree {g : GraphProto V} (hg : NamesOk g) {outer done} {st : GState V}
    (h : Inv g outer done st) (ho : mapGet outer "" = none) {e f : Env V} (hr : Agrees g st e f) :
    ∀ (xs : List String) (vs : List (Option V)), (∀ x ∈ xs, x ∈ allNames g) →
      onnxArgs e xs = some vs → ∃ as, st.initAll xs = some as ∧ evalArgs f as = some vs
  | [], vs, _, hv => by cases hv; exact ⟨[], rfl, rfl⟩
  | x :: xs, vs, hx, hv => by
    simp only [onnxArgs] at hv
    cases h2 : onnxArgs e xs with
    | none => rw [h2] at hv; split at hv <;> simp_all
    | some ws =>
      obtain ⟨as, h3, h4⟩ := args_agree hg h ho hr xs ws (fun y hy => hx y (List.mem_cons_of_mem _ hy)) h2
      rw [h2] at hv
      by_cases hxe : x = ""
      · subst hxe
        simp at hv; subst hv
        obtain ⟨a, ha, hav⟩ := h.omitted hg ho f
        exact ⟨a :: as, by simp [GState.initAll, ha, h3], by simp [evalArgs, hav, h4]⟩
      · rw [if_neg hxe] at hv
        cases hex : e x with
        | none => simp [hex] at hv
        | some v =>
          simp [hex] at hv; subst hv
          obtain ⟨a, ha, hav⟩ := hr x (hx x List.mem_cons_self) hxe v hex
          exact ⟨a :: as, by simp [GState.initAll, ha, h3], by simp [evalArgs, hav, h4]⟩

theorem evalArgs_snoc {f : Env V} : ∀ {as : List (Arg V)} {vs} {a : Arg V} {v},
    evalArgs f as = some vs → evalArg f a = some v → evalArgs f (as ++ [a]) = some (vs ++ [v])
  | [], vs, a, v, h, ha => by cases h; simp [evalArgs, ha]
  | b :: as, vs, a, v, h, ha => by
    simp only [evalArgs, List.cons_append] at h ⊢
    cases hb : evalArg f b with
    | none => simp [hb] at h
    | some w =>
      cases hs : evalArgs f as with
      | none => simp [hb, hs] at h
      | some ws =>
        simp [hb, hs] at h; subst h
        rw [evalArgs_snoc hs ha]; rfl

/-- What is assumed of the operators: a `Constant` node returns the tensor in its attribute
`value`, or, in the imported graph, the embedded tensor it gets as its input. -/
structure ConstantOps (S : OpSem V) : Prop where
  embedded : ∀ v, S .constant [] [some v] = some [v]
  moved : ∀ attrs v xs, attrGet attrs "value" = some (.tensor v) →
    S .constant attrs xs = S .constant (attrs.filter fun p => p.1 ≠ "value") (xs ++ [some v])

/-- The stored node computes what the ONNX node computes. -/
theorem stored_eval {S : OpSem V} (hS : ConstantOps S) (st : GState V) (np : NodeProto V)
    {args : List (Arg V)} {f : Env V} {xs : List (Option V)} {ys : List V}
    (ha : evalArgs f args = some xs) (hy : S np.ty np.attrs xs = some ys)
    (hl : ys.length = np.outputs.length) :
    evalNode (fun _ => S) f (storedNode st np args) =
      some (bindAll f (storedNode st np args).outNames ys) := by
  have hlen : ys.length = (storedNode st np args).outputs.length := by
    simp [storedNode, renameOutputs_length, rawNode_length, hl]
  by_cases hc : ∃ v, np.ty = .constant ∧ attrGet np.attrs "value" = some (.tensor v)
  · obtain ⟨v, h1, h2⟩ := hc
    have hi : (storedNode st np args).inputs = args ++ [⟨"", .default, .static v⟩] := by
      simp [storedNode, rawNode, extractConstant, h1, h2]
    have ht : (storedNode st np args).ty = .constant := by
      simp [storedNode, rawNode, extractConstant, h1, h2]
    have hat : (storedNode st np args).attrs = np.attrs.filter fun p => p.1 ≠ "value" := by
      simp [storedNode, rawNode, extractConstant, h1, h2]
    refine evalNode_intro (xs := xs ++ [some v]) ?_ ?_ hlen
    · rw [hi]; exact evalArgs_snoc ha rfl
    · rw [ht, hat, ← hS.moved _ _ _ h2, ← h1]; exact hy
  · have hn : rawNode st np args = ⟨np.ty, (np.named st.counters).1, args,
        np.outputs.map fun o => argFromName (sanitizeName o), np.attrs⟩ := by
      unfold rawNode extractConstant
      split
      · rename_i v h1 h2; exact absurd ⟨v, h1, h2⟩ hc
      · rfl
    refine evalNode_intro (xs := xs) ?_ ?_ hlen
    · simp only [storedNode, hn]; exact ha
    · simp only [storedNode, hn]; exact hy

/-- A resolved name keeps resolving to the same argument when a node is added that does not bind
it. -/
theorem initIn_other {g : GraphProto V} (hg : NamesOk g) {outer done} {st st' : GState V}
    (h : Inv g outer done st) (h' : Inv g outer done' st') {np : NodeProto V} (hnp : NodeFits g np) {args}
    (hm : st'.outMap = addOutputs st.nodes.length 0 st.outMap (rawNode st np args).outputs)
    (hn : st'.nodes = st.nodes ++ [storedNode st np args]) {x : String} (hx : x ∈ allNames g)
    (hno : x ∉ np.outputs) {a : Arg V} (ha : st.initIn x = some a) : st'.initIn x = some a := by
  have hall : ∀ o ∈ np.outputs, o ∈ allNames g := fun o ho => mem_all_bound (hnp.outs _ ho)
  have hkey : ∀ key, key = x ∨ key = sanitizeName x → mapGet st'.outMap key = mapGet st.outMap key := by
    intro key hk
    rw [hm]
    exact addOutputs_other hg _ x hx hk np.outputs _ 0 _ (rawNode_outs st np args) hall hno
  have hout : ∀ p a, st.output p = some a → st'.output p = some a := by
    intro p a hp
    simp only [GState.output] at hp ⊢
    cases hn' : st.nodes[p.1]? with
    | none => simp [hn'] at hp
    | some m =>
      rw [hn, List.getElem?_append_left (List.getElem?_eq_some_iff.1 hn').1, hn']
      rw [hn'] at hp; exact hp
  unfold GState.initIn at ha ⊢
  rw [h'.inputMap, h'.inputs, hkey _ (.inr rfl), hkey _ (.inl rfl)]
  rw [h.inputMap, h.inputs] at ha
  cases hi : mapGet (GState.start outer g).inputMap x with
  | some i => rw [hi] at ha; exact ha
  | none =>
    rw [hi] at ha
    simp only at ha ⊢
    cases ho : mapGet st.outMap (sanitizeName x) with
    | some p => rw [ho] at ha; exact hout _ _ ha
    | none =>
      rw [ho] at ha
      simp only at ha ⊢
      cases ho' : mapGet st.outMap x with
      | some p => rw [ho'] at ha; exact hout _ _ ha
      | none =>
        rw [ho'] at ha
        simp only at ha ⊢
        rw [← ha]
        simp only [GState.fromOuter, h.outerEq, h'.outerEq]

/-- A value that an argument had before a node is added, it has afterwards. -/
theorem evalArg_later {S : Sem V} {f0 f f' : Env V} {p q : List (Node V)} (hs : SSA f0 (p ++ q))
    (h1 : evalNodes S f0 p = some f) (h2 : evalNodes S f q = some f') {a : Arg V} {v : V}
    (h : evalArg f a = some (some v)) : evalArg f' a = some (some v) := by
  unfold evalArg at h ⊢
  cases hsrc : a.src with
  | static w => rw [hsrc] at h; exact h
  | optional => rw [hsrc] at h; simp at h
  | constant =>
    rw [hsrc] at h
    cases hv : f a.name with
    | none => simp [hv] at h
    | some w => simp [hv] at h; subst h; simp [hs.stable h1 h2 hv]
  | dynamic =>
    rw [hsrc] at h
    cases hv : f a.name with
    | none => simp [hv] at h
    | some w => simp [hv] at h; subst h; simp [hs.stable h1 h2 hv]

/-- One node keeps names and values in step. -/
theorem step_agrees {S : OpSem V} (hS : ConstantOps S) {g : GraphProto V} (hg : NamesOk g) {outer}
    (ho : mapGet outer "" = none) {f0 : Env V} {np : NodeProto V} (hnp : NodeFits g np) {done} {st : GState V}
    {e e1 f : Env V} (hinv : Inv g outer done st) (hssa : ∀ st1, st.convertNode np = some st1 → SSA f0 st1.nodes)
    (hr : Agrees g st e f) (hf : evalNodes (fun _ => S) f0 st.nodes = some f) (hnode : onnxNode S e np = some e1) :
    ∃ st1 f1, st.convertNode np = some st1 ∧ Inv g outer (done ++ np.outputs) st1 ∧
      evalNodes (fun _ => S) f0 st1.nodes = some f1 ∧ Agrees g st1 e1 f1 := by
  unfold onnxNode at hnode
  cases hxs : onnxArgs e np.inputs with
  | none => rw [hxs] at hnode; cases hnode
  | some xs =>
    rw [hxs] at hnode
    simp only at hnode
    cases hys : S np.ty np.attrs xs with
    | none => rw [hys] at hnode; cases hnode
    | some ys =>
      rw [hys] at hnode
      simp only at hnode
      split at hnode
      · rename_i hlen
        cases hnode
        obtain ⟨args, hargs, hav⟩ := args_agree hg hinv ho hr np.inputs xs
          (fun x hx => hnp.ins x hx) hxs
        obtain ⟨st1, h1, hinv1, hmap, hnodes⟩ := inv_step hg hinv hnp hargs
        have hssa1 : SSA f0 (st.nodes ++ [storedNode st np args]) := by
          rw [← hnodes]; exact hssa st1 h1
        have hev := stored_eval hS st np hav hys hlen
        have hf1 : evalNodes (fun _ => S) f [storedNode st np args] =
            some (bindAll f (storedNode st np args).outNames ys) := by
          simp [evalNodes, hev]
        have hrun1 : evalNodes (fun _ => S) f0 st1.nodes =
            some (bindAll f (storedNode st np args).outNames ys) := by
          rw [hnodes, evalNodes_append, hf]; exact hf1
        refine ⟨st1, _, h1, hinv1, hrun1, ?_⟩
        intro x hx hxe v hv
        rw [onnxBind_get _ _ _ _ hxe hlen.symm] at hv
        cases hl : lastIdx x np.outputs with
        | none =>
          rw [hl] at hv
          simp only at hv
          obtain ⟨a, ha, hva⟩ := hr x hx hxe v hv
          refine ⟨a, initIn_other hg hinv hinv1 hnp hmap hnodes hx ?_ ha,
            evalArg_later hssa1 hf hf1 hva⟩
          intro hmem
          obtain ⟨j, hj⟩ := lastIdx_mem hmem; rw [hl] at hj; cases hj
        | some j =>
          rw [hl] at hv
          simp only at hv
          have hxj := lastIdx_some hl
          have hxo : x ∈ np.outputs := List.mem_of_getElem? hxj
          obtain ⟨a, ha, haname, -, hasrc⟩ := stored_output hg st hnp args hxj
          refine ⟨a, ?_, ?_⟩
          · unfold GState.initIn
            rw [hinv1.inputMap]
            cases hi : mapGet (GState.start outer g).inputMap x with
            | some i => exact absurd (start_inputs hg outer hx (.inl rfl) hi).1 (hnp.noShadow x hxo)
            | none =>
              simp only
              rw [hmap, addOutputs_get hg _ x hx np.outputs _ 0 _ (rawNode_outs st np args)
                (fun o ho => mem_all_bound (hnp.outs _ ho)), hl]
              simp only [GState.output, hnodes]
              rw [List.getElem?_append_right (Nat.le_refl _)]
              simp [storedNode, ha]
          · have hnd : (storedNode st np args).outNames.Nodup :=
              nodup_flatMap_mem (hssa1.nodup) _ (by simp)
            have hname : (storedNode st np args).outNames[j]? = some a.name := by
              simp only [Node.outNames, storedNode, List.getElem?_map, ha]; rfl
            have hval := bindAll_get _ ys f j a.name v hnd hname hv
            unfold evalArg
            rcases hasrc hxe with h | h <;> rw [h] <;> simp [hval]
      · cases hnode

/-- Running the nodes keeps names and values in step. -/
theorem run_agrees {S : OpSem V} (hS : ConstantOps S) {g : GraphProto V} (hg : NamesOk g) {outer}
    (ho : mapGet outer "" = none) {f0 : Env V} {stF : GState V} (hssa : SSA f0 stF.nodes) :
    ∀ (nps : List (NodeProto V)) {done} {st : GState V} {e e' f : Env V}, Inv g outer done st →
      (∀ np ∈ nps, NodeFits g np) → st.convertNodes nps = some stF → Agrees g st e f →
      evalNodes (fun _ => S) f0 st.nodes = some f → onnxNodes S e nps = some e' →
      ∃ f', evalNodes (fun _ => S) f0 stF.nodes = some f' ∧ Agrees g stF e' f'
  | [], done, st, e, e', f, _, _, hc, hr, hf, he => by
    cases hc; cases he; exact ⟨f, hf, hr⟩
  | np :: nps, done, st, e, e', f, hinv, hm, hc, hr, hf, he => by
    simp only [onnxNodes] at he
    cases hnode : onnxNode S e np with
    | none => rw [hnode] at he; cases he
    | some e1 =>
      rw [hnode] at he
      simp only at he
      have hsub : ∀ st1, st.convertNode np = some st1 → SSA f0 st1.nodes := by
        intro st1 h1
        have hc1 : st1.convertNodes nps = some stF := by simpa [GState.convertNodes, h1] using hc
        obtain ⟨args, hargs⟩ := initAll_exists (st := st) (xs := np.inputs) fun x hx =>
          hinv.resolves hg ((hm np List.mem_cons_self).ins x hx)
        obtain ⟨st1', h1', hinv1, -, -⟩ := inv_step hg hinv (hm np List.mem_cons_self) hargs
        rw [h1] at h1'; cases h1'
        obtain ⟨stF', hF, -, q, hq⟩ := convertNodes_total hg nps hinv1
          fun x hx => hm x (List.mem_cons_of_mem _ hx)
        rw [hc1] at hF; cases hF
        rw [hq] at hssa; exact hssa.prefix
      obtain ⟨st1, f1, h1, hinv1, hf1, hr1⟩ := step_agrees hS hg ho (hm np List.mem_cons_self) hinv hsub hr hf hnode
      exact run_agrees hS hg ho hssa nps hinv1 (fun x hx => hm x (List.mem_cons_of_mem _ hx))
        (by simpa [GState.convertNodes, h1] using hc) hr1 hf1 he

theorem initializerNodes_run {S : OpSem V} (hS : ConstantOps S) : ∀ (inits : List (String × V)) (i : Nat)
    (f0 : Env V), ∃ f, evalNodes (fun _ => S) f0 (initializerNodes i inits) = some f
  | [], _, f0 => ⟨f0, rfl⟩
  | (_, v) :: inits, i, f0 => by
    have h1 : evalNode (fun _ => S) f0 (constNode i v) =
        some (bindAll f0 (constNode i v).outNames [v]) :=
      evalNode_intro (xs := [some v]) rfl (hS.embedded v) rfl
    obtain ⟨f, hf⟩ := initializerNodes_run hS inits (i + 1) (bindAll f0 (constNode i v).outNames [v])
    exact ⟨f, by simp only [initializerNodes, evalNodes, h1]; exact hf⟩

/-- The value of the `j`-th initializer. -/
theorem initializerNodes_value {S : OpSem V} (hS : ConstantOps S) {f0 f : Env V} {nodes : List (Node V)}
    (hssa : SSA f0 nodes) (hf : evalNodes (fun _ => S) f0 nodes = some f) {j i : Nat} {v : V}
    (hj : nodes[j]? = some (constNode i v)) :
    f (outName ("constant" ++ toString (i + 1)) 1) = some v := by
  have hlt := (List.getElem?_eq_some_iff.1 hj).1
  have hget := (List.getElem?_eq_some_iff.1 hj).2
  have hsplit : nodes = nodes.take j ++ constNode i v :: nodes.drop (j + 1) := by
    rw [← hget, ← List.drop_eq_getElem_cons hlt, List.take_append_drop]
  rw [hsplit] at hf
  obtain ⟨e1, e2, h1, h2, h3⟩ := evalNodes_split hf
  have h2' : evalNode (fun _ => S) e1 (constNode i v) =
      some (bindAll e1 (constNode i v).outNames [v]) :=
    evalNode_intro (xs := [some v]) rfl (hS.embedded v) rfl
  rw [h2'] at h2; cases h2
  have hval : bindAll e1 (constNode i v).outNames [v] (outName ("constant" ++ toString (i + 1)) 1) = some v := by
    simp [constNode, Node.outNames, bindAll]
  have hs2 : SSA f0 ((nodes.take j ++ [constNode i v]) ++ nodes.drop (j + 1)) := by
    rw [List.append_assoc]; simpa [← hsplit] using hssa
  exact hs2.stable (by rw [evalNodes_append, h1]; simp [evalNodes, h2']) h3 hval

/-- The outputs handed out are those the graph names. -/
theorem results_agree {g : GraphProto V} (hg : NamesOk g) {outer done} {st : GState V}
    (h : Inv g outer done st) (hdone : ∀ x ∈ g.outputs, x ∈ boundNames g → x ∈ done) {e f : Env V} (hr : Agrees g st e f) :
    ∀ (xs : List String) (vs : List (Option V)), (∀ x ∈ xs, x ∈ g.outputs) →
      onnxArgs e xs = some vs → ∃ as, st.results xs = some as ∧ evalArgs f as = some vs
  | [], vs, _, hv => by cases hv; exact ⟨[], rfl, rfl⟩
  | x :: xs, vs, hx, hv => by
    have hxo := hx x List.mem_cons_self
    have hxa := mem_all_out hxo
    obtain ⟨hxe, hdef⟩ := hg.outsHere x hxo
    simp only [onnxArgs, if_neg hxe] at hv
    cases hex : e x with
    | none => simp [hex] at hv
    | some v =>
      cases h2 : onnxArgs e xs with
      | none => simp [hex, h2] at hv
      | some ws =>
        simp [hex, h2] at hv; subst hv
        obtain ⟨as, h3, h4⟩ := results_agree hg h hdone hr xs ws (fun y hy => hx y (List.mem_cons_of_mem _ hy)) h2
        obtain ⟨a, ha, hav⟩ := hr x hxa hxe v hex
        refine ⟨a :: as, ?_, by simp [evalArgs, hav, h4]⟩
        simp only [GState.results, h3]
        unfold GState.initIn at ha
        rw [h.inputMap, h.inputs] at ha
        cases hm : mapGet st.outMap (sanitizeName x) with
        | some p =>
          rw [hm] at ha
          cases hi : mapGet (GState.start outer g).inputMap x with
          | some i =>
            exfalso
            obtain ⟨hin, hni, -⟩ := start_inputs hg outer hxa (.inl rfl) hi
            obtain ⟨y, hy, hk, -⟩ := h.entries _ _ hm
            have hb := h.doneSub y hy
            have hxy : x = y := hg.key hxa (mem_all_bound hb) (.inr rfl) hk
            subst hxy
            rcases List.mem_append.1 hb with hb | hb
            · exact hni hb
            · obtain ⟨n, hn, hb⟩ := List.mem_flatMap.1 hb
              exact hg.noShadow n hn x hb hin
          | none =>
            rw [hi] at ha
            simp only at ha ⊢
            rw [ha]
        | none =>
          have hnb : x ∉ boundNames g := fun hb => by
            have := h.present x (hdone x hxo hb); rw [hm] at this; cases this
          have hin : x ∈ g.inputs := hdef.resolve_right hnb
          have hni : x ∉ g.inits.map Prod.fst := fun hm => hnb (mem_bound_init hm)
          have hsome := start_inputs_key hg outer hin hni (.inl rfl)
          simp only
          rw [h.inputMap, h.inputs]
          cases hi : mapGet (GState.start outer g).inputMap x with
          | none => rw [hi] at hsome; cases hsome
          | some i =>
            rw [hi] at ha
            simp only at ha
            rw [(start_inputs hg outer hxa (.inl rfl) hi).2.2] at ha
            cases hi2 : mapGet (GState.start outer g).inputMap (sanitizeName x) with
            | some i2 =>
              simp only
              rw [(start_inputs hg outer hxa (.inr rfl) hi2).2.2, ha]
            | none =>
              exfalso
              have := start_inputs_key hg outer hin hni (.inr rfl)
              rw [hi2] at this; cases this

/-- The names bound in the file are those the loop has bound at its end. -/
theorem boundNames_eq (g : GraphProto V) :
    boundNames g = g.inits.map Prod.fst ++ g.nodes.flatMap fun n => n.outputs := rfl

/-- At the start, every name of the file that has a value resolves to it. -/
theorem start_agrees {S : OpSem V} (hS : ConstantOps S) {g : GraphProto V} (hg : NamesOk g)
    {outer : List (String × Arg V)} {e f0 f1 : Env V} (hin : ∀ x ∈ g.inputs, f0 (sanitizeName x) = e x)
    (hout : ∀ x ∈ allNames g, x ∉ g.inputs → x ∉ g.inits.map Prod.fst → ∀ v, e x = some v →
      ∃ a, (mapGet outer (sanitizeName x) = some a ∨
          mapGet outer (sanitizeName x) = none ∧ mapGet outer x = some a) ∧
        evalArg f0 (match a.src with
          | .constant => a
          | _ => { a with name := sanitizeName x }) = some (some v))
    (hssa0 : SSA f0 (GState.start outer g).nodes)
    (hf1' : evalNodes (fun _ => S) f0 (GState.start outer g).nodes = some f1) :
    Agrees g (GState.start outer g) (onnxBind e (g.inits.map Prod.fst) (g.inits.map Prod.snd)) f1 := by
  have hinv0 := inv_start hg outer
  intro x hx hxe v hv
  rw [onnxBind_get _ _ _ _ hxe (by simp)] at hv
  cases hl : lastIdx x (g.inits.map Prod.fst) with
  | some j =>
    rw [hl] at hv
    simp only at hv
    have hxj := lastIdx_some hl
    have hxi : x ∈ g.inits.map Prod.fst := List.mem_of_getElem? hxj
    have hsome := hinv0.present x hxi
    obtain ⟨w, hw, hnode⟩ := start_output outer hxj
    have hwv : w = v := by simpa [hw] using hv
    subst hwv
    refine ⟨⟨outName ("constant" ++ toString (j + 1)) 1, .default, .constant⟩, ?_, ?_⟩
    · unfold GState.initIn
      cases hi : mapGet (GState.start outer g).inputMap x with
      | some i => exact absurd hxi (start_inputs hg outer hx (.inl rfl) hi).2.1
      | none =>
        simp only
        cases hm : mapGet (GState.start outer g).outMap (sanitizeName x) with
        | none => rw [hm] at hsome; cases hsome
        | some p =>
          rcases initMap_from _ p _ 0 [] hm with h | ⟨j', y, h1, h2, h3⟩
          · cases h
          · have hxy : x = y := hg.key hx (mem_all_bound (mem_bound_init (List.mem_of_getElem? h1))) (.inr rfl) h2
            subst hxy
            have hjj : j' = j := by
              have hlt := (List.getElem?_eq_some_iff.1 h1).1
              exact (List.getElem?_inj hlt hg.initsOnce).1 (h1.trans hxj.symm)
            subst hjj; subst h3
            simp [GState.output, hnode, constNode]
    · simp only [evalArg]
      rw [initializerNodes_value hS hssa0 hf1' hnode]; rfl
  | none =>
    rw [hl] at hv
    simp only at hv
    have hni : x ∉ g.inits.map Prod.fst := fun hm => by
      obtain ⟨j, hj⟩ := lastIdx_mem hm; rw [hl] at hj; cases hj
    have hssa0' : SSA f0 ([] ++ (GState.start outer g).nodes) := by simpa using hssa0
    by_cases hxin : x ∈ g.inputs
    · have hsome := start_inputs_key hg outer hxin hni (.inl rfl)
      cases hi : mapGet (GState.start outer g).inputMap x with
      | none => rw [hi] at hsome; cases hsome
      | some i =>
        refine ⟨⟨sanitizeName x, .default, .dynamic⟩, ?_, ?_⟩
        · unfold GState.initIn
          rw [hi]
          exact (start_inputs hg outer hx (.inl rfl) hi).2.2
        · refine evalArg_later hssa0' (S := fun _ => S) (f := f0) rfl hf1' ?_
          simp [evalArg, hin x hxin, hv]
    · obtain ⟨a, ha, hav⟩ := hout x hx hxin hni v hv
      have hnone : ∀ key, key = x ∨ key = sanitizeName x →
          mapGet (GState.start outer g).outMap key = none := by
        intro key hk
        cases hm : mapGet (GState.start outer g).outMap key with
        | none => rfl
        | some p =>
          obtain ⟨y, hy, hky, -⟩ := hinv0.entries _ _ hm
          have : x = y := hg.key hx (mem_all_bound (mem_bound_init hy)) hk hky
          exact absurd (this ▸ hy) hni
      refine ⟨scopeArg a (sanitizeName x), ?_, evalArg_later hssa0' (S := fun _ => S) (f := f0) rfl hf1' hav⟩
      unfold GState.initIn
      cases hi : mapGet (GState.start outer g).inputMap x with
      | some i => exact absurd (start_inputs hg outer hx (.inl rfl) hi).1 hxin
      | none =>
        simp only [hnone _ (.inl rfl), hnone _ (.inr rfl), GState.fromOuter]
        rw [hinv0.outerEq]
        rcases ha with ha | ⟨ha, ha'⟩
        · rw [ha]
        · rw [ha, ha']

/-- Under the invariant the graph's outputs can be handed out. -/
theorem Inv.results_total {g : GraphProto V} (hg : NamesOk g) {outer done} {stF : GState V}
    (hinvF : Inv g outer done stF) : ∀ (xs : List String), (∀ x ∈ xs, x ∈ g.outputs) →
      ∃ as, stF.results xs = some as := by
  intro xs
  induction xs with
  | nil => intro _; exact ⟨[], rfl⟩
  | cons x xs ih =>
    intro hx
    obtain ⟨as, has⟩ := ih fun y hy => hx y (List.mem_cons_of_mem _ hy)
    simp only [GState.results, has]
    cases hm : mapGet stF.outMap (sanitizeName x) with
    | some p =>
      obtain ⟨_, _, _, a, ha, _⟩ := hinvF.entries _ _ hm
      exact ⟨a :: as, by simp [ha]⟩
    | none =>
      simp only
      rw [hinvF.inputMap, hinvF.inputs]
      cases hi : mapGet (GState.start outer g).inputMap (sanitizeName x) with
      | some i =>
        simp only
        rw [(start_inputs hg outer (mem_all_out (hx x List.mem_cons_self)) (.inr rfl) hi).2.2]
        exact ⟨_, rfl⟩
      | none => exact ⟨as, rfl⟩

/-- **C36.** For every graph whose names stay apart (`NamesOk`), every meaning `S` of the operators
and all input values: if the ONNX graph, run by its own names, returns `r`, then importing it
succeeds and the imported graph returns `r`. Its nodes are in single-assignment form.

`e` binds the graph's inputs and, for a subgraph, the enclosing graph's values, under their ONNX
names; `f0` binds what the imported graph gets, under sanitised names. `outer` is the map of
enclosing arguments, under sanitised or ONNX names.

Partial: the conditions `NamesOk`, and that a generated name is never the name of an input or
enclosing value (`hfresh`). The code does not check them. -/
theorem C36_import_preserves_meaning_partial {S : OpSem V} (hS : ConstantOps S) {g : GraphProto V}
    (hg : NamesOk g) {outer : List (String × Arg V)} (ho : mapGet outer "" = none) {e f0 : Env V}
    (hin : ∀ x ∈ g.inputs, f0 (sanitizeName x) = e x)
    (hout : ∀ x ∈ allNames g, x ∉ g.inputs → x ∉ g.inits.map Prod.fst → ∀ v, e x = some v →
      ∃ a, (mapGet outer (sanitizeName x) = some a ∨
          mapGet outer (sanitizeName x) = none ∧ mapGet outer x = some a) ∧
        evalArg f0 (match a.src with
          | .constant => a
          | _ => { a with name := sanitizeName x }) = some (some v))
    (hfresh : ∀ nodes ins outs, importGraph outer g = some (nodes, ins, outs) →
      ∀ n ∈ nodes, ∀ y ∈ n.outNames, f0 y = none)
    {r : List (Option V)} (hrun : onnxGraph S e g = some r) :
    ∃ nodes ins outs, importGraph outer g = some (nodes, ins, outs) ∧
      evalGraph (fun _ => S) f0 nodes outs = some r ∧ SSA f0 nodes := by
  have hinv0 := inv_start hg outer
  obtain ⟨stF, hF, hinvF, q, hq⟩ := convertNodes_total hg g.nodes hinv0 fun x hx => hg.fits hx
  obtain ⟨outs, houts⟩ := hinvF.results_total hg g.outputs fun x hx => hx
  have himp : importGraph outer g = some (stF.nodes, stF.inputs, outs) := by
    simp [importGraph, hF, houts]
  have hssa : SSA f0 stF.nodes := ⟨hinvF.nodup, hfresh _ _ _ himp⟩
  have hssa0 : SSA f0 (GState.start outer g).nodes := by rw [hq] at hssa; exact hssa.prefix
  obtain ⟨f1, hf1⟩ := initializerNodes_run hS g.inits 0 f0
  have hf1' : evalNodes (fun _ => S) f0 (GState.start outer g).nodes = some f1 := hf1
  have hagree := start_agrees hS hg hin hout hssa0 hf1'
  unfold onnxGraph at hrun
  cases hns : onnxNodes S (onnxBind e (g.inits.map Prod.fst) (g.inits.map Prod.snd)) g.nodes with
  | none => rw [hns] at hrun; cases hrun
  | some e' =>
    rw [hns] at hrun
    simp only at hrun
    obtain ⟨f', hf', hr'⟩ := run_agrees hS hg ho hssa g.nodes hinv0 (fun x hx => hg.fits hx) hF hagree hf1' hns
    obtain ⟨as, has, hav⟩ := results_agree hg hinvF (fun x _ hx => hx) hr' g.outputs r (fun x hx => hx) hrun
    rw [houts] at has; cases has
    exact ⟨_, _, _, himp, by simp [evalGraph, hf', hav], hssa⟩

end OnnxIR
