import Verif.Model.Fields
import Verif.Props.Naming

/-!
# C27: fields of the generated struct and stored weights

Specification: `leaves` lists the nodes that own a field, in file order, with whether they are nested in
an If or Loop body. The two traversals agree for every graph (`C27_records_match`): they name the fields
of the same nodes in the same way, so each stored weight lies under the field of its own node. Field names
are pairwise different when the node names of the main graph are, no nested node is called like a node of
the main graph, and node names contain no underscore (`C27_field_names_distinct_partial`; generated names
never do, `names_noUnder`). Node names do repeat between the main graph and nested graphs
(`C35_nested_names_repeat`), and then two fields share a name (`C27_field_name_twice`).

The code of a nested node reads the field called like the node, not the renamed one. When all names differ
that is its own field (`C27_code_reads_own_field_partial`), otherwise it is a field with another node's
weights (`C27_branch_reads_other_weights`). Nodes in a Scan body get no field at all
(`C27_scan_body_field_missing`).
-/

namespace OnnxIR.Fields

/-! ## Specification -/

/-- A node that owns a field. -/
structure Leaf where
  /-- whether it lies in an If or Loop body -/
  nested : Bool
  name : String
  params : List (List String)
  tag : Nat
deriving DecidableEq, Repr

mutual
def nodeLeaves (nested : Bool) : FNode → List Leaf
  | .leaf name true params tag => [⟨nested, name, params, tag⟩]
  | .leaf _ false _ _ => []
  | .ifNode t e => leaves true t ++ leaves true e
  | .loopNode b => leaves true b
  | .scanNode _ => []
/-- The nodes that own a field, at every depth, Scan bodies excepted. -/
def leaves (nested : Bool) : FGraph → List Leaf
  | .nil => []
  | .cons n rest => nodeLeaves nested n ++ leaves nested rest
end

mutual
def FNode.noScan : FNode → Bool
  | .leaf _ _ _ _ => true
  | .ifNode t e => t.noScan && e.noScan
  | .loopNode b => b.noScan
  | .scanNode _ => false
/-- No Scan node at any depth. -/
def FGraph.noScan : FGraph → Bool
  | .nil => true
  | .cons n rest => n.noScan && rest.noScan
end

/-! ## Both traversals as one numbering of the leaves -/

/-- Names given to a list of nodes, starting with counts `c`. -/
def number (c : Counts) : List Leaf → List (String × Leaf)
  | [] => []
  | l :: ls =>
    if l.nested then (fieldName l.name (bump c l.name).1, l) :: number (bump c l.name).2 ls
    else (l.name, l) :: number c ls

def numberEnd (c : Counts) : List Leaf → Counts
  | [] => c
  | l :: ls => if l.nested then numberEnd (bump c l.name).2 ls else numberEnd c ls

theorem number_append : ∀ (a b : List Leaf) (c : Counts),
    number c (a ++ b) = number c a ++ number (numberEnd c a) b
  | [], _, _ => rfl
  | l :: a, b, c => by
    simp only [List.cons_append, number, numberEnd]
    split <;> simp [number_append a b]

theorem numberEnd_append : ∀ (a b : List Leaf) (c : Counts),
    numberEnd c (a ++ b) = numberEnd (numberEnd c a) b
  | [], _, _ => rfl
  | l :: a, b, c => by
    simp only [List.cons_append, numberEnd]
    split <;> simp [numberEnd_append a b]

/-- What a field is, out of a numbered node. -/
def asField (x : String × Leaf) : String × Nat := (x.1, x.2.tag)
/-- What is stored for a numbered node. -/
def asSnaps (x : String × Leaf) : List (List String × Nat) := snapshotsOf x.1 x.2.params x.2.tag

mutual
theorem subNodeFields_eq (c : Counts) : ∀ n : FNode,
    subNodeFields c n =
      ((number c (nodeLeaves true n)).map asField, numberEnd c (nodeLeaves true n))
  | .leaf base true ps tag => by simp [subNodeFields, nodeLeaves, number, numberEnd, asField]
  | .leaf _ false _ _ => by simp [subNodeFields, nodeLeaves, number, numberEnd]
  | .ifNode t e => by
    simp [subNodeFields, nodeLeaves, subFields_eq c t, subFields_eq _ e, number_append,
      numberEnd_append]
  | .loopNode b => by simp [subNodeFields, nodeLeaves, subFields_eq c b]
  | .scanNode _ => by simp [subNodeFields, nodeLeaves, number, numberEnd]
theorem subFields_eq (c : Counts) : ∀ g : FGraph,
    subFields c g = ((number c (leaves true g)).map asField, numberEnd c (leaves true g))
  | .nil => by simp [subFields, leaves, number, numberEnd]
  | .cons n rest => by
    simp [subFields, leaves, subNodeFields_eq c n, subFields_eq _ rest, number_append,
      numberEnd_append]
end

mutual
theorem subNodeSnaps_eq (c : Counts) : ∀ n : FNode,
    subNodeSnaps c n =
      ((number c (nodeLeaves true n)).flatMap asSnaps, numberEnd c (nodeLeaves true n))
  | .leaf base true ps tag => by simp [subNodeSnaps, nodeLeaves, number, numberEnd, asSnaps]
  | .leaf _ false _ _ => by simp [subNodeSnaps, nodeLeaves, number, numberEnd]
  | .ifNode t e => by
    simp [subNodeSnaps, nodeLeaves, subSnaps_eq c t, subSnaps_eq _ e, number_append,
      numberEnd_append]
  | .loopNode b => by simp [subNodeSnaps, nodeLeaves, subSnaps_eq c b]
  | .scanNode _ => by simp [subNodeSnaps, nodeLeaves, number, numberEnd]
theorem subSnaps_eq (c : Counts) : ∀ g : FGraph,
    subSnaps c g = ((number c (leaves true g)).flatMap asSnaps, numberEnd c (leaves true g))
  | .nil => by simp [subSnaps, leaves, number, numberEnd]
  | .cons n rest => by
    simp [subSnaps, leaves, subNodeSnaps_eq c n, subSnaps_eq _ rest, number_append,
      numberEnd_append]
end

theorem mainFields_eq : ∀ (g : FGraph) (c : Counts),
    mainFields c g = (number c (leaves false g)).map asField
  | .nil, c => by simp [mainFields, leaves, number]
  | .cons (.leaf name true ps tag) rest, c => by
    simp [mainFields, leaves, nodeLeaves, number, asField, mainFields_eq rest]
  | .cons (.leaf _ false _ _) rest, c => by
    simp [mainFields, leaves, nodeLeaves, mainFields_eq rest]
  | .cons (.ifNode t e) rest, c => by
    simp [mainFields, leaves, nodeLeaves, subFields_eq, mainFields_eq rest, number_append,
      numberEnd_append]
  | .cons (.loopNode b) rest, c => by
    simp [mainFields, leaves, nodeLeaves, subFields_eq, mainFields_eq rest, number_append]
  | .cons (.scanNode _) rest, c => by
    simp [mainFields, leaves, nodeLeaves, mainFields_eq rest]

theorem mainSnaps_eq : ∀ (g : FGraph) (c : Counts),
    mainSnaps c g = (number c (leaves false g)).flatMap asSnaps
  | .nil, c => by simp [mainSnaps, leaves, number]
  | .cons (.leaf name true ps tag) rest, c => by
    simp [mainSnaps, leaves, nodeLeaves, number, asSnaps, mainSnaps_eq rest]
  | .cons (.leaf _ false _ _) rest, c => by
    simp [mainSnaps, leaves, nodeLeaves, mainSnaps_eq rest]
  | .cons (.ifNode t e) rest, c => by
    simp [mainSnaps, leaves, nodeLeaves, subSnaps_eq, mainSnaps_eq rest, number_append,
      numberEnd_append]
  | .cons (.loopNode b) rest, c => by
    simp [mainSnaps, leaves, nodeLeaves, subSnaps_eq, mainSnaps_eq rest, number_append]
  | .cons (.scanNode _) rest, c => by
    simp [mainSnaps, leaves, nodeLeaves, mainSnaps_eq rest]

theorem number_snd : ∀ (ls : List Leaf) (c : Counts), (number c ls).map Prod.snd = ls
  | [], _ => rfl
  | l :: ls, c => by
    simp only [number]
    split <;> simp [number_snd ls]

/-- **C27, records.** For every graph there is one list of names, one for each node that owns a field, such
that the struct has these fields in this order, and the file holds for each node its parameters below the
node's own field, and nothing else. -/
theorem C27_records_match (g : FGraph) :
    ∃ names : List String, names.length = (leaves false g).length ∧
      collectAllFields g = (names.zip (leaves false g)).map (fun x => (x.1, x.2.tag)) ∧
      collectAllSnapshots g =
        (names.zip (leaves false g)).flatMap
          (fun x => x.2.params.map fun p => (x.1 :: p, x.2.tag)) := by
  have hs : number [] (leaves false g) =
      ((number [] (leaves false g)).map Prod.fst).zip (leaves false g) := by
    conv => lhs; rw [← List.zip_unzip (number [] (leaves false g)), List.unzip_eq_map]
    simp only [number_snd]
  refine ⟨(number [] (leaves false g)).map Prod.fst, ?_, ?_, ?_⟩
  · have := congrArg List.length (number_snd (leaves false g) [])
    simpa using this
  · rw [← hs]; exact mainFields_eq g []
  · rw [← hs]; exact mainSnaps_eq g []

/-! ## Different names -/

theorem under_mem {b : String} {k : Nat} (hk : k > 1) : '_' ∈ (fieldName b k).toList := by
  simp [fieldName, hk]

theorem digits_noUnder (k : Nat) : '_' ∉ (toString k).toList := by
  rw [toList_toString]
  intro h
  have := toDigits_digits _ h
  exact absurd this (by decide)

theorem split_under {a b x y : List Char} (ha : '_' ∉ a) (hb : '_' ∉ b)
    (h : a ++ '_' :: x = b ++ '_' :: y) : a = b ∧ x = y := by
  induction a generalizing b with
  | nil =>
    cases b with
    | nil => simpa using h
    | cons c b =>
      simp at h
      exact absurd (h.1 ▸ List.mem_cons_self ..) hb
  | cons c a ih =>
    cases b with
    | nil =>
      simp at h
      exact absurd (h.1 ▸ List.mem_cons_self ..) ha
    | cons d b =>
      simp only [List.cons_append, List.cons.injEq] at h
      have := ih (fun hh => ha (List.mem_cons_of_mem _ hh)) (fun hh => hb (List.mem_cons_of_mem _ hh)) h.2
      exact ⟨by rw [h.1, this.1], this.2⟩

theorem fieldName_inj {a b : String} {i j : Nat} (ha : '_' ∉ a.toList) (hb : '_' ∉ b.toList)
    (hi : 0 < i) (hj : 0 < j) (h : fieldName a i = fieldName b j) : a = b ∧ i = j := by
  by_cases h1 : i > 1 <;> by_cases h2 : j > 1
  · simp only [fieldName, h1, h2, if_true] at h
    have hl := congrArg String.toList h
    simp only [String.toList_append] at hl
    have e : "_".toList = ['_'] := rfl
    rw [e, List.append_assoc, List.append_assoc] at hl
    have := split_under ha hb hl
    refine ⟨String.toList_inj.1 this.1, ?_⟩
    have hd : (toString i).toList = (toString j).toList := this.2
    rw [toList_toString, toList_toString] at hd
    exact toDigits_inj hd
  · exact absurd (h ▸ under_mem h1) (by simp [fieldName, h2, hb])
  · exact absurd (h ▸ under_mem (b := b) h2) (by simp [fieldName, h1, ha])
  · simp only [fieldName, h1, h2, if_false] at h
    exact ⟨h, by omega⟩

def countOf (c : Counts) (b : String) : Nat := (mapGet c b).getD 0

theorem countOf_bump (c : Counts) (a b : String) :
    countOf (bump c a).2 b = if a = b then countOf c b + 1 else countOf c b := by
  simp only [countOf, bump, mapGet]
  split
  · rename_i h; subst h; simp
  · rfl

theorem number_mem : ∀ (ls : List Leaf) (c : Counts), ∀ x ∈ number c ls, x.2 ∈ ls ∧
    ((x.2.nested = false ∧ x.1 = x.2.name) ∨
      (x.2.nested = true ∧ ∃ k : Nat, countOf c x.2.name < k ∧ x.1 = fieldName x.2.name k))
  | [], _, x, hx => by simp [number] at hx
  | l :: ls, c, x, hx => by
    simp only [number] at hx
    split at hx
    · rename_i hn
      rcases List.mem_cons.1 hx with rfl | hx
      · exact ⟨List.mem_cons_self .., Or.inr ⟨hn, _, Nat.lt_succ_self _, rfl⟩⟩
      · obtain ⟨hm, h⟩ := number_mem ls _ x hx
        refine ⟨List.mem_cons_of_mem _ hm, ?_⟩
        rcases h with h | ⟨h1, k, hk, h2⟩
        · exact Or.inl h
        · refine Or.inr ⟨h1, k, ?_, h2⟩
          rw [countOf_bump] at hk
          split at hk <;> omega
    · rename_i hn
      rcases List.mem_cons.1 hx with rfl | hx
      · exact ⟨List.mem_cons_self .., Or.inl ⟨by simpa using hn, rfl⟩⟩
      · obtain ⟨hm, h⟩ := number_mem ls _ x hx
        exact ⟨List.mem_cons_of_mem _ hm, h⟩

/-- Names of the nodes of the main graph that own a field. -/
def mainNames (g : FGraph) : List String :=
  ((leaves false g).filter fun l => !l.nested).map Leaf.name

/-- Names of the nested nodes that own a field. -/
def nestedNames (g : FGraph) : List String :=
  ((leaves false g).filter fun l => l.nested).map Leaf.name

theorem number_nodup : ∀ (ls : List Leaf) (c : Counts),
    (∀ l ∈ ls, '_' ∉ l.name.toList) →
    ((ls.filter fun l => !l.nested).map Leaf.name).Nodup →
    (∀ l ∈ ls, ∀ m ∈ ls, l.nested = true → m.nested = false → l.name ≠ m.name) →
    ((number c ls).map Prod.fst).Nodup
  | [], _, _, _, _ => by simp [number]
  | l :: ls, c, hu, hm, hd => by
    have hu' : ∀ l ∈ ls, '_' ∉ l.name.toList := fun x hx => hu x (List.mem_cons_of_mem _ hx)
    have hd' : ∀ l ∈ ls, ∀ m ∈ ls, l.nested = true → m.nested = false → l.name ≠ m.name :=
      fun x hx y hy => hd x (List.mem_cons_of_mem _ hx) y (List.mem_cons_of_mem _ hy)
    have hl := hu l (List.mem_cons_self ..)
    by_cases hn : l.nested = true
    · have hm' : ((ls.filter fun l => !l.nested).map Leaf.name).Nodup := by
        simpa [List.filter_cons, hn] using hm
      simp only [number, hn, if_true, List.map_cons, List.nodup_cons]
      refine ⟨?_, number_nodup ls _ hu' hm' hd'⟩
      intro hc
      obtain ⟨x, hx, he⟩ := List.mem_map.1 hc
      obtain ⟨hxm, h⟩ := number_mem ls _ x hx
      rcases h with ⟨h1, h2⟩ | ⟨h1, k, hk, h2⟩
      · rw [h2] at he
        by_cases hb : (bump c l.name).1 > 1
        · exact hu' _ hxm (he ▸ under_mem hb)
        · rw [fieldName, if_neg hb] at he
          exact hd l (List.mem_cons_self ..) x.2 (List.mem_cons_of_mem _ hxm) hn h1 he.symm
      · rw [h2] at he
        have := fieldName_inj (hu' _ hxm) hl (by omega) (by simp [bump]) he
        rw [this.1, countOf_bump, if_pos rfl] at hk
        have h3 : (bump c l.name).1 = countOf c l.name + 1 := rfl
        omega
    · have hn' : l.nested = false := by simpa using hn
      simp only [List.filter_cons, hn', Bool.not_false, if_true, List.map_cons, List.nodup_cons] at hm
      simp only [number, hn', Bool.false_eq_true, if_false, List.map_cons, List.nodup_cons]
      refine ⟨?_, number_nodup ls _ hu' hm.2 hd'⟩
      intro hc
      obtain ⟨x, hx, he⟩ := List.mem_map.1 hc
      obtain ⟨hxm, h⟩ := number_mem ls _ x hx
      rcases h with ⟨h1, h2⟩ | ⟨h1, k, hk, h2⟩
      · refine hm.1 (List.mem_map.2 ⟨x.2, List.mem_filter.2 ⟨hxm, by simp [h1]⟩, ?_⟩)
        rw [← h2, he]
      · rw [h2] at he
        by_cases hb : k > 1
        · exact hl (he ▸ under_mem hb)
        · rw [fieldName, if_neg hb] at he
          exact hd x.2 (List.mem_cons_of_mem _ hxm) l (List.mem_cons_self ..) h1 hn' he

/-- **C27, names.** No two fields share a name, at whatever depth their nodes lie, provided the node names
of the main graph differ, no nested node is named like one of the main graph, and no name has an
underscore. Missing: the second proviso can fail for imported graphs (`C27_field_name_twice`). -/
theorem C27_field_names_distinct_partial (g : FGraph)
    (hu : ∀ l ∈ leaves false g, '_' ∉ l.name.toList) (hm : (mainNames g).Nodup)
    (hd : ∀ x ∈ nestedNames g, x ∉ mainNames g) :
    ((collectAllFields g).map Prod.fst).Nodup := by
  have := number_nodup (leaves false g) [] hu hm (fun l hl m hm' h1 h2 he =>
    hd l.name (List.mem_map.2 ⟨l, List.mem_filter.2 ⟨hl, h1⟩, rfl⟩)
      (List.mem_map.2 ⟨m, List.mem_filter.2 ⟨hm', by simp [h2]⟩, he.symm⟩))
  rw [collectAllFields, mainFields_eq, List.map_map]
  exact this

/-- **C27.** Under the same provisos every stored weight lies under exactly one field, and that field is
its own node's. -/
theorem C27_weight_has_one_field_partial (g : FGraph)
    (hu : ∀ l ∈ leaves false g, '_' ∉ l.name.toList) (hm : (mainNames g).Nodup)
    (hd : ∀ x ∈ nestedNames g, x ∉ mainNames g) :
    ∀ w ∈ collectAllSnapshots g, ∃ f ∈ collectAllFields g, w.1.head? = some f.1 ∧ f.2 = w.2 ∧
      ∀ f' ∈ collectAllFields g, w.1.head? = some f'.1 → f' = f := by
  intro w hw
  have hnd := C27_field_names_distinct_partial g hu hm hd
  rw [collectAllSnapshots, mainSnaps_eq] at hw
  obtain ⟨x, hx, hw⟩ := List.mem_flatMap.1 hw
  obtain ⟨p, _, rfl⟩ := List.mem_map.1 hw
  have hf : asField x ∈ collectAllFields g := by
    rw [collectAllFields, mainFields_eq]
    exact List.mem_map.2 ⟨x, hx, rfl⟩
  refine ⟨asField x, hf, rfl, rfl, ?_⟩
  intro f' hf' he
  have he' : f'.1 = (asField x).1 := by
    have : (asField x).1 = f'.1 := by simpa [asField] using he
    exact this.symm
  obtain ⟨i, hi, hgi⟩ := List.mem_iff_getElem.1 hf'
  obtain ⟨j, hj, hgj⟩ := List.mem_iff_getElem.1 hf
  have := (List.getElem_inj (h₀ := by simpa using hi) (h₁ := by simpa using hj) hnd).1
    (by simp [hgi, hgj, he'])
  subst this
  rw [← hgi, ← hgj]

/-! ## The field a node's code reads -/

mutual
theorem nodeReads_eq (b : Bool) : ∀ n : FNode, n.noScan = true →
    nodeReads n = (nodeLeaves b n).map fun l => (l.name, l.tag)
  | .leaf _ true _ _, _ => by simp [nodeReads, nodeLeaves]
  | .leaf _ false _ _, _ => by simp [nodeReads, nodeLeaves]
  | .ifNode t e, h => by
    simp only [FNode.noScan, Bool.and_eq_true] at h
    simp [nodeReads, nodeLeaves, reads_eq true t h.1, reads_eq true e h.2]
  | .loopNode g, h => by
    simp only [FNode.noScan] at h
    simp [nodeReads, nodeLeaves, reads_eq true g h]
  | .scanNode _, h => by simp [FNode.noScan] at h
theorem reads_eq (b : Bool) : ∀ g : FGraph, g.noScan = true →
    reads g = (leaves b g).map fun l => (l.name, l.tag)
  | .nil, _ => rfl
  | .cons n rest, h => by
    simp only [FGraph.noScan, Bool.and_eq_true] at h
    simp [reads, leaves, nodeReads_eq b n h.1, reads_eq b rest h.2]
end

theorem number_plain : ∀ (ls : List Leaf) (c : Counts), (ls.map Leaf.name).Nodup →
    (∀ l ∈ ls, countOf c l.name = 0) → (number c ls).map asField = ls.map fun l => (l.name, l.tag)
  | [], _, _, _ => rfl
  | l :: ls, c, hn, hc => by
    simp only [List.map_cons, List.nodup_cons] at hn
    have h0 := hc l (List.mem_cons_self ..)
    simp only [number]
    split
    · have h1 : (bump c l.name).1 = 1 := by
        have : (bump c l.name).1 = countOf c l.name + 1 := rfl
        omega
      simp only [List.map_cons, h1, asField, fieldName]
      rw [← number_plain ls (bump c l.name).2 hn.2]
      · rfl
      · intro m hm
        rw [countOf_bump, if_neg]
        · exact hc m (List.mem_cons_of_mem _ hm)
        · intro he
          exact hn.1 (he ▸ List.mem_map.2 ⟨m, hm, rfl⟩)
    · simp only [List.map_cons]
      rw [← number_plain ls c hn.2 (fun m hm => hc m (List.mem_cons_of_mem _ hm))]
      rfl

/-- **C27, code.** If no two nodes of the whole graph have the same name and there is no Scan, the field read
by a node's code is its own. Missing: repeated names and Scan (`C27_branch_reads_other_weights`,
`C27_scan_body_field_missing`). -/
theorem C27_code_reads_own_field_partial (g : FGraph) (hs : g.noScan = true)
    (hn : ((leaves false g).map Leaf.name).Nodup) : reads g = collectAllFields g := by
  rw [reads_eq false g hs, collectAllFields, mainFields_eq, number_plain _ _ hn]
  intro l _
  rfl

/-! ## Cases -/

/-- `Gemm` nodes turned into `Linear` layers, one in each branch of an If, one in a Loop body nested in the
second branch, one in the main graph; tags in file order. -/
def goodGraph : FGraph :=
  let lin (n : String) (t : Nat) : FNode := .leaf n true [["weight"], ["bias"]] t
  .cons (lin "linear1" 0)
    (.cons (.ifNode (.cons (lin "linear3" 1) .nil)
        (.cons (.loopNode (.cons (lin "linear3" 2) .nil)) (.cons (.leaf "constant9" true [[]] 3) .nil)))
      (.cons (.leaf "relu1" false [] 4) .nil))

example : collectAllFields goodGraph =
    [("linear1", 0), ("linear3", 1), ("linear3_2", 2), ("constant9", 3)] := by decide +kernel
example : collectAllSnapshots goodGraph =
    [(["linear1", "weight"], 0), (["linear1", "bias"], 0), (["linear3", "weight"], 1),
     (["linear3", "bias"], 1), (["linear3_2", "weight"], 2), (["linear3_2", "bias"], 2),
     (["constant9"], 3)] := by decide +kernel
example : (∀ l ∈ leaves false goodGraph, '_' ∉ l.name.toList) ∧ (mainNames goodGraph).Nodup ∧
    (∀ x ∈ nestedNames goodGraph, x ∉ mainNames goodGraph) := by decide +kernel

/-- A graph that meets the proviso about reads. -/
def distinctGraph : FGraph :=
  .cons (.leaf "linear1" true [["weight"]] 0)
    (.cons (.ifNode (.cons (.leaf "linear2" true [["weight"]] 1) .nil)
      (.cons (.leaf "linear3" true [["weight"]] 2) .nil)) .nil)

example : distinctGraph.noScan = true ∧ ((leaves false distinctGraph).map Leaf.name).Nodup ∧
    reads distinctGraph = [("linear1", 0), ("linear2", 1), ("linear3", 2)] := by decide +kernel

/-- The main graph and a branch each hold a Linear layer of the same name: two fields share it. The names are
those the importer gives to `Gemm, If (one Gemm in a branch), Gemm, Gemm`, all turned into Linear. -/
theorem C27_field_name_twice :
    let main := nameNodes [] [("Gemm", some "Linear"), ("If", none), ("Gemm", some "Linear"), ("Gemm", some "Linear")]
    let inner := nameNodes (nestedRegistry (nameNodesEnd [] [("Gemm", some "Linear")]) "If") [("Gemm", some "Linear")]
    main = ["linear1", "if1", "linear2", "linear3"] ∧ inner = ["linear3"] ∧
    collectAllFields (.cons (.leaf main[0]! true [["weight"]] 0)
      (.cons (.ifNode (.cons (.leaf inner[0]! true [["weight"]] 1) .nil) .nil)
        (.cons (.leaf main[2]! true [["weight"]] 2) (.cons (.leaf main[3]! true [["weight"]] 3) .nil))))
      = [("linear1", 0), ("linear3", 1), ("linear2", 2), ("linear3", 3)] := by
  decide +kernel

/-- Two If nodes with one Linear layer each, both called `linear1`. The second layer's weights are stored under
`linear1_2`, but its code reads `self.linear1`, the weights of the first. -/
theorem C27_branch_reads_other_weights :
    let first := nameNodes (nestedRegistry (nameNodesEnd [] []) "If") [("Gemm", some "Linear")]
    let second := nameNodes (nestedRegistry (nameNodesEnd [] [("If", none)]) "If") [("Gemm", some "Linear")]
    let g : FGraph := .cons (.ifNode (.cons (.leaf first[0]! true [["weight"]] 0) .nil) .nil)
      (.cons (.ifNode (.cons (.leaf second[0]! true [["weight"]] 1) .nil) .nil) .nil)
    collectAllFields g = [("linear1", 0), ("linear1_2", 1)] ∧
      collectAllSnapshots g = [(["linear1", "weight"], 0), (["linear1_2", "weight"], 1)] ∧
      reads g = [("linear1", 0), ("linear1", 1)] := by
  decide +kernel

/-- A Linear layer in the body of a Scan: its code reads a field that does not exist, and its weights are not
stored. -/
theorem C27_scan_body_field_missing :
    let g : FGraph := .cons (.scanNode (.cons (.leaf "linear1" true [["weight"]] 0) .nil)) .nil
    reads g = [("linear1", 0)] ∧ collectAllFields g = [] ∧ collectAllSnapshots g = [] := by
  decide +kernel

end OnnxIR.Fields
