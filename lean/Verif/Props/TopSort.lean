import Verif.Model.TopSort
import Verif.Props.GraphBuildCases

/-!
# C37: out-of-order models are detected

The check accepts a model exactly when no node comes before a producer of one of its inputs
(`C37_accepts_iff`). Together with the absence of self-loops this gives the order the property asks
for; a node that reads its own output is accepted (`C37_self_loop_accepted`), and so is a model that
the check should reject because of a name read inside a subgraph, which the check does not see.
-/

namespace OnnxIR

variable {V : Type}

theorem readEarlier_iff {pos : Nat} {o : String} : ∀ {ms : List (NodeProto V)} {i : Nat},
    readEarlier pos o i ms = true ↔ ∃ (j : Nat) (m : NodeProto V), ms[j]? = some m ∧ o ∈ m.inputs ∧ i + j < pos
  | [], i => by simp [readEarlier]
  | m :: ms, i => by
    simp only [readEarlier, Bool.or_eq_true, Bool.and_eq_true, decide_eq_true_eq,
      List.contains_iff_mem, readEarlier_iff (ms := ms)]
    constructor
    · rintro (⟨h1, h2⟩ | ⟨j, m', h1, h2, h3⟩)
      · exact ⟨0, m, rfl, h1, by omega⟩
      · exact ⟨j + 1, m', by simpa using h1, h2, by omega⟩
    · rintro ⟨j, m', h1, h2, h3⟩
      cases j with
      | zero => simp at h1; subst h1; exact .inl ⟨h2, by omega⟩
      | succ j => exact .inr ⟨j, m', by simpa using h1, h2, by omega⟩

theorem outputsSorted_iff {all : List (NodeProto V)} {pos : Nat} : ∀ {os : List String},
    outputsSorted all pos os = true ↔ ∀ o ∈ os, o ≠ "" → readEarlier pos o 0 all = false
  | [] => by simp [outputsSorted]
  | o :: os => by
    simp only [outputsSorted, List.forall_mem_cons]
    by_cases ho : o = ""
    · simp [ho, outputsSorted_iff]
    · simp only [if_neg ho]
      by_cases hr : readEarlier pos o 0 all = true
      · simp [hr, ho]
      · rw [if_neg hr, outputsSorted_iff]; simp [ho, Bool.not_eq_true _ ▸ hr]

theorem sortedFrom_iff {all : List (NodeProto V)} : ∀ {ns : List (NodeProto V)} {pos : Nat},
    sortedFrom all pos ns = true ↔
      ∀ (i : Nat) (n : NodeProto V), ns[i]? = some n → outputsSorted all (pos + i) n.outputs = true
  | [], pos => by simp [sortedFrom]
  | n :: ns, pos => by
    simp only [sortedFrom, Bool.and_eq_true, sortedFrom_iff (ns := ns)]
    constructor
    · rintro ⟨h1, h2⟩ i m hm
      cases i with
      | zero => simp at hm; subst hm; exact h1
      | succ i => have := h2 i m (by simpa using hm); rwa [Nat.add_assoc, Nat.add_comm 1] at this
    · intro h
      refine ⟨h 0 n rfl, fun i m hm => ?_⟩
      have := h (i + 1) m (by simpa using hm)
      rwa [Nat.add_assoc, Nat.add_comm 1]

/-- **C37, exactly what is checked.** A model is accepted if and only if no node stands before a
node that produces one of its inputs. -/
theorem C37_accepts_iff (nodes : List (NodeProto V)) :
    isTopSorted nodes = true ↔
      ∀ (i j : Nat) (p c : NodeProto V) (x : String), nodes[i]? = some p → nodes[j]? = some c →
        x ∈ p.outputs → x ∈ c.inputs → x ≠ "" → i ≤ j := by
  unfold isTopSorted
  rw [sortedFrom_iff]
  simp only [Nat.zero_add]
  constructor
  · intro h i j p c x hp hc hxp hxc hx
    have := outputsSorted_iff.1 (h i p hp) x hxp hx
    rcases Nat.lt_or_ge j i with hlt | hge
    · have ht : readEarlier i x 0 nodes = true := readEarlier_iff.2 ⟨j, c, hc, hxc, by omega⟩
      rw [this] at ht; cases ht
    · exact hge
  · intro h i p hp
    rw [outputsSorted_iff]
    intro o ho hne
    rw [← Bool.not_eq_true]
    intro hr
    obtain ⟨j, c, hc, hoc, hlt⟩ := readEarlier_iff.1 hr
    have := h i j p c o hp hc ho hoc hne
    omega

/-- **C37, soundness.** In an accepted model where no node reads its own output, every node comes
after every producer of each of its inputs. Partial: self-loops are not rejected, and names read
inside subgraphs are not looked at. -/
theorem C37_accepted_is_ordered_partial {nodes : List (NodeProto V)} (h : isTopSorted nodes = true)
    (hself : ∀ n ∈ nodes, ∀ x ∈ n.outputs, x ≠ "" → x ∉ n.inputs)
    {i j : Nat} {p c : NodeProto V} {x : String} (hp : nodes[i]? = some p) (hc : nodes[j]? = some c)
    (hxp : x ∈ p.outputs) (hxc : x ∈ c.inputs) (hx : x ≠ "") : i < j := by
  have hle := (C37_accepts_iff nodes).1 h i j p c x hp hc hxp hxc hx
  rcases Nat.lt_or_eq_of_le hle with hlt | heq
  · exact hlt
  · subst heq
    rw [hp] at hc; cases hc
    exact absurd hxc (hself p (List.mem_of_getElem? hp) x hxp hx)

/-- **C37, rejection.** A model with a node before a producer of one of its inputs is rejected. -/
theorem C37_out_of_order_rejected {nodes : List (NodeProto V)} {i j : Nat} {p c : NodeProto V} {x : String}
    (hp : nodes[i]? = some p) (hc : nodes[j]? = some c) (hxp : x ∈ p.outputs) (hxc : x ∈ c.inputs)
    (hx : x ≠ "") (hlt : j < i) : isTopSorted nodes = false := by
  rw [← Bool.not_eq_true]
  intro h
  have := (C37_accepts_iff nodes).1 h i j p c x hp hc hxp hxc hx
  omega

/-- **C37, no valid model is rejected.** If the ONNX graph, run in file order, has a result and
names are bound once, the check accepts it. -/
theorem C37_valid_accepted {S : OpSem V} {nodes : List (NodeProto V)} {e e' : Env V}
    (hrun : onnxNodes S e nodes = some e')
    (honce : ∀ (i j : Nat) (p q : NodeProto V) (x : String), nodes[i]? = some p → nodes[j]? = some q → x ∈ p.outputs →
      x ∈ q.outputs → x ≠ "" → i = j)
    (hfresh : ∀ n ∈ nodes, ∀ x ∈ n.outputs, x ≠ "" → e x = none) : isTopSorted nodes = true := by
  have key : ∀ (ns : List (NodeProto V)) (e e' : Env V), onnxNodes S e ns = some e' →
      ∀ (j : Nat) (c : NodeProto V) (x : String), ns[j]? = some c → x ∈ c.inputs → x ≠ "" →
      (e x).isSome ∨ ∃ (i : Nat) (p : NodeProto V), i < j ∧ ns[i]? = some p ∧ x ∈ p.outputs := by
    intro ns
    induction ns with
    | nil => intro e e' _ j c x hc; simp at hc
    | cons n ns ih =>
      intro e e' h j c x hc hx hne
      simp only [onnxNodes] at h
      cases hn : onnxNode S e n with
      | none => rw [hn] at h; cases h
      | some e1 =>
        rw [hn] at h
        simp only at h
        unfold onnxNode at hn
        cases hxs : onnxArgs e n.inputs with
        | none => rw [hxs] at hn; cases hn
        | some xs =>
          cases j with
          | zero =>
            simp at hc; subst hc
            left
            have args : ∀ (l : List String) (vs : List (Option V)), onnxArgs e l = some vs → x ∈ l → (e x).isSome := by
              intro l
              induction l with
              | nil => intro _ _ h; cases h
              | cons y l ihl =>
                intro vs hv hm
                simp only [onnxArgs] at hv
                cases h2 : onnxArgs e l with
                | none => rw [h2] at hv; split at hv <;> simp_all
                | some ws =>
                  rw [h2] at hv
                  cases hm with
                  | tail _ hm => exact ihl ws h2 hm
                  | head =>
                    rw [if_neg hne] at hv
                    cases hex : e x with
                    | none => simp [hex] at hv
                    | some v => rfl
            exact args _ _ hxs hx
          | succ j =>
            rcases ih e1 e' h j c x (by simpa using hc) hx hne with h1 | ⟨i, p, h1, h2, h3⟩
            · rw [hxs] at hn
              simp only at hn
              split at hn
              · cases hn
              · split at hn
                · rename_i ys _ hlen
                  cases hn
                  rw [onnxBind_get _ _ _ _ hne hlen.symm] at h1
                  cases hl : lastIdx x n.outputs with
                  | none => rw [hl] at h1; exact .inl h1
                  | some k =>
                    exact .inr ⟨0, n, by omega, rfl, List.mem_of_getElem? (lastIdx_some hl)⟩
                · cases hn
            · exact .inr ⟨i + 1, p, by omega, by simpa using h2, h3⟩
  rw [C37_accepts_iff]
  intro i j p c x hp hc hxp hxc hne
  rcases key nodes e e' hrun j c x hc hxc hne with h | ⟨i', p', h1, h2, h3⟩
  · rw [hfresh p (List.mem_of_getElem? hp) x hxp hne] at h; cases h
  · have := honce i i' p p' x hp h2 hxp h3 hne
    omega

/-- The hypotheses are met by `goodGraph`; swapping its first two nodes makes it rejected. -/
example : isTopSorted goodGraph.nodes = true ∧
    (∀ n ∈ goodGraph.nodes, ∀ x ∈ n.outputs, x ≠ "" → x ∉ n.inputs) ∧
    isTopSorted (goodGraph.nodes.drop 1 ++ goodGraph.nodes.take 1) = false ∧
    (onnxNodes intOps (fun x => if x = "x:0" then some 20 else if x = "W" then some 1 else none)
      goodGraph.nodes).isSome = true := by
  unfold goodGraph
  refine ⟨by decide +kernel, by decide +kernel, by decide +kernel, by decide +kernel⟩

/-- A node that reads its own output. -/
def selfLoopGraph : GraphProto Int :=
  { inputs := [], inits := [], outputs := ["y"]
    nodes := [{ ty := .neg, inputs := ["y"], outputs := ["y"], attrs := [] }] }

/-- **C37 fails for a node that reads its own output**: the model is accepted although it has no
meaning, and the imported node reads a name nothing defines. -/
theorem C37_self_loop_accepted :
    isTopSorted selfLoopGraph.nodes = true ∧
    onnxGraph intOps (fun _ => none) selfLoopGraph = none ∧
    (importGraph [] selfLoopGraph).map (fun r => r.1.map Node.inNames) = some [["y"]] ∧
    (importGraph [] selfLoopGraph).map (fun r => r.1.map Node.outNames) = some [["neg1_out1"]] := by
  refine ⟨by decide +kernel, by decide +kernel, by decide +kernel, by decide +kernel⟩

end OnnxIR
