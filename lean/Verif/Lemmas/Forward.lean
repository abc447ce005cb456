import Batteries.Data.List.Perm
import Verif.Lemmas.Eval
import Verif.Props.Boundary
import Verif.Props.Ownership
import Verif.Spec.Forward

/-!
# Lemmas for C80: a whole `forward` function
-/

namespace OnnxIR

open Rust Gen Boundary

variable {V R : Type}

/-! ## The graph as the ownership model sees it -/

/-- The mention of an input as an access, if the input is on the device. -/
def accessOf (n : Node V) (u : Use) : Option Access :=
  (n.inputs[u.index]?).bind fun a =>
    if a.ty.isOnDevice then some (match u with
      | .arg _ => .arg a.name
      | .name _ => .peek a.name)
    else none

/-- The nodes, as far as ownership is concerned. -/
def progOf (code : Node V → Option (NodeCode R)) : List (Node V) → Prog
  | [] => .done
  | n :: ns =>
    .op ((n.inputs.filter tracked).map Arg.name) ((n.outputs.filter fun o => o.ty.isOnDevice).map Arg.name)
      (((code n).map fun c => c.uses.filterMap (accessOf n)).getD []) (progOf code ns)

/-- The graph, as far as ownership is concerned. -/
def graphOf (code : Node V → Option (NodeCode R)) (nodes : List (Node V)) (ins outs : List (Arg V)) : Gen.Graph :=
  ⟨(ins.filter fun a => a.ty.isOnDevice).map Arg.name, progOf code nodes,
    (outs.filter fun o => isTensor o.ty).map Arg.name, (outs.filter fun o => (devOf o.ty).isSome).map Arg.name⟩

theorem progOf_len (code : Node V → Option (NodeCode R)) (nodes : List (Node V)) :
    (progOf code nodes).len = nodes.length := by
  induction nodes with
  | nil => rfl
  | cons n ns ih => simp [progOf, Prog.len, ih]

theorem regProg_progOf (code : Node V → Option (NodeCode R)) (nodes : List (Node V)) : ∀ (p : Nat) (s : Scope),
    regProg (progOf code nodes) p s = registerNodes p s nodes := by
  induction nodes with
  | nil => intro p s; rfl
  | cons n ns ih => intro p s; simp only [progOf, regProg, registerNodes, regNode, ih]

theorem scopeOf_eq (code : Node V → Option (NodeCode R)) (nodes : List (Node V)) (ins outs : List (Arg V)) :
    scopeOf nodes ins outs = buildScope (graphOf code nodes ins outs) := by
  simp only [scopeOf, buildScope, graphOf, progOf_len, regProg_progOf]

theorem form_device {t u : ArgType} (h : t.form = u.form) : t.isOnDevice = u.isOnDevice := by
  cases t <;> cases u <;> simp_all [ArgType.form, ArgType.isOnDevice]

theorem form_dev {t u : ArgType} (h : t.form = u.form) : devOf t = devOf u := by
  cases t <;> cases u <;> simp_all [ArgType.form, devOf]

/-! ## Counting mentions -/

theorem countP_range {A : Type} (q : A → Bool) (l : List A) :
    (List.range l.length).countP (fun i => (l[i]?).any q) = l.countP q := by
  induction l with
  | nil => rfl
  | cons a l ih =>
    rw [List.length_cons, List.range_succ_eq_map, List.countP_cons, List.countP_map, List.countP_cons]
    congr 1

theorem mentions_le {n : Node V} {uses : List Use} (hn : (uses.map Use.index).Nodup)
    (hr : ∀ u ∈ uses, ∃ a, n.inputs[u.index]? = some a ∧ AtRunTime a) (x : String) :
    accCount (uses.filterMap (accessOf n)) x ≤ ((n.inputs.filter tracked).map Arg.name).count x := by
  have h1 : accCount (uses.filterMap (accessOf n)) x ≤
      (uses.map Use.index).countP fun i => (n.inputs[i]?).any fun a => tracked a && a.name == x := by
    clear hn
    induction uses with
    | nil => exact Nat.le_refl _
    | cons u us ih =>
      have ih := ih fun w hw => hr w (List.mem_cons_of_mem _ hw)
      obtain ⟨a, ha, hrt⟩ := hr u List.mem_cons_self
      rw [List.map_cons, List.countP_cons, ha]
      simp only [Option.any_some]
      cases hd : a.ty.isOnDevice with
      | false =>
        have : accessOf n u = none := by simp [accessOf, ha, hd]
        rw [List.filterMap_cons_none this]
        omega
      | true =>
        have htr : tracked a = true := by
          rcases hrt with h | h <;> simp [tracked, h, hd]
        obtain ⟨c, hc, hcn⟩ : ∃ c, accessOf n u = some c ∧ c.name = a.name := by
          cases u with
          | arg i => exact ⟨.arg a.name, by simp [accessOf, ha, hd], rfl⟩
          | name i => exact ⟨.peek a.name, by simp [accessOf, ha, hd], rfl⟩
        rw [List.filterMap_cons_some hc]
        simp only [accCount, List.map_cons, List.count_cons, hcn, htr, Bool.true_and] at ih ⊢
        split <;> omega
  have h2 : (uses.map Use.index).countP (fun i => (n.inputs[i]?).any fun a => tracked a && a.name == x) ≤
      (List.range n.inputs.length).countP fun i => (n.inputs[i]?).any fun a => tracked a && a.name == x := by
    refine List.Subperm.countP_le _ (List.subperm_of_subset hn fun i hi => ?_)
    obtain ⟨u, hu, rfl⟩ := List.mem_map.1 hi
    obtain ⟨a, ha, -⟩ := hr u hu
    exact List.mem_range.2 (List.getElem?_eq_some_iff.1 ha).1
  rw [countP_range] at h2
  refine Nat.le_trans h1 (Nat.le_trans h2 (Nat.le_of_eq ?_))
  rw [List.count_eq_countP, List.countP_map, List.countP_filter]
  congr 1
  funext a
  simp [Bool.and_comm]

/-! ## The ownership graph is well formed -/

theorem device_names {τ : String → ArgType} {as : List (Arg V)} (h : ∀ a ∈ as, a.ty.form = (τ a.name).form) :
    (as.filter fun a => a.ty.isOnDevice).map Arg.name = (as.map Arg.name).filter fun x => (τ x).isOnDevice := by
  rw [List.filter_map]
  congr 1
  refine List.filter_congr fun a ha => ?_
  exact form_device (h a ha)

theorem progOf_wellFormed {τ : String → ArgType} {L : Target V R} {S : Sem V} {dom : Node V → List (Option V) → Prop}
    {code : Node V → Option (NodeCode R)}
    {nodes : List (Node V)} : ∀ {seen : List String}, InOrder nodes seen →
    (∀ n ∈ nodes, (∀ a ∈ n.inputs, AtRunTime a → a.ty.form = (τ a.name).form) ∧
      ∀ o ∈ n.outputs, o.ty.form = (τ o.name).form) →
    (∀ n ∈ nodes, ∀ c, code n = some c → Implements L S dom n c) →
    WellFormed (progOf code nodes) (seen.filter fun x => (τ x).isOnDevice) := by
  induction nodes with
  | nil => intro seen _ _ _; trivial
  | cons n ns ih =>
    intro seen ho ht hc
    obtain ⟨o1, o2, o3, o4⟩ := ho
    have htn := ht n List.mem_cons_self
    have hout := device_names (τ := τ) htn.2
    refine ⟨fun x hx => ?_, fun x => ?_, fun x hx => ?_, ?_, fun x hx hs => ?_, ?_⟩
    · obtain ⟨a, ha, rfl⟩ := List.mem_map.1 hx
      obtain ⟨ha, htr⟩ := List.mem_filter.1 ha
      have hrt : AtRunTime a := by
        unfold tracked at htr
        unfold AtRunTime
        cases hs : a.src <;> simp_all
      have hdev : a.ty.isOnDevice = true := by
        unfold tracked at htr
        simp_all
      refine List.mem_filter.2 ⟨o1 a ha hrt, ?_⟩
      rw [← form_device (htn.1 a ha hrt)]; exact hdev
    · cases hcn : code n with
      | none => simp [accCount]
      | some c =>
        have hi := hc n List.mem_cons_self c hcn
        exact mentions_le hi.once hi.inputs x
    · cases hcn : code n with
      | none => simp [hcn] at hx
      | some c =>
        simp only [hcn, Option.map_some, Option.getD_some, List.mem_filterMap] at hx
        obtain ⟨u, -, hu⟩ := hx
        unfold accessOf at hu
        cases hi : n.inputs[u.index]? with
        | none => simp [hi] at hu
        | some a =>
          simp only [hi, Option.bind_some] at hu
          split at hu
          · cases u <;> simp at hu
          · cases hu
    · rw [hout]; exact o2.filter _
    · rw [hout] at hx
      exact o3 x (List.mem_filter.1 hx).1 (List.mem_filter.1 hs).1
    · rw [hout]
      have : (n.outputs.map Arg.name).filter (fun x => (τ x).isOnDevice) ++ seen.filter (fun x => (τ x).isOnDevice) =
          (n.outNames ++ seen).filter fun x => (τ x).isOnDevice := by
        rw [List.filter_append]; rfl
      rw [this]
      exact ih o4 (fun m hm => ht m (List.mem_cons_of_mem _ hm)) fun m hm => hc m (List.mem_cons_of_mem _ hm)

theorem progOf_defs {τ : String → ArgType} {code : Node V → Option (NodeCode R)} {nodes : List (Node V)}
    (ht : ∀ n ∈ nodes, ∀ o ∈ n.outputs, o.ty.form = (τ o.name).form) {x : String}
    (hx : x ∈ nodes.flatMap Node.outNames) (hd : (τ x).isOnDevice = true) : x ∈ defs (progOf code nodes) := by
  induction nodes with
  | nil => simp at hx
  | cons n ns ih =>
    simp only [List.flatMap_cons, List.mem_append] at hx
    simp only [progOf, defs, List.mem_append]
    rcases hx with hx | hx
    · left
      rw [device_names (ht n List.mem_cons_self)]
      exact List.mem_filter.2 ⟨hx, hd⟩
    · exact Or.inr (ih (fun m hm => ht m (List.mem_cons_of_mem _ hm)) hx)

theorem progOf_needs {L : Target V R} {S : Sem V} {dom : Node V → List (Option V) → Prop}
    {code : Node V → Option (NodeCode R)} {nodes : List (Node V)}
    (hc : ∀ n ∈ nodes, ∀ c, code n = some c → Implements L S dom n c) {x : String}
    (hx : ∀ n ∈ nodes, ∀ a ∈ n.inputs, AtRunTime a → a.name ≠ x) : needs (progOf code nodes) x = 0 := by
  induction nodes with
  | nil => rfl
  | cons n ns ih =>
    simp only [progOf, needs]
    rw [ih (fun m hm => hc m (List.mem_cons_of_mem _ hm)) fun m hm => hx m (List.mem_cons_of_mem _ hm)]
    cases hcn : code n with
    | none => simp [accCount]
    | some c =>
      have hi := hc n List.mem_cons_self c hcn
      have hle := mentions_le hi.once hi.inputs x
      have h0 : ((n.inputs.filter tracked).map Arg.name).count x = 0 := by
        refine List.count_eq_zero.2 fun hm => ?_
        obtain ⟨a, ha, rfl⟩ := List.mem_map.1 hm
        obtain ⟨ha, htr⟩ := List.mem_filter.1 ha
        refine hx n List.mem_cons_self a ha ?_ rfl
        unfold tracked at htr
        unfold AtRunTime
        cases hs : a.src <;> simp_all
      simp only [Option.map_some, Option.getD_some]
      omega

/-- The counts of clones and moves of a graph are those C23 is about. -/
theorem graphOf_wellFormed {τ : String → ArgType} {L : Target V R} {S : Sem V} {dom : Node V → List (Option V) → Prop}
    {code : Node V → Option (NodeCode R)}
    {nodes : List (Node V)} {ins outs : List (Arg V)} (hg : GraphOk τ nodes ins outs)
    (hc : ∀ n ∈ nodes, ∀ c, code n = some c → Implements L S dom n c) : WellFormedGraph (graphOf code nodes ins outs) := by
  have hin := device_names hg.inTypes
  have hsub : ∀ x ∈ (graphOf code nodes ins outs).outputs ++ (graphOf code nodes ins outs).scalarOutputs,
      ∃ o ∈ outs, o.name = x ∧ o.ty.isOnDevice = true := by
    intro x hx
    simp only [graphOf, List.mem_append, List.mem_map, List.mem_filter] at hx
    rcases hx with ⟨o, ⟨ho, ht⟩, rfl⟩ | ⟨o, ⟨ho, ht⟩, rfl⟩
    · exact ⟨o, ho, rfl, by cases h : o.ty <;> simp_all [isTensor, ArgType.isOnDevice]⟩
    · exact ⟨o, ho, rfl, by cases h : o.ty <;> simp_all [devOf, ArgType.isOnDevice]⟩
  refine ⟨?_, ?_, fun x hx => ?_, ?_, fun x hx => ?_⟩
  · show ((ins.filter fun a => a.ty.isOnDevice).map Arg.name).Nodup
    rw [hin]; exact hg.inputs.filter _
  · show WellFormed (progOf code nodes) ((ins.filter fun a => a.ty.isOnDevice).map Arg.name)
    rw [hin]
    exact progOf_wellFormed hg.order hg.nodeTypes hc
  · obtain ⟨o, ho, rfl, hd⟩ := hsub x hx
    have hd' : (τ o.name).isOnDevice = true := by rw [← form_device (hg.outTypes o ho)]; exact hd
    rcases (hg.results o ho).2 with h | h
    · left
      show o.name ∈ (ins.filter fun a => a.ty.isOnDevice).map Arg.name
      rw [hin]; exact List.mem_filter.2 ⟨h, hd'⟩
    · exact Or.inr (progOf_defs (fun n hn => (hg.nodeTypes n hn).2) h hd')
  · have hnd := hg.outputs
    clear hsub hin hg
    simp only [graphOf]
    induction outs with
    | nil => exact List.nodup_nil
    | cons o os ih =>
      obtain ⟨h1, h2⟩ := List.nodup_cons.1 hnd
      have ih := ih h2
      have hfree : o.name ∉ (os.filter fun o => isTensor o.ty).map Arg.name ++ (os.filter fun o => (devOf o.ty).isSome).map Arg.name := by
        intro hm
        simp only [List.mem_append, List.mem_map, List.mem_filter] at hm
        rcases hm with ⟨q, ⟨hq, -⟩, he⟩ | ⟨q, ⟨hq, -⟩, he⟩ <;> exact h1 (List.mem_map.2 ⟨q, hq, he⟩)
      cases ht : o.ty with
      | tensor t =>
        simp only [List.filter_cons, ht, isTensor, devOf, if_true, Option.isSome_none, Bool.false_eq_true, if_false,
          List.map_cons, List.cons_append]
        exact List.nodup_cons.2 ⟨hfree, ih⟩
      | scalarTensor d =>
        simp only [List.filter_cons, ht, isTensor, devOf, if_true, Option.isSome_some, Bool.false_eq_true, if_false,
          List.map_cons]
        exact (List.perm_middle.symm.nodup_iff).1 (List.nodup_cons.2 ⟨hfree, ih⟩)
      | scalarNative d =>
        simp only [List.filter_cons, ht, isTensor, devOf, Option.isSome_none, Bool.false_eq_true, if_false]
        exact ih
      | shape k =>
        simp only [List.filter_cons, ht, isTensor, devOf, Option.isSome_none, Bool.false_eq_true, if_false]
        exact ih
  · simp only [graphOf, List.mem_map, List.mem_filter] at hx
    obtain ⟨o, ⟨ho, hd⟩, rfl⟩ := hx
    cases ht : o.ty with
    | scalarTensor d => exact progOf_needs hc (hg.scalars o ho d ht)
    | tensor t => simp [ht, devOf] at hd
    | scalarNative d => simp [ht, devOf] at hd
    | shape k => simp [ht, devOf] at hd

end OnnxIR
