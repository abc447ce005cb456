import Verif.Props.ConstantShapeCases
import Verif.Props.ConstantFoldCases

/-!
# C07, C08: an argument marked constant has a value

Folding passes mark the readers of a folded value as constant, and later passes read the value of a
marked argument from the constant table. Evaluation cannot see the marks, so they get their own
theorems: after a pass every marked argument has an entry in the new table, and nothing but the
results of replaced nodes was marked.
-/

namespace OnnxIR

variable {V : Type}

/-- Every argument that is read and marked constant has an entry in the constant table. -/
def MarksResolve (cmap : String → Option V) (nodes : List (Node V)) (outs : List (Arg V)) : Prop :=
  (∀ n ∈ nodes, ∀ a ∈ n.inputs, a.src = .constant → (cmap a.name).isSome) ∧
    ∀ a ∈ outs, a.src = .constant → (cmap a.name).isSome

theorem extendTable_isSome {cmap : String → Option V} {news : List (String × V)} {x : String}
    (h : x ∈ news.map Prod.fst ∨ (cmap x).isSome) : (extendTable cmap news x).isSome := by
  unfold extendTable
  split
  · rfl
  · rename_i hn
    rcases h with h | h
    · exfalso
      have : ∀ l : List (String × V), mapGet l x = none → x ∉ l.map Prod.fst := by
        intro l
        induction l with
        | nil => simp
        | cons p ps ih =>
          intro hp
          simp only [mapGet] at hp
          split at hp
          · cases hp
          · rename_i hne
            simp only [List.map_cons, List.mem_cons, not_or]
            exact ⟨fun e => hne (by simp [e]), ih hp⟩
      exact this _ hn (by simpa using h)
    · exact h

theorem markConstant_resolve {cmap : String → Option V} {consts : List String} {a : Arg V}
    (hc : ∀ x ∈ consts, (cmap x).isSome) (ha : a.src = .constant → (cmap a.name).isSome)
    (h : (markConstant consts a).src = .constant) : (cmap (markConstant consts a).name).isSome := by
  unfold markConstant at h ⊢
  split
  · split
    · rename_i hm
      exact hc _ (by simpa using hm)
    · rename_i hs hm
      simp only [hs] at h
      rw [if_neg hm] at h
      rw [hs] at h
      cases h
  · rename_i hs
    split at h
    · rename_i hd
      exact absurd hd hs
    · exact ha h

theorem updateConstantReferences_resolve {cmap : String → Option V} {consts : List String}
    {nodes : List (Node V)} {outs : List (Arg V)} (hc : ∀ x ∈ consts, (cmap x).isSome)
    (h : MarksResolve cmap nodes outs) :
    MarksResolve cmap (updateConstantReferences consts nodes outs).1
      (updateConstantReferences consts nodes outs).2 := by
  constructor
  · intro n hn a ha hs
    simp only [updateConstantReferences, List.mem_map] at hn
    obtain ⟨m, hm, rfl⟩ := hn
    simp only [markConstantNode, List.mem_map] at ha
    obtain ⟨b, hb, rfl⟩ := ha
    exact markConstant_resolve hc (h.1 m hm b hb) hs
  · intro a ha hs
    simp only [updateConstantReferences, List.mem_map] at ha
    obtain ⟨b, hb, rfl⟩ := ha
    exact markConstant_resolve hc (h.2 b hb) hs

theorem replaceByConstants_mem {n' : Node V} : ∀ {nodes : List (Node V)} {rs : List (Repl V)},
    n' ∈ replaceByConstants nodes rs →
      n' ∈ nodes ∨ ∃ nm o v ty, n' = makeConstantNode nm o v ty := by
  intro nodes
  induction nodes with
  | nil => intro rs h; simp [replaceByConstants] at h
  | cons n ns ih =>
    intro rs h
    cases rs with
    | nil => exact .inl (by simpa [replaceByConstants] using h)
    | cons r rs =>
      simp only [replaceByConstants, List.mem_cons] at h
      rcases h with h | h
      · split at h
        · exact .inr ⟨_, _, _, _, h⟩
        · exact .inl (by simp [h])
      · rcases ih h with h | h
        · exact .inl (List.mem_cons_of_mem _ h)
        · exact .inr h

theorem replaceByConstants_resolve {cmap : String → Option V} {nodes : List (Node V)}
    {outs : List (Arg V)} {rs : List (Repl V)} (h : MarksResolve cmap nodes outs) :
    MarksResolve cmap (replaceByConstants nodes rs) outs := by
  refine ⟨fun n hn a ha hs => ?_, h.2⟩
  rcases replaceByConstants_mem hn with hn | ⟨nm, o, v, ty, rfl⟩
  · exact h.1 n hn a ha hs
  · simp only [makeConstantNode, List.mem_singleton] at ha
    subst ha
    cases hs

theorem MarksResolve.mono {cmap cmap' : String → Option V} {nodes : List (Node V)}
    {outs : List (Arg V)} (hm : ∀ x, (cmap x).isSome → (cmap' x).isSome)
    (h : MarksResolve cmap nodes outs) : MarksResolve cmap' nodes outs :=
  ⟨fun n hn a ha hs => hm _ (h.1 n hn a ha hs), fun a ha hs => hm _ (h.2 a ha hs)⟩

/-- **C07**: after folding shapes, every argument marked constant has an entry in the constant table, if
that was so before. -/
theorem C07_marks_resolve {tv : TensorView V} {cmap cmap' : String → Option V} {nodes nodes' : List (Node V)}
    {outs outs' : List (Arg V)} (h : MarksResolve cmap nodes outs)
    (hrun : simplifyConstantShape tv cmap nodes outs = some (nodes', outs', cmap')) :
    MarksResolve cmap' nodes' outs' := by
  unfold simplifyConstantShape at hrun
  simp only at hrun
  split at hrun
  · cases hrun
  · rename_i r1 h1
    split at hrun
    · cases hrun
    · rename_i r2 h2
      simp only [Option.some.injEq, Prod.mk.injEq] at hrun
      obtain ⟨rfl, rfl, rfl⟩ := hrun
      apply updateConstantReferences_resolve
      · intro x hx
        simp only [List.map_append, List.mem_append] at hx
        rcases hx with hx | hx
        · exact extendTable_isSome (.inr (extendTable_isSome (.inl hx)))
        · exact extendTable_isSome (.inl hx)
      · exact (replaceByConstants_resolve (replaceByConstants_resolve h)).mono fun x hx =>
          extendTable_isSome (.inr (extendTable_isSome (.inr hx)))

/-- **C08**: after constant folding, every argument marked constant has an entry in the constant table,
if that was so before. -/
theorem C08_marks_resolve {A B : Type} {fo : FloatOps A B} {cmap cmap' : String → Option (CVal A B)}
    {nodes nodes' : List (Node (CVal A B))} {outs outs' : List (Arg (CVal A B))}
    (h : MarksResolve cmap nodes outs)
    (hrun : foldConstants fo cmap nodes outs = some (nodes', outs', cmap')) :
    MarksResolve cmap' nodes' outs' := by
  unfold foldConstants at hrun
  split at hrun
  · cases hrun
  · rename_i rs h1
    simp only [Option.some.injEq, Prod.mk.injEq] at hrun
    obtain ⟨rfl, rfl, rfl⟩ := hrun
    apply updateConstantReferences_resolve
    · exact fun x hx => extendTable_isSome (.inl hx)
    · exact (replaceByConstants_resolve h).mono fun x hx => extendTable_isSome (.inr hx)

/-- Something is marked: in the sample run of C08 a reader of a folded value is. -/
example : MarksResolve nTable foldNodes foldOuts ∧
    (match foldConstants intFloatOps nTable foldNodes foldOuts with
      | some (ns, _, cmap) => ns.any fun n => n.inputs.any fun a =>
          (match a.src with | .constant => true | _ => false) && (cmap a.name).isSome
      | none => false) = true :=
  ⟨⟨by simp [foldNodes, nconst, narg], by simp [foldOuts, narg]⟩, by decide +kernel⟩

end OnnxIR
