import Verif.Spec.NoopOps
import Verif.Model.Noop
import Verif.Props.PostProcess
import Verif.Props.ConstantShape
import Verif.Props.Reshape

/-!
# C54: a node the importer drops as a no-op returns its first input
-/

namespace OnnxIR

variable {V K E : Type}

/-! ## Specification -/

/-- The element type an annotation promises; a `Shape` is a vector of `i64`. -/
def ArgType.elem : ArgType → DType
  | .scalarTensor d => d
  | .scalarNative d => d
  | .shape _ => .i64
  | .tensor t => t.dtype

/-- The annotation is right about the shape and the element type of a value. -/
def ElemView.Fits (ev : ElemView V K E) (t : ArgType) (v : V) : Prop :=
  t.Admits (ev.shape v) ∧ ev.kind v = ev.kindOf t.elem

/-- Every annotation of a node's inputs and outputs is right whenever the node runs. -/
def TypedElems (S : Sem V) (ev : ElemView V K E) (env : Env V) (nodes : List (Node V)) : Prop :=
  ∀ p n q e1 e2, nodes = p ++ n :: q → evalNodes S env p = some e1 → evalNode S e1 n = some e2 →
    (∀ a ∈ n.inputs, ∀ v, evalArg e1 a = some (some v) → ev.Fits a.ty v) ∧
    (∀ o ∈ n.outputs, ∀ v, e2 o.name = some v → ev.Fits o.ty v)

/-- The target of the `Reshape` node is known to the importer (reshape.rs:223-237 `get_static_shape`), and its
output has the type inferred from that. -/
def ReshapeInferred (tv : TensorView V) (cmap : String → Option V) (n : Node V) : Prop :=
  ∃ a as o os target shapeTy prev, n.inputs = a :: as ∧ n.outputs = o :: os ∧
    (match as with
      | [] => attrGet n.attrs "shape" = some (.i64s target)
      | b :: _ => (b.value cmap).bind tv.i64s = some target) ∧
    Infer.reshape (Onnx.allowzero n.attrs) (some target) shapeTy prev a.ty = some o.ty

/-- The cases the test gets right, beyond what annotations promise: `Dropout` without a mask, not training;
`Reshape` with all dimensions known, or not empty and with at most one unknown dimension or a known target;
`Expand` with all dimensions known (so it is after inference, see `C54_expand_inferred`). -/
def NoopOk (ev : ElemView V K E) (tv : TensorView V) (cmap : String → Option V)
    (training : List (String × AttrVal V) → List (Option V) → Prop) (n : Node V) (x : V)
    (rest : List (Option V)) : Prop :=
  match n.ty with
  | .other "Dropout" => n.outputs.length = 1 ∧ ¬ training n.attrs rest
  | .reshape => ∀ a as p, n.inputs = a :: as → a.ty.staticShape = some p →
      none ∉ p ∨ (0 < prodShape (ev.shape x) ∧ (p.count none ≤ 1 ∨ ReshapeInferred tv cmap n))
  | .other "Expand" => ∀ a as p, n.inputs = a :: as → a.ty.staticShape = some p → none ∉ p
  | _ => True

/-- `NoopOk` whenever the node runs. -/
def NoopOkInRun (S : Sem V) (ev : ElemView V K E) (tv : TensorView V) (cmap : String → Option V)
    (training : List (String × AttrVal V) → List (Option V) → Prop) (env : Env V) (nodes : List (Node V)) (n : Node V) : Prop :=
  ∀ p q e e2 x rest, nodes = p ++ n :: q → evalNodes S env p = some e → evalNode S e n = some e2 →
    evalArgs e n.inputs = some (some x :: rest) → NoopOk ev tv cmap training n x rest

/-! ## Shapes -/

theorem PShape.Describes.unique {p : PShape} {s t : List Nat} (hs : p.Describes s) (ht : p.Describes t)
    (h : none ∉ p) : s = t := by
  induction p generalizing s t with
  | nil => cases s <;> cases t <;> simp_all [PShape.Describes]
  | cons o p ih =>
    cases s with
    | nil => simp [PShape.Describes] at hs
    | cons a s =>
      cases t with
      | nil => simp [PShape.Describes] at ht
      | cons b t =>
        simp only [List.mem_cons, not_or] at h
        simp only [PShape.Describes] at hs ht
        cases o with
        | none => exact absurd rfl h.1
        | some d => rw [← hs.1 d rfl, ← ht.1 d rfl, ih hs.2 ht.2 h.2]

/-- At most one unknown dimension, and equally many elements: the shapes are equal. -/
theorem PShape.Describes.unique_of_prod {p : PShape} {s t : List Nat} (hs : p.Describes s) (ht : p.Describes t)
    (h : p.count none ≤ 1) (hp : prodShape t = prodShape s) (hpos : 0 < prodShape s) : s = t := by
  induction p generalizing s t with
  | nil => cases s <;> cases t <;> simp_all [PShape.Describes]
  | cons o p ih =>
    cases s with
    | nil => simp [PShape.Describes] at hs
    | cons a s =>
      cases t with
      | nil => simp [PShape.Describes] at ht
      | cons b t =>
        simp only [PShape.Describes] at hs ht
        simp only [prodShape] at hp hpos
        have ha := Nat.pos_of_mul_pos_right hpos
        have hsp := Nat.pos_of_mul_pos_left hpos
        cases o with
        | none =>
          have hn : none ∉ p := by
            rw [List.count_cons_self] at h
            intro hm
            have := List.count_pos_iff.2 hm
            omega
          have := hs.2.unique ht.2 hn
          subst this
          rw [Nat.eq_of_mul_eq_mul_right hsp hp]
        | some d =>
          have h1 := hs.1 d rfl
          have h2 := ht.1 d rfl
          subst h1
          subst h2
          rw [ih hs.2 ht.2 (by simpa [List.count_cons] using h) (Nat.eq_of_mul_eq_mul_left ha hp) hsp]

theorem ownPositions_spec {k : Nat} {ps : List Int} (h : ownPositions k ps = true) {perm : List Nat}
    (hp : ps = perm.map Int.ofNat) : perm = List.range' k perm.length := by
  induction perm generalizing k ps with
  | nil => rfl
  | cons a perm ih =>
    subst hp
    simp only [List.map_cons, ownPositions, Bool.and_eq_true, beq_iff_eq] at h
    rw [List.length_cons, List.range'_succ]
    have ha : a = k := by have := h.1; simp at this; omega
    rw [ha, ← ih h.2 rfl]

theorem permShape_range (s : List Nat) : permShape s (List.range s.length) = s := map_getD_range s

theorem unpermute_range {n : Nat} {i : List Nat} (hl : i.length = n) : unpermute n (List.range n) i = i := by
  refine List.ext_getElem (by simp [unpermute, hl]) ?_
  intro k h1 h2
  have hk : k < n := by simpa [unpermute] using h1
  simp only [unpermute, List.getElem_map, List.getElem_range]
  have := List.nodup_range (n := n) |>.idxOf_getElem k (by simpa using hk)
  simp only [List.getElem_range] at this
  rw [this]
  simp [h2]

/-! ## Operators -/

theorem Onnx.SameData.eq {ev : ElemView V K E} {x y : V} (h : Onnx.SameData ev x y)
    (hs : ev.shape y = ev.shape x) : y = x := by
  refine ev.ext _ _ h.1 hs fun i hi => ?_
  rw [hs] at hi
  exact h.2 i i hi (by rw [hs]; exact hi) (by rw [hs])

theorem Onnx.Transposed.eq {ev : ElemView V K E} {x y : V}
    (h : Onnx.Transposed ev (List.range (ev.shape x).length) x y) : y = x := by
  obtain ⟨-, hk, hs, he⟩ := h
  rw [permShape_range] at hs
  refine ev.ext _ _ hk hs fun i hi => ?_
  rw [he i hi, unpermute_range]
  rw [hs] at hi
  exact hi.length

theorem Onnx.Expanded.eq {ev : ElemView V K E} {target : List Nat} {x y : V} (h : Onnx.Expanded ev target x y)
    (hs : ev.shape y = ev.shape x) : y = x := by
  refine ev.ext _ _ h.2.1 hs fun i hi => ?_
  rw [h.2.2 i hi, proj_self]
  rw [← hs]; exact hi

theorem modify_zero {k : Nat} {i : List Nat} : i.modify k (· + 0) = i := by
  refine List.ext_getElem (by simp) ?_
  intro m h1 h2
  rw [List.getElem_modify]
  split <;> rfl

/-- The only part is the whole. -/
theorem Onnx.Parts.eq {ev : ElemView V K E} {k : Nat} {x y : V} {sizes : List Nat}
    (h : Onnx.Parts ev k x sizes [y]) : y = x := by
  obtain ⟨hl, hk, hp⟩ := h
  cases sizes with
  | nil => simp at hl
  | cons c cs =>
    cases cs with
    | cons _ _ => simp at hl
    | nil =>
      obtain ⟨h1, h2, h3⟩ := hp 0 y c rfl rfl
      simp only [List.sum_cons, List.sum_nil, Nat.add_zero] at hk
      have hs : ev.shape y = ev.shape x := by
        rw [h2]
        refine List.ext_getElem? fun m => ?_
        rw [List.getElem?_set]
        split
        · next hkm => subst hkm; rw [hk]; split <;> [rfl; (next hn => exact absurd (List.getElem?_eq_some_iff.1 hk).1 hn)]
        · rfl
      refine ev.ext _ _ h1 hs fun i hi => ?_
      rw [h3 i hi]
      simp only [List.take_zero, List.sum_nil]
      rw [modify_zero]

theorem padAt_zero {axes : List Nat} {pads : List Int} (h : pads.all (· == 0) = true) (off k : Nat) :
    Onnx.padAt axes pads off k = 0 := by
  unfold Onnx.padAt
  split
  · rw [List.getD_eq_getElem?_getD]
    cases hg : pads[axes.idxOf k + off]? with
    | none => rfl
    | some v =>
      have := List.all_eq_true.1 h v (List.mem_of_getElem? hg)
      simpa using this
  · rfl

theorem Onnx.Padded.eq {ev : ElemView V K E} {axes : List Nat} {pads : List Int} {x y : V}
    (h : Onnx.Padded ev axes pads x y) (h0 : pads.all (· == 0) = true) : y = x := by
  obtain ⟨-, hk, hl, hd, he⟩ := h
  have hs : ev.shape y = ev.shape x := by
    refine List.ext_getElem hl fun k h1 h2 => ?_
    have := hd k _ _ (List.getElem?_eq_getElem h2) (List.getElem?_eq_getElem h1)
    rw [padAt_zero h0, padAt_zero h0] at this
    omega
  refine ev.ext _ _ hk hs fun i hi => ?_
  refine he i i (by rw [← hs]; exact hi) hi fun k a b ha hb => ?_
  rw [padAt_zero h0]
  rw [ha] at hb
  cases hb
  omega

/-! ## The theorem -/

/-- **C54.** In every run in which the annotations are right, a node that passes the importer's no-op test returns
exactly its first input, whatever the input values.

Partial: in the situations excluded by `NoopOk` the test is wrong (see `C54_mask_lost`, `C54_training_dropped`,
`C18_noop_runtime_wrong`), and inference itself can annotate a cast wrongly
(`C54_shape_cast_wrong`). -/
theorem C54_noop_returns_input_partial {S : Sem V} {ev : ElemView V K E} {tv : TensorView V}
    {training : List (String × AttrVal V) → List (Option V) → Prop} (hS : NoopSem S ev tv training) {env : Env V}
    {nodes : List (Node V)} {cmap : String → Option V} (htab : TableOk S env nodes cmap)
    (hty : TypedElems S ev env nodes) {n : Node V} (hnoop : isNoop tv cmap n = some true)
    (hok : NoopOkInRun S ev tv cmap training env nodes n) : ReturnsFirstInRun S env nodes n := by
  intro p q e x rest ys hn hp hxs hys hl
  -- the node's step
  have hstep : evalNode S e n = some (bindAll e n.outNames ys) := by
    unfold evalNode
    simp only [hxs, hys, if_pos hl]
  have hok := hok p q e _ x rest hn hp hstep hxs
  obtain ⟨hti, hto⟩ := hty p n q e _ hn hp hstep
  obtain ⟨a, as, hin⟩ : ∃ a as, n.inputs = a :: as := by
    cases hi : n.inputs with
    | nil => rw [hi] at hxs; simp [evalArgs] at hxs
    | cons a as => exact ⟨a, as, rfl⟩
  have hx : ev.Fits a.ty x := by
    obtain ⟨v, hv, hea⟩ := evalArgs_get hxs (i := 0) (a := a) (by rw [hin]; rfl)
    simp only [List.getElem?_cons_zero, Option.some.injEq] at hv
    subst hv
    exact hti a (by rw [hin]; exact List.mem_cons_self) x hea
  have hy : ∀ y o os, ys = [y] → n.outputs = o :: os → ev.Fits o.ty y := by
    intro y o os hys' ho
    subst hys'
    rw [ho] at hl
    have hos : os = [] := by simpa using hl
    subst hos
    refine hto o (by rw [ho]; exact List.mem_cons_self) y ?_
    simp [Node.outNames, ho, bindAll]
  unfold isNoop at hnoop
  unfold NoopOk at hok
  split at hnoop
  · next ht => rw [ht] at hys; exact hS.identity _ _ _ _ _ hys
  · next ht =>
    rw [ht] at hys hok
    have h1 := hS.dropout _ _ _ _ _ hys hok.2
    rw [hok.1] at hl
    match ys, hl with
    | [y], _ => simp only [List.head?_cons, Option.some.injEq] at h1; rw [h1]
  · next ht =>
    rw [ht] at hys
    obtain ⟨k, sizes, hparts⟩ := hS.split _ _ _ _ _ hys
    simp only [Option.some.injEq, beq_iff_eq] at hnoop
    rw [hnoop] at hl
    match ys, hl with
    | [y], _ => rw [hparts.eq]
  · next ht =>
    rw [ht] at hys
    obtain ⟨k, sizes, vs, y, hvs, rfl, hparts⟩ := hS.concat _ _ _ _ hys
    simp only [Option.some.injEq, beq_iff_eq] at hnoop
    have hlen : rest = [] := by
      have h1 := evalArgs_length hxs
      rw [hnoop] at h1
      simpa using h1
    subst hlen
    match vs, hvs with
    | [v], hvs =>
      simp only [List.map_cons, List.map_nil, List.cons.injEq, Option.some.injEq, and_true] at hvs
      subst hvs
      rw [← hparts.eq]
  · next ht =>
    rw [ht] at hys
    obtain ⟨perm, y, rfl, htr, hperm⟩ := hS.transpose _ _ _ _ _ hys
    unfold transposeNoop at hnoop
    rw [hin] at hnoop
    simp only at hnoop
    have hlen := htr.1.length
    have hrange : perm = List.range (ev.shape x).length := by
      split at hnoop
      · next t hta =>
        rw [hta] at hx
        unfold attrI64s at hnoop
        split at hnoop
        · next h0 =>
          rw [h0] at hperm
          simp only [Option.map_some, Option.some.injEq, decide_eq_true_eq] at hnoop
          simp only at hperm
          have hr := hx.1.1
          rw [hperm]
          match hm : (ev.shape x).length with
          | 0 => rfl
          | 1 => rfl
          | k + 2 => omega
        · next ps h0 =>
          rw [h0] at hperm
          simp only [Option.map_some, Option.some.injEq] at hnoop
          simp only at hperm
          rw [ownPositions_spec hnoop hperm, hlen, List.range_eq_range']
        · simp at hnoop
      · simp at hnoop
    rw [hrange] at htr
    rw [htr.eq]
  · next ht =>
    rw [ht] at hys
    obtain ⟨ax, y, rfl, hax, hsh, hdata⟩ := hS.flatten _ _ _ _ _ hys
    unfold flattenNoop at hnoop
    rw [hin, hax] at hnoop
    simp only at hnoop
    split at hnoop
    · next t hta =>
      rw [hta] at hx
      split at hnoop
      · simp at hnoop
      · next hr =>
        simp only [ne_eq, Decidable.not_not] at hr
        simp only [Option.map_some, Option.some.injEq, Bool.or_eq_true, beq_iff_eq, hr] at hnoop
        have hr2 := hx.1.1
        rw [hr] at hr2
        have hs : ev.shape y = ev.shape x := by
          match hsx : ev.shape x, hr2 with
          | [d, c], _ =>
            rw [hsx] at hsh
            unfold Onnx.flatten at hsh
            rw [if_pos (by rcases hnoop with h | h <;> rw [h] <;> simp)] at hsh
            have hk : (if (ax.getD 1) < 0 then ax.getD 1 + ([d, c].length : Int) else ax.getD 1).toNat = 1 := by
              rcases hnoop with h | h <;> rw [h] <;> simp
            simp only [hk, Option.some.injEq] at hsh
            rw [← hsh]
            simp [prodShape]
        rw [hdata.eq hs]
    · simp at hnoop
  · next ht =>
    rw [ht] at hys hok
    obtain ⟨target, y, rfl, htg, hre, hdata⟩ := hS.reshape _ _ _ _ _ hys
    unfold reshapeNodeNoop at hnoop
    rw [hin] at hnoop
    cases ho : n.outputs with
    | nil => rw [ho] at hl; simp at hl
    | cons o os =>
      rw [ho] at hnoop
      have hyf := hy y o os rfl ho
      simp only [Option.some.injEq] at hnoop
      have hs : ev.shape y = ev.shape x := by
        unfold Infer.reshapeNoop at hnoop
        split at hnoop
        · next h1 h2 =>
          rw [h1] at hx
          rw [h2] at hyf
          rw [hx.1, hyf.1]
        · next t u h1 h2 =>
          split at hnoop
          · next p1 p2 hp1 hp2 =>
            have hpe : p1 = p2 := by simpa using hnoop
            subst hpe
            have hstat : a.ty.staticShape = some p1 := by rw [h1]; exact hp1
            have hnoop' : Infer.reshapeNoop (.tensor t) o.ty = true := by
              rw [h2]; simp [Infer.reshapeNoop, hp1, hp2]
            rw [h1] at hx
            rw [h2] at hyf
            rcases hok a as p1 hin hstat with h0 | ⟨hpos, h0 | h0⟩
            · exact (hx.1.2 p1 hp1).unique (hyf.1.2 p1 hp2) h0 |>.symm
            · exact ((hx.1.2 p1 hp1).unique_of_prod (hyf.1.2 p1 hp2) h0 hre.2.2 hpos).symm
            · obtain ⟨a', as', o', os', target', shapeTy, prev, hi', ho', htg', hinf⟩ := h0
              rw [hin] at hi'
              cases hi'
              rw [ho] at ho'
              cases ho'
              have hte : target' = target := by
                cases as with
                | nil =>
                  have hr : rest = [] := by
                    have h3 := evalArgs_length hxs
                    rw [hin] at h3
                    simpa using h3
                  subst hr
                  simp only at htg'
                  simpa [Onnx.reshapeTarget, htg'] using htg
                | cons b bs =>
                  obtain ⟨v, hv, hvt⟩ := Option.bind_eq_some_iff.1 htg'
                  obtain ⟨w, hw, heb⟩ := evalArgs_get hxs (i := 1) (a := b) (by rw [hin]; rfl)
                  have := Arg.value_eval (htab p (n :: q) e hn hp) hv heb
                  subst this
                  cases rest with
                  | nil => simp at hw
                  | cons r rs =>
                    simp only [List.getElem?_cons_succ, List.getElem?_cons_zero, Option.some.injEq] at hw
                    subst hw
                    simp only [Onnx.reshapeTarget] at htg
                    rw [hvt] at htg
                    exact Option.some.inj htg
              subst hte
              rw [h1] at hinf
              exact C18_noop_constant hx.1 hinf hre hnoop' hpos
          · cases hnoop
        · cases hnoop
      rw [hdata.eq hs]
  · next ht =>
    rw [ht] at hys hok
    obtain ⟨target, y, rfl, hex⟩ := hS.expand _ _ _ _ _ hys
    unfold expandNoop at hnoop
    rw [hin] at hnoop
    cases ho : n.outputs with
    | nil => rw [ho] at hl; simp at hl
    | cons o os =>
      rw [ho] at hnoop
      have hyf := hy y o os rfl ho
      simp only at hnoop
      split at hnoop
      · next t u h1 h2 =>
        split at hnoop
        · next p1 p2 hp1 hp2 =>
          have hpe : p1 = p2 := by simpa using hnoop
          subst hpe
          have hstat : a.ty.staticShape = some p1 := by rw [h1]; exact hp1
          rw [h1] at hx
          rw [h2] at hyf
          rw [hex.eq ((hx.1.2 p1 hp1).unique (hyf.1.2 p1 hp2) (hok a as p1 hin hstat)).symm]
        · simp at hnoop
      · simp at hnoop
  · next ht =>
    rw [ht] at hys
    obtain ⟨y, rfl, hs, he⟩ := hS.cast _ _ _ _ _ hys
    unfold castNoop at hnoop
    rw [hin] at hnoop
    cases ho : n.outputs with
    | nil => rw [ho] at hl; simp at hl
    | cons o os =>
      rw [ho] at hnoop
      have hyf := hy y o os rfl ho
      simp only [Option.some.injEq, beq_iff_eq] at hnoop
      have hk : ev.kind y = ev.kind x := by rw [hx.2, hyf.2, hnoop]
      rw [ev.ext y x hk hs fun i hi => he hk i (by rw [← hs]; exact hi)]
  · next ht =>
    rw [ht] at hys
    have h0 := hS.gather _ _ _ _ _ hys
    unfold gatherNoop at hnoop
    rw [hin] at hnoop
    simp only at hnoop
    split at hnoop
    · next d hd => rw [hd] at hx; exact absurd hx.1 h0
    · simp at hnoop
  · next ht =>
    rw [ht] at hys
    obtain ⟨axes, pads, y, rfl, hpo, hpad⟩ := hS.pad _ _ _ _ _ hys
    suffices h0 : pads.all (· == 0) = true by rw [hpad.eq h0]
    unfold padNoop attrI64s at hnoop
    unfold Onnx.padsOf at hpo
    cases hp1 : attrGet n.attrs "pads" with
    | some v =>
      rw [hp1] at hnoop hpo
      cases v with
      | i64s ps => simp only [Option.some.injEq] at hnoop hpo; rw [← hpo]; exact hnoop
      | _ => simp at hpo
    | none =>
      rw [hp1] at hnoop hpo
      cases hp2 : attrGet n.attrs "paddings" with
      | some v =>
        rw [hp2] at hnoop hpo
        cases v with
        | i64s ps => simp only [Option.some.injEq] at hnoop hpo; rw [← hpo]; exact hnoop
        | _ => simp at hpo
      | none =>
        rw [hp2] at hnoop hpo
        simp only [Option.some.injEq] at hnoop hpo
        unfold padInputNoop at hnoop
        cases ha1 : n.inputs[1]? with
        | none => rw [ha1] at hnoop; simp at hnoop
        | some b =>
          rw [ha1] at hnoop
          simp only [Option.bind_some] at hnoop
          split at hnoop
          · next v hv =>
            obtain ⟨w, hw, heb⟩ := evalArgs_get hxs ha1
            have := Arg.value_eval (htab p (n :: q) e hn hp) hv heb
            subst this
            have hh : rest.head?.join = some v := by
              cases rest with
              | nil => simp at hw
              | cons r rs => simp only [List.getElem?_cons_succ, List.getElem?_cons_zero, Option.some.injEq] at hw; subst hw; rfl
            rw [hh] at hpo
            simp only [Option.bind_some] at hpo
            rw [hpo] at hnoop
            exact hnoop
          · cases hnoop
  · simp at hnoop

/-- With the output type inference gives `Expand`, the test says no-op only if every dimension is known. -/
theorem C54_expand_inferred {target : Option (List Int)} {shapeTy prev : ArgType} {n : Node V} {a o : Arg V}
    {as os : List (Arg V)} (hin : n.inputs = a :: as) (ho : n.outputs = o :: os)
    (ht : Infer.expand target shapeTy prev a.ty = some o.ty) (hn : expandNoop n = some true) {p : PShape}
    (hp : a.ty.staticShape = some p) : none ∉ p := by
  unfold expandNoop at hn
  rw [hin, ho] at hn
  simp only at hn
  split at hn
  · next t u h1 h2 =>
    split at hn
    · next p1 p2 hp1 hp2 =>
      have hpe : p1 = p2 := by simpa using hn
      rw [h1] at hp
      have hpp : p = p1 := by
        have : some p1 = some p := hp1.symm.trans hp
        exact (Option.some.inj this).symm
      subst hpp
      rw [h2] at ht
      unfold Infer.expand at ht
      split at ht
      · obtain ⟨dt, -, ht⟩ := Option.bind_eq_some_iff.1 ht
        cases target with
        | some dims =>
          simp only [Option.some.injEq, ArgType.tensor.injEq] at ht
          rw [← ht] at hp2
          simp only [Option.some.injEq] at hp2
          rw [hpe, ← hp2]
          simp
        | none =>
          obtain ⟨r, -, ht⟩ := Option.map_eq_some_iff.1 ht
          simp only [ArgType.tensor.injEq] at ht
          rw [← ht] at hp2
          cases hp2
      · cases ht
    · simp at hn
  · simp at hn

/-- The importer's choice (`noopChoice`; without simplification only `Identity`), used as a predicate. -/
def droppedNoop (tv : TensorView V) (cmap : String → Option V) (simplify : Bool) (n : Node V) : Bool :=
  (noopChoice tv cmap simplify n).getD false

theorem dropped_returns_input {S : Sem V} {ev : ElemView V K E} {tv : TensorView V}
    {training : List (String × AttrVal V) → List (Option V) → Prop} (hS : NoopSem S ev tv training) {env : Env V}
    {nodes : List (Node V)} {cmap : String → Option V} (htab : TableOk S env nodes cmap)
    (hty : TypedElems S ev env nodes) {simplify : Bool} {n : Node V}
    (hnoop : droppedNoop tv cmap simplify n = true) (hok : NoopOkInRun S ev tv cmap training env nodes n) :
    ReturnsFirstInRun S env nodes n := by
  unfold droppedNoop noopChoice at hnoop
  split at hnoop
  · refine C54_noop_returns_input_partial hS htab hty ?_ hok
    cases h : isNoop tv cmap n with
    | none => rw [h] at hnoop; cases hnoop
    | some b => rw [h] at hnoop; exact congrArg some hnoop
  · simp only [Option.getD_some, beq_iff_eq] at hnoop
    intro p q e x rest ys hn hp hxs hys hl
    rw [hnoop] at hys
    exact hS.identity _ _ _ _ _ hys

/-- **C54 with C11.** Removing the nodes the importer takes for no-ops, with or without simplification, does not
change what the graph returns. -/
theorem C54_elimination_preserves_outputs_partial {S : Sem V} {ev : ElemView V K E} {tv : TensorView V}
    {training : List (String × AttrVal V) → List (Option V) → Prop} (hS : NoopSem S ev tv training) {env : Env V}
    {nodes : List (Node V)} {outs : List (Arg V)} {cmap : String → Option V} {simplify : Bool}
    {omap : List (String × Nat × Nat)} {order : List (String × String)} (hssa : SSA env nodes) (hwf : WfNames nodes)
    (hlab : ∀ n ∈ nodes, ∀ a ∈ n.inputs, ∀ v, a.src = .static v → a.name = "")
    (hwfo : ∀ a ∈ outs, WfArg a ∧ ∀ v, a.src = .static v → a.name = "")
    (houtsrc : ∀ n ∈ nodes, ∀ o ∈ n.outputs, o.src = .dynamic ∨ o.src = .constant)
    (htab : TableOk S env nodes cmap) (hty : TypedElems S ev env nodes)
    (hnoop : ∀ n ∈ nodes, droppedNoop tv cmap simplify n = true → NoopOkInRun S ev tv cmap training env nodes n ∧
      ∀ i is, n.inputs = i :: is → i.src = .dynamic ∨ i.src = .constant)
    (horig : OriginalNamesUnused (droppedNoop tv cmap simplify) omap env nodes)
    (horder : ∀ k v, (k, v) ∈ order ↔ mapGet (planNoop (droppedNoop tv cmap simplify) omap nodes).rewire k = some v)
    {r : List (Option V)} (h : evalGraph S env nodes outs = some r) :
    evalGraph S env (applyNoop (planNoop (droppedNoop tv cmap simplify) omap nodes) order nodes outs).1
      (applyNoop (planNoop (droppedNoop tv cmap simplify) omap nodes) order nodes outs).2 = some r :=
  C11_noop_elimination_in_run S env nodes outs _ omap order hssa hwf hlab hwfo houtsrc
    (fun n hn hd => ⟨dropped_returns_input hS htab hty hd (hnoop n hn hd).1, (hnoop n hn hd).2⟩) horig horder r h

end OnnxIR
