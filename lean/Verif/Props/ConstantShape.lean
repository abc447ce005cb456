import Verif.Lemmas.Replace
import Verif.Spec.ShapeOps
import Verif.Spec.Typing

/-!
# C07: folding `Shape -> Gather` and `Shape -> Slice` into constants
-/

namespace OnnxIR

variable {V : Type}

/-! ## Specification -/

/-- The optional `axes`/`steps` inputs of `Slice`: absent inputs take the default. -/
def optionalI64s (tv : TensorView V) (x : Option (Option V)) (dflt : List Int) :
    Option (List Int) :=
  match x with
  | none => some dflt
  | some none => some dflt
  | some (some v) => tv.i64s v

/-- The operators involved mean what ONNX says, on integer vectors. -/
structure ShapeSem (S : Sem V) (tv : TensorView V) : Prop where
  /-- A `Constant` node returns the value embedded in it. -/
  constOp : ∀ nm v, S nm .constant [] [some v] = some [v]
  /-- Building a tensor and looking into it agree. -/
  shape_mk : ∀ s l, l.length = prodShape s → tv.shape (tv.mkI64 s l) = s
  /-- A tensor has as many elements as its shape says. -/
  size : ∀ v is, tv.i64s v = some is → is.length = prodShape (tv.shape v)
  /-- The scalar reading of a tensor is its first element. -/
  scalar : ∀ v i is, tv.scalarI64 v = some i → tv.i64s v = some is → is.head? = some i
  /-- `Shape` returns the dimensions of its input between `start` and `end`. -/
  shapeOp : ∀ nm attrs xs ys, S nm .shape attrs xs = some ys →
    ∃ x st en, xs = [some x] ∧ attrI64 attrs "start" = some st ∧ attrI64 attrs "end" = some en ∧
      let l := onnxShape (st.getD 0) en (tv.shape x)
      ys = [tv.mkI64 [l.length] l]
  /-- `Gather` on axis 0 of a vector looks every index up. -/
  gatherOp : ∀ nm attrs l xs ys, attrI64 attrs "axis" = some none ∨ attrI64 attrs "axis" = some (some 0) →
    S nm .gather attrs (some (tv.mkI64 [l.length] l) :: xs) = some ys →
    ∃ idx is ds, xs = [some idx] ∧ tv.i64s idx = some is ∧
      collect (onnxGather1 l) is = some ds ∧ ys = [tv.mkI64 (tv.shape idx) ds]
  /-- `Slice` of a vector; a repeated axis is not allowed, so there is at most one triple. -/
  sliceOp : ∀ nm attrs l xs ys,
    S nm .slice attrs (some (tv.mkI64 [l.length] l) :: xs) = some ys →
    ∃ st en rest ss es axes steps, xs = some st :: some en :: rest ∧
      tv.i64s st = some ss ∧ tv.i64s en = some es ∧ es.length = ss.length ∧
      optionalI64s tv rest[0]? ((List.range ss.length).map Int.ofNat) = some axes ∧
      optionalI64s tv rest[1]? (List.replicate ss.length 1) = some steps ∧
      axes.length = ss.length ∧ steps.length = ss.length ∧ axes.Nodup ∧
      ∀ s e t, ss = [s] → es = [e] → steps = [t] → axes = [0] →
        ys = [tv.mkI64 [(onnxSlice1 l s e t).length] (onnxSlice1 l s e t)]

/-- Every annotation of a node's inputs and outputs is right whenever the node runs. -/
def TypedRun (S : Sem V) (tv : TensorView V) (env : Env V) (nodes : List (Node V)) : Prop :=
  ∀ p n q e1 e2, nodes = p ++ n :: q → evalNodes S env p = some e1 → evalNode S e1 n = some e2 →
    (∀ a ∈ n.inputs, ∀ v, evalArg e1 a = some (some v) → a.ty.Admits (tv.shape v)) ∧
    (∀ o ∈ n.outputs, ∀ v, e2 o.name = some v → o.ty.Admits (tv.shape v))

/-- The importer's constant table is right in every state of the run. -/
def TableOk (S : Sem V) (env : Env V) (nodes : List (Node V)) (cmap : String → Option V) : Prop :=
  ∀ p q e, nodes = p ++ q → evalNodes S env p = some e → ConstTableOk cmap e

/-- The cases in which the folding is right: no `Shape` that feeds a `Gather` has an `end`
attribute; an `end` attribute is not below minus the rank; `Slice` steps are positive. -/
structure FoldableShapes (S : Sem V) (tv : TensorView V) (env : Env V)
    (nodes : List (Node V)) : Prop where
  noEnd : ∀ g ∈ nodes, g.ty = .gather → ∀ s ∈ nodes, s.ty = .shape →
    (∃ a as, g.inputs = a :: as ∧ a.name ∈ s.outNames) → attrGet s.attrs "end" = none
  endOk : ∀ s ∈ nodes, s.ty = .shape → ∀ e, attrI64 s.attrs "end" = some (some e) →
    ∀ a ∈ s.inputs, ∀ dims, a.ty.staticShapeKnown = some dims → -(dims.length : Int) ≤ e
  stepPos : ∀ p n q e1, nodes = p ++ n :: q → n.ty = .slice → evalNodes S env p = some e1 →
    ∀ a, n.inputs[4]? = some a → ∀ v, evalArg e1 a = some (some v) →
    ∀ ts, tv.i64s v = some ts → ∀ t ∈ ts, 0 < t

/-! ## Lists -/

theorem onnxShape_from {start : Int} {dims : List Nat}
    (h : (if start < 0 then start + (dims.length : Int) else start).toNat ≤ dims.length) :
    onnxShape start none dims =
      (dims.drop (if start < 0 then start + (dims.length : Int) else start).toNat).map Int.ofNat := by
  unfold onnxShape
  have h2 : (clampInt 0 (dims.length : Int) (fromBack dims.length (Option.none.getD dims.length))).toNat
      = dims.length := by
    have : ¬ ((dims.length : Int) < 0) := by omega
    simp [clampInt, fromBack, this]
  have h1 : (clampInt 0 (dims.length : Int) (fromBack dims.length start)).toNat =
      (if start < 0 then start + (dims.length : Int) else start).toNat := by
    unfold clampInt fromBack
    split <;> split <;> (try split) <;> simp_all <;> omega
  simp only [h2, h1]
  congr 1
  rw [List.take_of_length_le]
  simp

theorem onnxShape_range {start : Int} {stop : Option Int} {dims : List Nat}
    (hstop : ∀ e, stop = some e → -(dims.length : Int) ≤ e) :
    onnxShape start stop dims =
      (let s := (if start < 0 then start + (dims.length : Int) else start).toNat
       let e0 : Int := stop.getD dims.length
       let e1 : Int := if e0 < 0 then e0 + (dims.length : Int) else e0
       let e := if e1 < 0 then dims.length else min e1.toNat dims.length
       if e ≤ s then [] else ((dims.drop s).take (e - s)).map Int.ofNat) := by
  have he0 : -(dims.length : Int) ≤ stop.getD dims.length := by
    cases stop with
    | none => simp only [Option.getD_none]; omega
    | some e => exact hstop e rfl
  have h2 : (clampInt 0 (dims.length : Int) (fromBack dims.length (stop.getD dims.length))).toNat
      = (let e0 : Int := stop.getD dims.length
         let e1 : Int := if e0 < 0 then e0 + (dims.length : Int) else e0
         if e1 < 0 then dims.length else min e1.toNat dims.length) := by
    generalize stop.getD (dims.length : Int) = e0 at *
    unfold clampInt fromBack
    simp only
    split <;> split <;> (try split) <;> omega
  unfold onnxShape
  simp only [h2]
  generalize (if (if stop.getD (dims.length : Int) < 0 then stop.getD (dims.length : Int) + (dims.length : Int)
    else stop.getD (dims.length : Int)) < 0 then dims.length
    else min ((if stop.getD (dims.length : Int) < 0 then stop.getD (dims.length : Int) + (dims.length : Int)
    else stop.getD (dims.length : Int)).toNat) dims.length) = e
  have h1 : (clampInt 0 (dims.length : Int) (fromBack dims.length start)).toNat =
      min ((if start < 0 then start + (dims.length : Int) else start).toNat) dims.length := by
    unfold clampInt fromBack
    split <;> split <;> (try split) <;> omega
  rw [h1]
  generalize (if start < 0 then start + (dims.length : Int) else start).toNat = s
  by_cases hs : s ≤ dims.length
  · rw [Nat.min_eq_left hs]
    split
    · next h => simp [Nat.sub_eq_zero_of_le h]
    · rfl
  · rw [Nat.min_eq_right (by omega)]
    rw [List.drop_eq_nil_of_le (Nat.le_refl _), List.drop_eq_nil_of_le (by omega)]
    simp

theorem stepUp_eq {vals : List Int} {step : Nat} (hs : 0 < step) :
    ∀ (k i e : Nat), e - i ≤ k →
      stepUp vals step i e = (slicePositions step e i).filterMap fun j => vals[j.toNat]? := by
  intro k
  induction k with
  | zero =>
    intro i e h
    rw [stepUp, slicePositions]
    have : ¬ i < e := by omega
    have h2 : ¬ (0 < step ∧ i < e) := by omega
    have h3 : ¬ ((0 < (step : Int) ∧ (i : Int) < e) ∨ ((step : Int) < 0 ∧ (e : Int) < i)) := by omega
    rw [dif_neg h2, dif_neg h3]; rfl
  | succ k ih =>
    intro i e h
    rw [stepUp, slicePositions]
    by_cases hie : i < e
    · have h2 : 0 < step ∧ i < e := ⟨hs, hie⟩
      have h3 : (0 < (step : Int) ∧ (i : Int) < e) ∨ ((step : Int) < 0 ∧ (e : Int) < i) := by omega
      simp only [h2, h3, dif_pos]
      rw [ih (i + step) e (by omega)]
      simp only [List.filterMap_cons, Int.toNat_natCast, Int.natCast_add]
      cases vals[i]? <;> simp
    · have h2 : ¬ (0 < step ∧ i < e) := by omega
      have h3 : ¬ ((0 < (step : Int) ∧ (i : Int) < e) ∨ ((step : Int) < 0 ∧ (e : Int) < i)) := by omega
      rw [dif_neg h2, dif_neg h3]; rfl

theorem applyShapeSlice_pos {vals : List Int} {s e t : Int} (ht : 0 < t) {l : List Int}
    (h : applyShapeSlice vals s e t = some (some l)) : l = onnxSlice1 vals s e t := by
  unfold applyShapeSlice at h
  have h0 : ¬ t = 0 := by omega
  simp only [h0, ht, if_false, if_true, Option.some.injEq] at h
  subst h
  unfold onnxSlice1
  simp only [ht, if_true]
  rw [stepUp_eq (by omega) _ _ _ (Nat.le_refl _)]
  have hcl : ∀ x : Int, ((if (if x < 0 then x + (vals.length : Int) else x) < 0 then 0
      else if (vals.length : Int) < (if x < 0 then x + (vals.length : Int) else x)
        then (vals.length : Int) else (if x < 0 then x + (vals.length : Int) else x)).toNat : Int) =
      clampInt 0 vals.length (fromBack vals.length x) := by
    intro x
    unfold clampInt fromBack
    split <;> split <;> (try split) <;> omega
  rw [hcl, hcl]
  have : ((t.toNat : Nat) : Int) = t := by omega
  rw [this]

/-! ## One folded node -/

theorem Arg.value_eval {cmap : String → Option V} {e : Env V} (hc : ConstTableOk cmap e)
    {a : Arg V} {v : V} (hv : a.value cmap = some v) {w : Option V} (hw : evalArg e a = some w) :
    w = some v := by
  unfold Arg.value at hv
  unfold evalArg at hw
  cases hs : a.src with
  | static u => simp [hs] at hv hw; rw [← hv, ← hw]
  | constant =>
    simp only [hs] at hv hw
    cases hn : e a.name with
    | none => simp [hn] at hw
    | some u => simp [hn] at hw; rw [← hw, hc _ _ _ hv hn]
  | dynamic => simp [hs] at hv
  | optional => simp [hs] at hv

theorem dimAt_gather {dims : List Nat} {st : Option Int} {start : Nat}
    (hst : start = (let s : Int := st.getD 0
      (if s < 0 then s + (dims.length : Int) else s).toNat))
    (hle : start ≤ dims.length) {iv : Int} {d : Int}
    (hd : dimAt dims start iv = some d) :
    onnxGather1 (onnxShape (st.getD 0) none dims) iv = some d := by
  simp only at hst
  rw [onnxShape_from (by rw [← hst]; exact hle), ← hst]
  unfold dimAt at hd
  by_cases hb : (if iv < 0 then iv + ((dims.length - start : Nat) : Int) else iv) < 0 ∨
      dims.length - start ≤ (if iv < 0 then iv + ((dims.length - start : Nat) : Int) else iv).toNat
  · rw [if_pos hb] at hd; cases hd
  · simp only [hb, if_false] at hd
    obtain ⟨k, hk, rfl⟩ := Option.map_eq_some_iff.1 hd
    unfold onnxGather1 fromBack
    have hlen : ((dims.drop start).map Int.ofNat).length = dims.length - start := by simp
    rw [hlen]
    have h1 : -((dims.length - start : Nat) : Int) ≤ iv ∧ iv < ((dims.length - start : Nat) : Int) := by
      split at hb <;> omega
    simp only [h1, and_self, if_true]
    rw [List.getElem?_map, List.getElem?_drop, hk]
    rfl

theorem gatherDecision_correct {S : Sem V} {tv : TensorView V} (hS : ShapeSem S tv)
    {cmap : String → Option V} {env : Env V} {nodes : List (Node V)} (hssa : SSA env nodes)
    (hwf : WfNames nodes) (htab : TableOk S env nodes cmap) (hty : TypedRun S tv env nodes)
    (hfold : FoldableShapes S tv env nodes)
    {p q : List (Node V)} {n : Node V} {e1 e2 : Env V} (hn : nodes = p ++ n :: q)
    (h1 : evalNodes S env p = some e1) (h2 : evalNode S e1 n = some e2) {v : V} {ty : ArgType}
    {o : Arg V} {os : List (Arg V)} (ho : n.outputs = o :: os)
    (hd : gatherDecision tv cmap nodes (producerMap nodes) n = some (some (v, ty))) :
    evalNode S e1 (makeConstantNode n.name o.name v ty) = some e2 := by
  have hnm : n ∈ nodes := by rw [hn]; simp
  unfold gatherDecision at hd
  split at hd
  case isFalse => simp at hd
  next hng =>
  split at hd
  · cases hd
  · cases hd
  next d hext =>
  simp only [ho, Option.some.injEq, Prod.mk.injEq] at hd
  obtain ⟨hv, rfl⟩ := hd
  unfold extractConstantShapeDim at hext
  rw [ho] at hext
  split at hext
  case h_2 => cases hext
  next o' os' data index rest hoo hins =>
  cases hoo
  split at hext
  · cases hext
  next hokty =>
  simp only [Bool.not_eq_false] at hokty
  split at hext
  · cases hext
  next axis hax =>
  split at hext
  · cases hext
  next hax0 =>
  split at hext
  · cases hext
  next sn hprod =>
  split at hext
  · cases hext
  next hsnty =>
  have hsnty : sn.ty = .shape := by simpa using hsnty
  split at hext
  · cases hext
  next x xs0 hsnin =>
  split at hext
  · cases hext
  next dims hdims =>
  split at hext
  · cases hext
  next start hstart =>
  split at hext
  · cases hext
  next iv hiv =>
  split at hext
  · cases hext
  next hle =>
  simp only [Nat.not_lt] at hle
  obtain ⟨hsnm, hsnx⟩ := producerOf_some hprod
  -- the run of the Gather
  obtain ⟨xs, ys, hxs, hys, hl, he2⟩ := evalNode_some h2
  rw [hins] at hxs
  obtain ⟨wd, ws, hwd, hws, rfl⟩ := evalArgs_cons hxs
  obtain ⟨wi, ws', hwi, hws', rfl⟩ := evalArgs_cons hws
  have hreads : data.reads := hwf.reads hnm hsnm (by rw [hins]; simp) hsnx
  obtain ⟨w, hw, rfl⟩ := evalArg_produced hwd hreads
  -- the run of the Shape
  subst hn
  obtain ⟨p1, p2, f1, f2, us, zs, hp, hf1, hf2, hfw, hus, hzs, hzl, hfe⟩ :=
    produced_value hssa h1 hw hsnm hsnx
  rw [hsnty] at hzs
  obtain ⟨xv, st, en, rfl, hst, hen, hz⟩ := hS.shapeOp _ _ _ _ hzs
  simp only at hz
  subst hz
  have hwv := bindAll_single hzl hsnx (hfe ▸ hfw)
  rw [hsnin] at hus
  obtain ⟨u, us', hu, hus', hueq⟩ := evalArgs_cons hus
  simp only [List.cons.injEq] at hueq
  obtain ⟨rfl, hnil⟩ := hueq
  -- static shape = run-time shape
  have hdimsv : tv.shape xv = dims := by
    have := (hty p1 sn (p2 ++ n :: q) f1 f2 (by rw [hp]; simp) hf1 hf2).1 x (by simp [hsnin]) xv hu
    exact ArgType.admits_known this hdims
  have hnoend : en = none := by
    have := hfold.noEnd n hnm hng.1 sn hsnm hsnty ⟨data, _, hins, hsnx⟩
    unfold attrI64 at hen
    rw [this] at hen
    simpa using hen.symm
  subst hnoend
  rw [hdimsv] at hwv
  subst hwv
  -- the Gather law
  rw [hng.1] at hys
  have haxis : attrI64 n.attrs "axis" = some none ∨ attrI64 n.attrs "axis" = some (some 0) := by
    rw [hax]
    cases axis with
    | none => exact Or.inl rfl
    | some k =>
      right
      simp at hax0
      rw [hax0]
  obtain ⟨idx, is, ds, hxeq, his, hds, rfl⟩ := hS.gatherOp _ _ _ _ _ haxis hys
  simp only [List.cons.injEq] at hxeq
  obtain ⟨rfl, rfl⟩ := hxeq
  obtain ⟨iv0, hivv, hivs⟩ := Option.bind_eq_some_iff.1 hiv
  have hidx := Arg.value_eval (htab p (n :: q) e1 rfl h1) hivv hwi
  simp only [Option.some.injEq] at hidx
  subst hidx
  have hhead := hS.scalar _ _ _ hivs his
  -- shape of the result
  have hons : os = [] := by
    rw [ho] at hl
    cases os with
    | nil => rfl
    | cons => simp at hl
  subst hons
  have hlen : ds.length = prodShape (tv.shape idx) := by
    rw [collect_length hds, hS.size _ _ his]
  have hout : e2 o.name = some (tv.mkI64 (tv.shape idx) ds) := by
    rw [he2]; simp [Node.outNames, ho, bindAll]
  have hadm := (hty p n q e1 e2 rfl h1 h2).2 o (by simp [ho]) _ hout
  rw [hS.shape_mk _ _ hlen] at hadm
  have hg : onnxGather1 (onnxShape (st.getD 0) none dims) iv = some d := by
    refine dimAt_gather (start := start) ?_ hle ?_
    · unfold shapeStart at hstart
      rw [hst] at hstart
      simpa using hstart.symm
    · simpa using hext
  have hone : prodShape (tv.shape idx) = 1 := by
    cases hoty : o.ty with
    | scalarNative dt => rw [hoty] at hadm; simp only [ArgType.Admits] at hadm; rw [hadm]; rfl
    | shape k =>
      rw [hoty] at hadm hokty
      simp only [ArgType.Admits] at hadm
      simp [dimOutputOk] at hokty
      rw [hadm, hokty]; rfl
    | scalarTensor dt => rw [hoty] at hokty; simp [dimOutputOk] at hokty
    | tensor t => rw [hoty] at hokty; simp [dimOutputOk] at hokty
  have hds1 : ds = [d] := by
    have hisl : is.length = 1 := by rw [hS.size _ _ his, hone]
    match is, hisl with
    | [i], _ =>
      simp at hhead
      subst hhead
      simp only [collect, hg, Option.some.injEq] at hds
      exact hds.symm
  subst hds1
  have hvv : v = tv.mkI64 (tv.shape idx) [d] := by
    rw [← hv]
    unfold shapeConstant
    cases hoty : o.ty with
    | scalarNative dt =>
      rw [hoty] at hadm; simp only [ArgType.Admits] at hadm; simp [hadm]
    | shape k =>
      rw [hoty] at hadm hokty
      simp only [ArgType.Admits] at hadm
      simp [dimOutputOk] at hokty
      simp [hadm, hokty]
    | scalarTensor dt => rw [hoty] at hokty; simp [dimOutputOk] at hokty
    | tensor t => rw [hoty] at hokty; simp [dimOutputOk] at hokty
  subst hvv
  exact evalNode_makeConstant hS.constOp ho (by rw [hins]; exact hxs) (by rw [hng.1]; exact hys) h2

theorem evalArgs_get {e : Env V} : ∀ {as : List (Arg V)} {xs}, evalArgs e as = some xs →
    ∀ {i : Nat} {a : Arg V}, as[i]? = some a → ∃ v, xs[i]? = some v ∧ evalArg e a = some v
  | [], xs, h, i, a, ha => by simp at ha
  | b :: as, xs, h, i, a, ha => by
    obtain ⟨v, vs, hv, hvs, rfl⟩ := evalArgs_cons h
    cases i with
    | zero => simp at ha; subst ha; exact ⟨v, by simp, hv⟩
    | succ i =>
      simp at ha
      obtain ⟨u, hu, hu'⟩ := evalArgs_get hvs ha
      exact ⟨u, by simpa using hu, hu'⟩

/-- The parameters the pass reads are the ones the operator sees. -/
theorem sliceParam_eval {tv : TensorView V} {cmap : String → Option V} {e : Env V}
    (hc : ConstTableOk cmap e) {rest : List (Arg V)} {vs} (hvs : evalArgs e rest = some vs)
    {k : Nat} {dflt l : List Int} (h : sliceParam tv cmap rest[k]? dflt = some l) :
    optionalI64s tv vs[k]? dflt = some l := by
  unfold sliceParam at h
  cases hr : rest[k]? with
  | none =>
    rw [hr] at h
    have : vs[k]? = none := by
      rw [List.getElem?_eq_none_iff] at hr ⊢
      rw [evalArgs_length hvs]; exact hr
    rw [this]; exact h
  | some a =>
    rw [hr] at h
    obtain ⟨v, hv, hl⟩ := Option.bind_eq_some_iff.1 h
    obtain ⟨w, hw, hwe⟩ := evalArgs_get hvs hr
    rw [hw, Arg.value_eval hc hv hwe]
    exact hl

theorem extractFullStaticShape_some {sn : Node V} {vals : List Int}
    (h : extractFullStaticShape sn = some (some vals)) :
    ∃ x xs dims st en, sn.inputs = x :: xs ∧ x.ty.staticShapeKnown = some dims ∧
      attrI64 sn.attrs "start" = some st ∧ attrI64 sn.attrs "end" = some en ∧
      ((∀ e, en = some e → -(dims.length : Int) ≤ e) → vals = onnxShape (st.getD 0) en dims) := by
  unfold extractFullStaticShape at h
  split at h
  · cases h
  next x xs hin =>
  split at h
  · cases h
  next dims hd =>
  split at h
  case h_2 => cases h
  next start eo hst hen =>
  unfold shapeStart at hst
  obtain ⟨st, hst', rfl⟩ := Option.map_eq_some_iff.1 hst
  refine ⟨x, xs, dims, st, eo, hin, hd, hst', hen, fun hb => ?_⟩
  rw [onnxShape_range hb]
  have key : ∀ (c : Prop) [Decidable c] (a b : List Int),
      (if c then some (some a) else some (some b)) = some (some vals) →
      vals = if c then a else b := by
    intro c _ a b h
    split at h <;> simp_all
  exact key _ _ _ h

theorem sliceDecision_correct {S : Sem V} {tv : TensorView V} (hS : ShapeSem S tv)
    {cmap : String → Option V} {env : Env V} {nodes : List (Node V)} (hssa : SSA env nodes)
    (hwf : WfNames nodes) (htab : TableOk S env nodes cmap) (hty : TypedRun S tv env nodes)
    (hfold : FoldableShapes S tv env nodes)
    {p q : List (Node V)} {n : Node V} {e1 e2 : Env V} (hn : nodes = p ++ n :: q)
    (h1 : evalNodes S env p = some e1) (h2 : evalNode S e1 n = some e2) {v : V} {ty : ArgType}
    {o : Arg V} {os : List (Arg V)} (ho : n.outputs = o :: os)
    (hd : sliceDecision tv cmap nodes (producerMap nodes) n = some (some (v, ty))) :
    evalNode S e1 (makeConstantNode n.name o.name v ty) = some e2 := by
  have hnm : n ∈ nodes := by rw [hn]; simp
  unfold sliceDecision at hd
  split at hd
  case isFalse => simp at hd
  next hng =>
  split at hd
  · cases hd
  · cases hd
  next l hext =>
  simp only [ho, Option.some.injEq, Prod.mk.injEq] at hd
  obtain ⟨hv, rfl⟩ := hd
  unfold extractConstantShapeSlice at hext
  split at hext
  case h_2 => cases hext
  next data st en rest hins =>
  split at hext
  · cases hext
  next sn hprod =>
  split at hext
  · cases hext
  next hsnty =>
  have hsnty : sn.ty = .shape := by simpa using hsnty
  split at hext
  · cases hext
  · cases hext
  next vals hvals =>
  split at hext
  case h_2 => cases hext
  next starts ends hstarts hends =>
  split at hext
  · cases hext
  next hlen =>
  split at hext
  case h_2 => cases hext
  next axes steps haxes hsteps =>
  split at hext
  · cases hext
  next hlens =>
  split at hext
  · cases hext
  next haxes0 =>
  split at hext
  case h_2 => cases hext
  next s ss e es t ts =>
  obtain ⟨x, xs0, dims, sto, eno, hsnin, hdims, hsto, heno, hvalseq⟩ :=
    extractFullStaticShape_some hvals
  obtain ⟨hsnm, hsnx⟩ := producerOf_some hprod
  obtain ⟨xs, ys, hxs, hys, hl, he2⟩ := evalNode_some h2
  rw [hins] at hxs
  obtain ⟨wd, ws, hwd, hws, rfl⟩ := evalArgs_cons hxs
  obtain ⟨wst, ws', hwst, hws', rfl⟩ := evalArgs_cons hws
  obtain ⟨wen, wrest, hwen, hwrest, rfl⟩ := evalArgs_cons hws'
  have hreads : data.reads := hwf.reads hnm hsnm (by rw [hins]; simp) hsnx
  obtain ⟨w, hw, rfl⟩ := evalArg_produced hwd hreads
  subst hn
  obtain ⟨p1, p2, f1, f2, us, zs, hp, hf1, hf2, hfw, hus, hzs, hzl, hfe⟩ :=
    produced_value hssa h1 hw hsnm hsnx
  rw [hsnty] at hzs
  obtain ⟨xv, sto', eno', rfl, hst', hen', hz⟩ := hS.shapeOp _ _ _ _ hzs
  rw [hsto] at hst'; cases hst'
  rw [heno] at hen'; cases hen'
  simp only at hz
  subst hz
  have hwv := bindAll_single hzl hsnx (hfe ▸ hfw)
  rw [hsnin] at hus
  obtain ⟨u, us', hu, hus', hueq⟩ := evalArgs_cons hus
  simp only [List.cons.injEq] at hueq
  obtain ⟨rfl, hnil⟩ := hueq
  have hdimsv : tv.shape xv = dims := by
    have := (hty p1 sn (p2 ++ n :: q) f1 f2 (by rw [hp]; simp) hf1 hf2).1 x (by simp [hsnin]) xv hu
    exact ArgType.admits_known this hdims
  have hvals' := hvalseq (by
    intro e' he'
    subst he'
    exact hfold.endOk sn hsnm hsnty e' heno x (by simp [hsnin]) dims hdims)
  rw [hdimsv, ← hvals'] at hwv
  subst hwv
  rw [hng.1] at hys
  obtain ⟨st', en', rest', ss', es', axes', steps', hxeq, hss', hes', hll, hax', hstp', hla, hls,
    hnd, hres⟩ := hS.sliceOp _ _ _ _ _ hys
  simp only [List.cons.injEq] at hxeq
  obtain ⟨rfl, rfl, rfl⟩ := hxeq
  have htb := htab p (n :: q) e1 rfl h1
  obtain ⟨sv, hsv, hsv'⟩ := Option.bind_eq_some_iff.1 hstarts
  obtain ⟨ev, hev, hev'⟩ := Option.bind_eq_some_iff.1 hends
  have h3 := Arg.value_eval htb hsv hwst
  have h4 := Arg.value_eval htb hev hwen
  simp only [Option.some.injEq] at h3 h4
  subst h3; subst h4
  rw [hsv'] at hss'; cases hss'
  rw [hev'] at hes'; cases hes'
  have h5 := sliceParam_eval htb hwrest haxes
  have h6 := sliceParam_eval htb hwrest hsteps
  rw [h5] at hax'; cases hax'
  rw [h6] at hstp'; cases hstp'
  -- at most one axis
  have hone : axes = [0] := by
    match axes, hla, hnd, haxes0 with
    | [], h, _, _ => simp at h
    | [a], _, _, h => simp at h; rw [h]
    | a :: b :: r, _, h1, h2 =>
      simp at h2
      simp [h2] at h1
  have hss0 : ss = [] := by
    rw [hone] at hla
    cases ss with
    | nil => rfl
    | cons => simp at hla
  subst hss0
  have hes0 : es = [] := by
    cases es with
    | nil => rfl
    | cons => simp at hll
  subst hes0
  have hts0 : ts = [] := by
    cases ts with
    | nil => rfl
    | cons => simp at hls
  subst hts0
  have hy := hres s e t rfl rfl rfl hone
  have htpos : 0 < t := by
    unfold sliceParam at hsteps
    cases hr : rest[1]? with
    | none => rw [hr] at hsteps; simp at hsteps; omega
    | some a =>
      rw [hr] at hsteps
      obtain ⟨tv', h7, h8⟩ := Option.bind_eq_some_iff.1 hsteps
      obtain ⟨w', hw', hwe⟩ := evalArgs_get hwrest hr
      rw [Arg.value_eval htb h7 hwe] at hwe
      exact hfold.stepPos p n q e1 rfl hng.1 h1 a (by rw [hins]; simpa using hr) tv' hwe _ h8 t
        (by simp)
  have hl' : l = onnxSlice1 vals s e t := applyShapeSlice_pos htpos hext
  rw [← hl'] at hy
  have hons : os = [] := by
    rw [ho, hy] at hl
    cases os with
    | nil => rfl
    | cons => simp at hl
  subst hons
  have hvv : v = tv.mkI64 [l.length] l := by
    rw [← hv]
    simp [shapeConstant]
  subst hvv
  rw [hy] at hys
  exact evalNode_makeConstant hS.constOp ho (by rw [hins]; exact hxs) (by rw [hng.1]; exact hys) h2

/-- The tables of newly registered constants, in the order of insertion. -/
theorem mem_replacedNames : ∀ {ns : List (Node V)} {rs : List (Repl V)} {x : String} {v : V},
    (x, v) ∈ replacedNames ns rs → ∃ (i : Nat) (n : Node V) (ty : ArgType) (o : Arg V)
      (os : List (Arg V)), ns[i]? = some n ∧ rs[i]? = some (some (v, ty)) ∧
      n.outputs = o :: os ∧ o.name = x
  | [], _, x, v, h => by simp [replacedNames] at h
  | _ :: _, [], x, v, h => by simp [replacedNames] at h
  | n :: ns, r :: rs, x, v, h => by
    simp only [replacedNames, List.mem_append] at h
    rcases h with h | h
    · cases r with
      | none => simp at h
      | some vt =>
        obtain ⟨v', ty⟩ := vt
        cases ho : n.outputs with
        | nil => rw [ho] at h; simp at h
        | cons o os =>
          rw [ho] at h
          simp at h
          exact ⟨0, n, ty, o, os, by simp, by simp [h.2], ho, h.1.symm⟩
    · obtain ⟨i, m, ty, o, os, h1, h2, h3, h4⟩ := mem_replacedNames h
      exact ⟨i + 1, m, ty, o, os, by simpa using h1, by simpa using h2, h3, h4⟩

/-- Replacing nodes by constants according to decisions each of which is right about the node it
concerns: the run is unchanged and the constant table stays right. -/
theorem replace_decided {S : Sem V} {env : Env V} {nodes : List (Node V)}
    (hssa : SSA env nodes) {rs : List (Repl V)}
    (hok : ∀ p n q e1 e2 v ty o os, nodes = p ++ n :: q → rs[p.length]? = some (some (v, ty)) →
      n.outputs = o :: os → evalNodes S env p = some e1 → evalNode S e1 n = some e2 →
      evalNode S e1 (makeConstantNode n.name o.name v ty) = some e2)
    (hconst : ∀ nm v, S nm .constant [] [some v] = some [v])
    {cmap : String → Option V} (htab : TableOk S env nodes cmap) {E : Env V}
    (hE : evalNodes S env nodes = some E) :
    evalNodes S env (replaceByConstants nodes rs) = some E ∧
      TableOk S env nodes (extendTable cmap (replacedNames nodes rs)) := by
  constructor
  · refine evalNodes_pointwise (replaceByConstants_length _ _) ?_ hE
    intro p n q n' e1 e2 hn hn' h1 h2
    have hget : nodes[p.length]? = some n := by rw [hn]; simp
    rcases replaceByConstants_get hget hn' with rfl | ⟨v, ty, o, os, hr, ho, rfl⟩
    · exact h2
    · exact hok p n q e1 e2 v ty o os hn hr ho h1 h2
  · intro p q e hpq he x v w hv hw
    unfold extendTable at hv
    split at hv
    · next v' hg =>
      cases hv
      have hmem := mapGet_mem hg
      rw [List.mem_reverse] at hmem
      obtain ⟨i, n, ty, o, os, hn, hr, ho, rfl⟩ := mem_replacedNames hmem
      have hnm := List.mem_of_getElem? hn
      have hxo : o.name ∈ n.outNames := by simp [Node.outNames, ho]
      obtain ⟨p1, p2, e1, e2, hp, h1, h2, h3, _⟩ :=
        SSA.ran (p := p) (q := q) (hpq ▸ hssa) he hw (hpq ▸ hnm) hxo
      -- the position of the node
      have hi : i = p1.length := by
        obtain ⟨hlt, hne⟩ := List.getElem?_eq_some_iff.1 hn
        have hsplit : nodes = nodes.take i ++ n :: nodes.drop (i + 1) := by
          rw [← hne, ← List.drop_eq_getElem_cons hlt, List.take_append_drop]
        have hsplit2 : nodes = p1 ++ n :: (p2 ++ q) := by rw [hpq, hp]; simp
        have hnd := hssa.nodup
        have hlen : (nodes.take i).length = i := by simp; omega
        rcases Nat.lt_trichotomy i p1.length with hlt' | heq | hgt
        · exfalso
          have : n ∈ p1 := by
            have h6 : p1[i]? = some n := by
              rw [hsplit2, List.getElem?_append_left hlt'] at hn; exact hn
            exact List.mem_of_getElem? h6
          rw [hsplit2] at hnd
          simp only [List.flatMap_append, List.flatMap_cons, List.nodup_append] at hnd
          exact hnd.2.2 o.name (List.mem_flatMap.2 ⟨n, this, hxo⟩) o.name
            (List.mem_append_left _ hxo) rfl
        · exact heq
        · exfalso
          have : n ∈ nodes.take i := by
            have h6 : (nodes.take i)[p1.length]? = some n := by
              rw [List.getElem?_take_of_lt hgt, hsplit2]; simp
            exact List.mem_of_getElem? h6
          rw [hsplit] at hnd
          simp only [List.flatMap_append, List.flatMap_cons, List.nodup_append] at hnd
          exact hnd.2.2 o.name (List.mem_flatMap.2 ⟨n, this, hxo⟩) o.name
            (List.mem_append_left _ hxo) rfl
      subst hi
      have h7 := hok p1 n (p2 ++ q) e1 e2 v ty o os (by rw [hpq, hp]; simp) hr ho h1 h2
      rw [evalNode_intro (n := makeConstantNode n.name o.name v ty) (xs := [some v]) (ys := [v])
        (by simp [makeConstantNode, evalArgs, evalArg]) (hconst _ _) (by simp [makeConstantNode])] at h7
      simp only [Option.some.injEq] at h7
      rw [← h7] at h3
      simp [Node.outNames, makeConstantNode, bindAll] at h3
      exact h3.symm
    · exact htab p q e hpq he x v w hv hw

theorem producerOf_replace {nodes : List (Node V)} {rs : List (Repl V)}
    {prod : List (String × Nat)} {x : String} {sn : Node V} (hty : sn.ty ≠ .constant)
    (h : producerOf prod (replaceByConstants nodes rs) x = some sn) :
    producerOf prod nodes x = some sn := by
  unfold producerOf at h ⊢
  obtain ⟨i, hi, hsn⟩ := Option.bind_eq_some_iff.1 h
  rw [hi]
  simp only [Option.bind_some]
  have hlt : i < nodes.length := by
    have := (List.getElem?_eq_some_iff.1 hsn).1
    rwa [replaceByConstants_length] at this
  have hget : nodes[i]? = some nodes[i] := List.getElem?_eq_getElem hlt
  rcases replaceByConstants_get hget hsn with h1 | ⟨_, _, _, _, _, _, h1⟩
  · rw [hget, h1]
  · rw [h1] at hty; exact absurd rfl hty

/-- A decision of the second pass, taken on the nodes the first pass left, is the decision it
would have taken on the original nodes. -/
theorem sliceDecision_replace {tv : TensorView V} {cmap : String → Option V}
    {nodes : List (Node V)} {rs : List (Repl V)} {prod : List (String × Nat)} {n : Node V}
    {r : V × ArgType}
    (h : sliceDecision tv cmap (replaceByConstants nodes rs) prod n = some (some r)) :
    sliceDecision tv cmap nodes prod n = some (some r) := by
  unfold sliceDecision at h ⊢
  split at h
  case isFalse => simp at h
  next hc =>
  rw [if_pos hc]
  have hkey : ∀ l, extractConstantShapeSlice tv cmap n (replaceByConstants nodes rs) prod
      = some (some l) → extractConstantShapeSlice tv cmap n nodes prod = some (some l) := by
    intro l hl
    unfold extractConstantShapeSlice at hl ⊢
    split at hl
    case h_2 => cases hl
    next data st en rest hins =>
    cases hprod : producerOf prod (replaceByConstants nodes rs) data.name with
    | none => rw [hprod] at hl; simp at hl
    | some sn =>
      rw [hprod] at hl
      by_cases hty : sn.ty = .shape
      · rw [producerOf_replace (by rw [hty]; simp) hprod]; exact hl
      · simp [hty] at hl
  split at h
  · cases h
  · cases h
  next l hl => rw [hkey l hl]; exact h

theorem constantShape_run {S : Sem V} {tv : TensorView V} (hS : ShapeSem S tv) {env E : Env V}
    {nodes : List (Node V)} {cmap : String → Option V} (hssa : SSA env nodes) (hwf : WfNames nodes)
    (htab : TableOk S env nodes cmap) (hty : TypedRun S tv env nodes)
    (hfold : FoldableShapes S tv env nodes) {r1 r2 : List (Repl V)}
    (hr1 : collect (gatherDecision tv cmap nodes (producerMap nodes)) nodes = some r1)
    (hr2 : collect (sliceDecision tv (extendTable cmap (replacedNames nodes r1))
      (replaceByConstants nodes r1) (producerMap nodes)) (replaceByConstants nodes r1) = some r2)
    (hE : evalNodes S env nodes = some E) :
    evalNodes S env (replaceByConstants nodes r1) = some E ∧
      evalNodes S env (replaceByConstants (replaceByConstants nodes r1) r2) = some E := by
  have hd1 := replace_decided (rs := r1) hssa (by
    intro p n q e1 e2 v ty o os hn hr ho h1 h2
    have hget : nodes[p.length]? = some n := by rw [hn]; simp
    exact gatherDecision_correct hS hssa hwf htab hty hfold hn h1 h2 ho (collect_get hr1 hget hr))
    hS.constOp htab hE
  have htab1 := hd1.2
  have hE2 : evalNodes S env (replaceByConstants (replaceByConstants nodes r1) r2) = some E := by
    refine evalNodes_pointwise (by simp [replaceByConstants_length]) ?_ hE
    intro p n q n2 e1 e2 hn hn2 h1 h2
    have hget : nodes[p.length]? = some n := by rw [hn]; simp
    have hlt : p.length < (replaceByConstants nodes r1).length := by
      rw [replaceByConstants_length, hn]; simp
    have hget1 : (replaceByConstants nodes r1)[p.length]? =
        some (replaceByConstants nodes r1)[p.length] := List.getElem?_eq_getElem hlt
    have hn1 := replaceByConstants_get hget hget1
    rcases replaceByConstants_get hget1 hn2 with h3 | ⟨v, ty, o, os, hr, ho, h3⟩
    · rcases hn1 with h4 | ⟨v, ty, o, os, hr, ho, h4⟩
      · rw [h3, h4]; exact h2
      · rw [h3, h4]
        exact gatherDecision_correct hS hssa hwf htab hty hfold hn h1 h2 ho
          (collect_get hr1 hget hr)
    · have hdec := collect_get hr2 hget1 hr
      rcases hn1 with h4 | ⟨v', ty', o', os', _, _, h4⟩
      · rw [h4] at ho h3 hdec
        rw [h3]
        exact sliceDecision_correct hS hssa hwf htab1 hty hfold hn h1 h2 ho
          (sliceDecision_replace hdec)
      · exfalso
        rw [h4] at hdec
        simp [sliceDecision, makeConstantNode] at hdec
  exact ⟨hd1.1, hE2⟩

/-- **C07 (part).** Folding `Shape -> Gather` and `Shape -> Slice` into constants leaves every
result of the graph unchanged, provided the type annotations are right, the constant table is
right, and the shapes are `FoldableShapes`. Missing for the full claim: the cases excluded by `FoldableShapes`, where the code is
wrong (`C07_gather_ignores_end`, `C07_negative_step_drops_element`,
`C07_end_below_rank`). -/
theorem C07_constant_shape_preserves_outputs_partial (S : Sem V) (tv : TensorView V)
    (hS : ShapeSem S tv) (env : Env V) (nodes : List (Node V)) (outs : List (Arg V))
    (cmap : String → Option V) (hssa : SSA env nodes) (hwf : WfNames nodes)
    (htab : TableOk S env nodes cmap) (hty : TypedRun S tv env nodes)
    (hfold : FoldableShapes S tv env nodes)
    (nodes' : List (Node V)) (outs' : List (Arg V)) (cmap' : String → Option V)
    (hrun : simplifyConstantShape tv cmap nodes outs = some (nodes', outs', cmap'))
    (r : List (Option V)) (h : evalGraph S env nodes outs = some r) :
    evalGraph S env nodes' outs' = some r := by
  unfold evalGraph at h
  cases hE : evalNodes S env nodes with
  | none => simp [hE] at h
  | some E =>
  simp only [hE] at h
  unfold simplifyConstantShape at hrun
  simp only at hrun
  split at hrun
  · cases hrun
  next r1 hr1 =>
  split at hrun
  · cases hrun
  next r2 hr2 =>
  simp only [Option.some.injEq, Prod.mk.injEq] at hrun
  obtain ⟨hn', ho', hc'⟩ := hrun
  have hE2 := (constantShape_run hS hssa hwf htab hty hfold hr1 hr2 hE).2
  unfold evalGraph
  rw [← hn', ← ho']
  simp only [updateConstantReferences, evalNodes_markConstant, hE2, evalArgs_markConstant]
  exact h

end OnnxIR
