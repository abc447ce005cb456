import Verif.Props.CumSum
import Verif.Props.GatherND
import Verif.Props.NodeCodeMore

/-!
# C80: CumSum and ScatterElements
-/

namespace OnnxIR

open Gen Onnx

variable {erf : ℝ → ℝ} {pick : Nat → Int → Option Nat} {st : Store OVal} {opset : Nat} {n : Node OVal} {xs : List (Option OVal)} {ys : List OVal}

/-! ### CumSum -/

theorem cumSum_static {α : Type} [Inhabited α] [AddCommMonoid α] {X Z : Tensor α} {k : Int} {e r : Option Int} (hl : X.shape.length < 2 ^ 62)
    (hZ : IsCumSum X k (e.getD 0 != 0) (r.getD 0 != 0) Z) : cumSumStatic X k e r = some Z ∧ Z.shape = X.shape := by
  have hk : -(2 ^ 62 : Int) < k ∧ k < 2 ^ 62 := by
    obtain ⟨a, ha, h, -⟩ := hZ
    omega
  exact ⟨((C31_cumsum X k e r hl hk).1 Z).2 hZ, by obtain ⟨a, -, -, rfl⟩ := hZ; rfl⟩

theorem works_cumSum (hst : StoreOk st) (hm : Onnx.Meaning erf opset .cumSum n.attrs xs ys) (h : RunOf st n xs ys)
    (hs : Supported pick st opset n xs .cumSum) {prefs : OutPrefs}
    (ht : Infer.apply st opset n prefs .same = some (n.outputs.map Arg.ty)) : Works erf pick st opset n xs ys .cumSum := by
  obtain ⟨t, e, r, hts, he, hr, hcase⟩ := hm
  obtain ⟨s1, s2, s3⟩ := hs
  have hcode : ∀ {v : OVal}, xs = [some v, some (.int t)] → cumSumAxisIn st n = some (t.get []) := by
    intro v hx
    obtain ⟨a, b, hi⟩ := h.input2 hx
    obtain ⟨c, hc, hd⟩ := s2 b (by simp [hi])
    obtain ⟨rfl, -⟩ := read_ints (t := t) hst h (k := 1) (by simp [hi]) (by simp [hx]) hc
    simp [cumSumAxisIn, hi, hc, hd, hst.ints, scalar_data hts]
  rcases hcase with ⟨X, Z, hx, hZ, hy⟩ | ⟨X, Z, hx, hZ, hy⟩
  · obtain ⟨a, b, hi⟩ := h.input2 hx
    obtain ⟨o, ho, hof⟩ := h.output hy
    obtain ⟨ra, ta, hta⟩ := s1 a (by simp [hi])
    obtain ⟨hz, hsh⟩ := cumSum_static (s3 (.float X) (by simp [hx])) hZ
    refine works_one (f := cumSumOn (t.get []) e r) (a := a) (v := .float X) (by simp only [nodeCode, cumSumCode, hcode hx, (intAttr_read he).1, (intAttr_read hr).1])
      (by simp [hi]) ra (by simp [hx]) ho hy fun r' hr' => ?_
    obtain ⟨x', rfl, -, hx'⟩ := holds_float hr'
    rw [hta] at hx'
    obtain ⟨rfl, hX⟩ := tensor_dev hx'
    exact ⟨.float (.dev Z), by simp [cumSumOn, hz], fits_tensor hof (by rw [hsh]; exact hX)⟩
  · obtain ⟨a, b, hi⟩ := h.input2 hx
    obtain ⟨o, ho, hof⟩ := h.output hy
    obtain ⟨ra, ta, hta⟩ := s1 a (by simp [hi])
    have hto : o.ty = .tensor ta := (first_type (a := a) (by simp [hi]) ho rfl ht).trans hta
    obtain ⟨hz, hsh⟩ := cumSum_static (s3 (.int X) (by simp [hx])) hZ
    refine works_one (f := cumSumOn (t.get []) e r) (a := a) (v := .int X) (by simp only [nodeCode, cumSumCode, hcode hx, (intAttr_read he).1, (intAttr_read hr).1])
      (by simp [hi]) ra (by simp [hx]) ho hy fun r' hr' => ?_
    obtain ⟨x', rfl, -, hx'⟩ := holds_int hr'
    rw [hta] at hx'
    obtain ⟨rfl, hX⟩ := tensor_dev hx'
    refine ⟨.int (.dev Z), by simp [cumSumOn, hz], hof.1, ?_⟩
    have hr := hof.2
    rw [hto] at hr ⊢
    exact dev_holds hr (by rw [hsh]; exact hX)

/-! ### ScatterElements -/

theorem max_real (x u : ℝ) : max x u = if x ≤ u then u else x := by
  split
  · exact max_eq_right ‹_›
  · exact max_eq_left (le_of_not_ge ‹_›)

theorem min_real (x u : ℝ) : min x u = if u ≤ x then u else x := by
  split
  · exact min_eq_right ‹_›
  · exact min_eq_left (le_of_not_ge ‹_›)

theorem works_scatterElements (hm : Onnx.Meaning erf opset .scatterElements n.attrs xs ys) (h : RunOf st n xs ys)
    (hs : Supported pick st opset n xs .scatterElements) {prefs : OutPrefs}
    (ht : Infer.apply st opset n prefs .scatter = some (n.outputs.map Arg.ty)) : Works erf pick st opset n xs ys .scatterElements := by
  obtain ⟨I, red, axis, k, hax, hred, hcase⟩ := hm
  obtain ⟨s1, s2, s3, s4⟩ := hs
  have hcode : nodeCode erf pick st opset n .scatterElements = some ⟨[.arg 0, .arg 1, .arg 2], scatterElementsEffect pick red axis⟩ := by
    have : (n.attrs.any (fun p => ["axis", "reduction"].contains p.1 == false) || !decide (n.inputs.map Arg.name).Nodup) = false := by
      rw [Bool.or_eq_false_iff]
      refine ⟨?_, by simp [s2]⟩
      rw [List.any_eq_false]
      intro p hp
      have := s3 p hp
      simp only [List.mem_cons, List.not_mem_nil, or_false] at this
      rcases this with e | e <;> simp [e]
    simp only [nodeCode, scatterElementsCode, this, red_read hred, (intAttr_read hax).1, Bool.false_eq_true, if_false]
  have hnat : scatterNative false red = true → n.attrs.lookup "reduction" ∈ [none, some (.str "none"), some (.str "add")] := by
    intro hr
    rcases hred with ⟨e, -⟩ | e
    · simp [e]
    · rw [e]
      cases red <;> simp [scatterText, scatterNative] at hr ⊢
  have hto : ∀ {a b c o : Arg OVal}, n.inputs = [a, b, c] → n.outputs = [o] → (∃ t, a.ty = .tensor t) → ∃ t, o.ty = .tensor t := by
    rintro a b c o hi ho ⟨t, hta⟩
    simp only [Infer.apply, Infer.inTy, hi, List.getElem?_cons_zero, Option.map_some, hta, ho, List.map_cons, List.map_nil,
      Option.some.injEq, List.cons.injEq, and_true] at ht
    exact ⟨t, ht.symm⟩
  rcases hcase with ⟨X, U, Z, hx, hidx, hZ, hy⟩ | ⟨X, U, Z, hx, hidx, hZ, hy⟩
  · obtain ⟨a, b, c, hi⟩ := h.input3 hx
    obtain ⟨o, ho, hof⟩ := h.output hy
    obtain ⟨ra, ta, hta⟩ := s1 a (by simp [hi])
    obtain ⟨rb, tb, htb⟩ := s1 b (by simp [hi])
    obtain ⟨rc, tc, htc⟩ := s1 c (by simp [hi])
    refine works_three (i := 0) (j := 1) (k := 2) hcode rfl (by decide) (by simp [hi]) (by simp [hi]) (by simp [hi]) ra rb rc (by simp [hx]; rfl)
      (by simp [hx]; rfl) (by simp [hx]; rfl) ho hy fun r s t hr hs ht => ?_
    obtain ⟨x', rfl, -, hx'⟩ := holds_float hr
    obtain ⟨i', rfl, -, hi'⟩ := holds_int hs
    obtain ⟨u', rfl, -, hu'⟩ := holds_float ht
    rw [hta] at hx'; rw [htb] at hi'; rw [htc] at hu'
    obtain ⟨rfl, hX⟩ := tensor_dev hx'
    obtain ⟨rfl, -⟩ := tensor_dev hi'
    obtain ⟨rfl, -⟩ := tensor_dev hu'
    have := C63_scatter_elements_partial (isBool := false) (pick := pick) (ge := fun a b : ℝ => decide (b ≤ a)) (le := fun a b => decide (a ≤ b))
      (axis := axis) hidx nofun (fun _ x u => by simpa [scatterReal] using max_real x u)
      (fun _ x u => by simpa [scatterReal] using min_real x u) (fun hn => s4 (.float X) I _ axis k hx hax hidx (hnat hn))
      (fun _ _ x _ u _ => by simp [scatterReal]) hZ
    exact ⟨.float (.dev Z), by simp [scatterElementsEffect, this], fits_tensor hof (by rw [hZ.shape]; exact hX)⟩
  · obtain ⟨a, b, c, hi⟩ := h.input3 hx
    obtain ⟨o, ho, hof⟩ := h.output hy
    obtain ⟨ra, ta, hta⟩ := s1 a (by simp [hi])
    obtain ⟨rb, tb, htb⟩ := s1 b (by simp [hi])
    obtain ⟨rc, tc, htc⟩ := s1 c (by simp [hi])
    obtain ⟨tt, hto⟩ := hto hi ho ⟨ta, hta⟩
    refine works_three (i := 0) (j := 1) (k := 2) hcode rfl (by decide) (by simp [hi]) (by simp [hi]) (by simp [hi]) ra rb rc (by simp [hx]; rfl)
      (by simp [hx]; rfl) (by simp [hx]; rfl) ho hy fun r s t hr hs ht => ?_
    obtain ⟨x', rfl, -, hx'⟩ := holds_int hr
    obtain ⟨i', rfl, -, hi'⟩ := holds_int hs
    obtain ⟨u', rfl, -, hu'⟩ := holds_int ht
    rw [hta] at hx'; rw [htb] at hi'; rw [htc] at hu'
    obtain ⟨rfl, hX⟩ := tensor_dev hx'
    obtain ⟨rfl, -⟩ := tensor_dev hi'
    obtain ⟨rfl, -⟩ := tensor_dev hu'
    have := C63_scatter_elements_partial (isBool := false) (pick := pick) (ge := fun a b : Int => decide (b ≤ a)) (le := fun a b => decide (a ≤ b))
      (axis := axis) hidx nofun (fun _ x u => by simp only [scatterInt, decide_eq_true_eq]; split <;> omega)
      (fun _ x u => by simp only [scatterInt, decide_eq_true_eq]; split <;> omega) (fun hn => s4 (.int X) I _ axis k hx hax hidx (hnat hn))
      (fun _ _ x _ u _ => by simp [scatterInt]) hZ
    refine ⟨.int (.dev Z), by simp [scatterElementsEffect, this], hof.1, ?_⟩
    have hr := hof.2
    rw [hto] at hr ⊢
    exact dev_holds hr (by rw [hZ.shape]; exact hX)

/-! ### GatherND -/

/-- Some index into dimensions that are not empty. -/
theorem exists_inRange {s : List Nat} (h : 0 ∉ s) : ∃ i, InRange s i := by
  induction s with
  | nil => exact ⟨[], trivial⟩
  | cons d s ih =>
    simp only [List.mem_cons, not_or] at h
    obtain ⟨i, hi⟩ := ih h.2
    exact ⟨0 :: i, by omega, hi⟩

theorem gatherND_eq {α : Type} [Inhabited α] {b : Nat} {X Z : Tensor α} {I : Tensor Int} (h0 : 0 ∉ X.shape) (hZ : GatherND b X I Z) :
    Gen.gatherND b X I = some Z := by
  obtain ⟨bs, ls, ks, ss, rfl, hX, hI, hs, hel⟩ := hZ
  have hin : ∀ ib il, InRange bs ib → InRange ls il → ∀ j, j < ks.length →
      (index (ks.getD j 0) (I.get (ib ++ il ++ [j]))).isSome := by
    intro ib il h1 h2 j hj
    obtain ⟨is, his⟩ := exists_inRange (s := ss) (fun h => h0 (by simp [hX, h]))
    obtain ⟨ik, -, hk, -⟩ := hel ib il is h1 h2 his
    rw [hk j hj]; rfl
  obtain ⟨y, hy, bs', ls', ks', ss', hl, hX', hI', hs', hel'⟩ := C47_gathernd_value hX hI hin
  have hks : ls.length = ls'.length ∧ ks.length = ks'.length := by
    have e := hI.symm.trans hI'
    have e1 := congrArg List.length e
    have e2 := congrArg (fun l => l.getLast?) e
    simp only [List.length_append, List.length_singleton] at e1
    simp only [List.getLast?_append, List.getLast?_singleton, Option.some_or, Option.some.injEq] at e2
    exact ⟨by omega, e2⟩
  obtain ⟨e1, rfl⟩ := List.append_inj (hX.symm.trans hX') (by simp [hl, hks.2])
  obtain ⟨rfl, rfl⟩ := List.append_inj e1 hl.symm
  obtain ⟨e2, -⟩ := List.append_inj (hI.symm.trans hI') (by simp [hks.1])
  obtain ⟨-, rfl⟩ := List.append_inj e2 rfl
  rw [hy]
  congr 1
  refine Tensor.eq_of_get (hs'.trans hs.symm) fun i hi => ?_
  rw [hs'] at hi
  have hlen := inRange_length hi
  simp only [List.length_append] at hlen
  obtain ⟨ib, il, is, rfl, hb, hl', -⟩ : ∃ ib il is, i = ib ++ il ++ is ∧ ib.length = bs.length ∧ il.length = ls.length ∧ is.length = ss.length :=
    ⟨i.take bs.length, (i.drop bs.length).take ls.length, (i.drop bs.length).drop ls.length, by simp, by simp; omega, by simp; omega, by simp; omega⟩
  rw [inRange_append (by simp [hb, hl']), inRange_append hb.symm] at hi
  obtain ⟨⟨h1, h2⟩, h3⟩ := hi
  obtain ⟨ik, hik, hk, e⟩ := hel ib il is h1 h2 h3
  obtain ⟨ik', hik', hk', e'⟩ := hel' ib il is h1 h2 h3
  obtain rfl : ik = ik' := ext_getD (hik.trans hik'.symm) fun j hj => by
    have := (hk j (hik ▸ hj)).symm.trans (hk' j (hik ▸ hj))
    exact Option.some.inj this
  rw [e, e']

theorem works_gatherND (hm : Onnx.Meaning erf opset .gatherND n.attrs xs ys) (h : RunOf st n xs ys)
    (hs : Supported pick st opset n xs .gatherND) {prefs : OutPrefs}
    (ht : Infer.apply st opset n prefs .gatherND = some (n.outputs.map Arg.ty)) : Works erf pick st opset n xs ys .gatherND := by
  obtain ⟨v, w, I, b, hx, hb, hb0, hrel, hy⟩ := hm
  obtain ⟨s1, s2, s3, s4, s5⟩ := hs
  obtain ⟨a, c, hi⟩ := h.input2 hx
  obtain ⟨o, ho, hof⟩ := h.output hy
  obtain ⟨ra, ta, hta⟩ := s1 a (by simp [hi])
  obtain ⟨rc, tc, htc⟩ := s1 c (by simp [hi])
  obtain ⟨u, hto⟩ := s4 o (by simp [ho])
  have hrank : u.rank ≠ 0 := by
    simp only [Infer.apply, Infer.inTy, hi, List.getElem?_cons_zero, List.getElem?_cons_succ, Option.map_some, (intAttr_read hb).2, hta, htc, ho,
      List.map_cons, List.map_nil, hto, Infer.gatherND] at ht
    split at ht
    · cases ht
    · split at ht
      · cases ht
      · split at ht
        · cases ht
        · split at ht <;> cases ht
          assumption
  have hcode : nodeCode erf pick st opset n .gatherND = some ⟨[.arg 0, .arg 1], eff2 (onIndexed fun v j => gatherNDOn (b.getD 0) v j)⟩ := by
    have : (n.attrs.any (fun p => p.1 != "batch_dims") || !decide (n.inputs.map Arg.name).Nodup) = false := by
      rw [Bool.or_eq_false_iff]
      refine ⟨?_, by simp [s2]⟩
      rw [List.any_eq_false]
      intro p hp
      simp [s3 p hp]
    simp only [nodeCode, gatherNDCode, this, (intAttr_read hb).2, ho, List.map_cons, List.map_nil, hto, Bool.false_eq_true, if_false]
  refine works_two (u1 := .arg 1) (v := v) (w := .int I) (f := onIndexed fun v j => gatherNDOn (b.getD 0) v j)
    hcode rfl hi ra rc hx ho hy fun r s hr hs => ?_
  obtain ⟨j, rfl, -, hj⟩ := holds_int hs
  rw [htc] at hj
  obtain ⟨rfl, hne⟩ := tensor_dev hj
  simp only [onIndexed]
  refine lift_rel hr hrel hof fun {α} _ x X Z _ hX hZ hxr hP => ?_
  rw [hta] at hxr
  obtain ⟨rfl, -⟩ := tensor_dev hxr
  have h0 : 0 ∉ X.shape := by rw [← hX]; exact s5 v (by simp [hx])
  have hu : Infer.asUsize (b.getD 0) = (b.getD 0).toNat := by simp [Infer.asUsize, not_lt.2 hb0]
  refine ⟨.dev Z, by simp [gatherNDOn, hu, gatherND_eq h0 hP], ?_⟩
  rw [hto]
  have hr := hof.2
  rw [hto, hZ] at hr
  refine dev_holds hr fun e => hrank ?_
  rw [← hr, e]; rfl

/-! ### NonZero -/

theorem works_nonZero (hm : Onnx.Meaning erf opset .nonZero n.attrs xs ys) (h : RunOf st n xs ys)
    (hs : Supported pick st opset n xs .nonZero) {prefs : OutPrefs}
    (ht : Infer.apply st opset n prefs .nonZero = some (n.outputs.map Arg.ty)) : Works erf pick st opset n xs ys .nonZero := by
  have key : ∀ {v : OVal} {Z : Tensor Int}, xs = [some v] → ys = [.int Z] → Z.shape.length = 2 →
      (∀ r t, Holds (.tensor t) r v → nonZeroOn r = some (.int (.dev Z))) → Works erf pick st opset n xs ys .nonZero := by
    intro v Z hx hy hl hf
    obtain ⟨a, hi⟩ := h.input1 hx
    obtain ⟨o, ho, hof⟩ := h.output hy
    obtain ⟨ra, ta, hta⟩ := hs a (by simp [hi])
    have hto : o.ty = .tensor ⟨.i64, 2, some [some ta.rank, none]⟩ := by
      simp only [Infer.apply, Infer.inTy, hi, List.getElem?_cons_zero, Option.map_some, hta, Option.bind_some, Infer.nonZero, ho,
        List.map_cons, List.map_nil, Option.some.injEq, List.cons.injEq, and_true] at ht
      exact ht.symm
    refine works_one (f := nonZeroOn) (a := a) (v := v) (by simp [nodeCode, Infer.inTy, hi, hta]) (by simp [hi]) ra (by simp [hx]) ho hy
      fun r hr => ?_
    rw [hta] at hr
    refine ⟨_, hf r ta hr, hof.1, ?_⟩
    rw [hto]
    exact dev_holds hl fun e => by simp [e] at hl
  rcases hm with ⟨X, hx, hy⟩ | ⟨X, hx, hy⟩ | ⟨X, hx, hy⟩
  · refine key hx hy rfl fun r t hr => ?_
    obtain ⟨x', rfl, -, hx'⟩ := holds_float hr
    obtain ⟨rfl, -⟩ := tensor_dev hx'
    simp only [nonZeroOn, C62_nonzero]
  · refine key hx hy rfl fun r t hr => ?_
    obtain ⟨x', rfl, -, hx'⟩ := holds_int hr
    obtain ⟨rfl, -⟩ := tensor_dev hx'
    simp only [nonZeroOn, C62_nonzero]
  · refine key hx hy rfl fun r t hr => ?_
    obtain ⟨x', rfl, -, hx'⟩ := holds_bool hr
    obtain ⟨rfl, -⟩ := tensor_dev hx'
    simp only [nonZeroOn, C62_nonzero]

/-! ### ReduceLogSumExp -/

theorem works_logSumExp (hst : StoreOk st) (hm : Onnx.Meaning erf opset .logSumExp n.attrs xs ys) (h : RunOf st n xs ys)
    (hs : Supported pick st opset n xs .logSumExp) {prefs : OutPrefs}
    (ht : Infer.apply st opset n prefs .reduce = some (n.outputs.map Arg.ty)) : Works erf pick st opset n xs ys .logSumExp := by
  obtain ⟨X, axes, keep, Z, hax, hk, -, hZ, hy⟩ := hm
  obtain ⟨s1, s2, s3, s4⟩ := hs
  obtain ⟨o, ho, hof⟩ := h.output hy
  have hx0 : xs[0]? = some (some (.float X)) := by
    rcases hax with ⟨e, -⟩ | ⟨t, e, -⟩ <;> rw [e] <;> rfl
  obtain ⟨a, ha⟩ := h.input (k := 0) (by rcases hax with ⟨e, -⟩ | ⟨t, e, -⟩ <;> rw [e] <;> simp)
  obtain ⟨hra, t, hta⟩ := s1 a ha
  obtain ⟨h5, h6⟩ := s4 _ axes hx0 hax
  have hread : Infer.reduceAxes st n = some (axes.getD []) := by
    rcases hax with ⟨hx, hat⟩ | ⟨u, hx, hat, -, rfl⟩
    · simp [Infer.reduceAxes, h.noInput (k := 1) (by rw [hx]; simp), intsAttr_read hat]
    · obtain ⟨w, hw⟩ := h.input (k := 1) (by rw [hx]; simp)
      obtain ⟨v, hv, hd⟩ := s2 w hw
      have := h.reads 1 w v hw hv
      rw [hx] at this
      obtain rfl : OVal.int u = v := Option.some.inj (Option.some.inj this)
      simp [Infer.reduceAxes, hw, hv, hd, hst.ints]
  have hkd := (intAttr_read hk).2 1
  have hkeep : (keep.getD 1 == 1) = (keep.getD 1 != 0) := by
    cases keep with
    | none => rfl
    | some k => rcases s3 k hk with rfl | rfl <;> rfl
  have hlist : (keep.getD 1 == 1) = true ∨ axes.getD [] = [] := by
    rcases h6 with e | e | e
    · exact .inr e
    · left
      cases keep with
      | none => rfl
      | some k => simp only [HasInt] at hk e; rw [hk] at e; cases e
    · left
      cases keep with
      | none => rfl
      | some k => simp only [HasInt] at hk e; rw [hk] at e; cases e; rfl
  simp only [Infer.apply, hread, hkd, Infer.inTy, ha, Option.map_some, hta] at ht
  have hty := one_type ho ht
  have hfa := h.fitsIn ha hra hx0
  have hXl : X.shape.length = t.rank := by
    have := hfa.2
    rw [hta] at this
    exact this
  obtain ⟨dims, hd, hout⟩ := reduce_out hty
  refine works_one (f := onFloat (logSumExpOn dims (keep.getD 1 == 1) o.ty))
    (by simp only [nodeCode, hread, hkd, ha, ho, hta, ArgType.rank, hd, Option.map_some]) ha hra hx0 ho hy fun r hr' => ?_
  have hpos : 1 ≤ t.rank := by
    obtain ⟨v, -, -, hrep⟩ := holds_float hr'
    rw [hta] at hrep
    cases v with
    | dev u => exact hrep.2.2
    | native x => exact hrep.elim
    | shape l => exact hrep.elim
  have hout := hout hpos
  have hXn : X.shape ≠ [] := fun e => by simp [e] at hXl; omega
  rw [float_dev hr' hXn]
  rw [← hkeep] at hZ
  have hfit : OutFits o.ty Z := by
    obtain ⟨-, hrank⟩ := hof
    rcases hout with ⟨d, e1, -⟩ | ⟨t', e1, e2⟩
    · rw [e1] at hrank ⊢
      exact hrank
    · rw [e1] at hrank ⊢
      exact ⟨hrank, e2⟩
  obtain ⟨z, z1, z2⟩ := C32_logsumexp_partial (ofInt := Int.cast) (outTy := o.ty) (by rw [hXl]; exact hd) hZ
    (fun d hd => Nat.pos_of_ne_zero fun e => h5 (by rw [← e]; exact hd)) (by omega) hfit hlist
  have hpick : (pickList max : List ℝ → ℝ) = fun l => match l with | [] => default | a :: l => l.foldl max a := by
    funext l
    cases l <;> rfl
  rw [genLse, hpick] at z1
  have z3 : logSumExpOn dims (keep.getD 1 == 1) o.ty (.dev X) = some z := z1
  exact ⟨.float z, by simp only [onFloat, z3, Option.map_some], hof.1, z2⟩

/-! ### Examples -/

namespace ScatterExample

open NetExample (store)

/-- A vector of integers. -/
def vec (x : String) : Arg OVal := ⟨x, .tensor ⟨.i64, 1, none⟩, .dynamic⟩

/-- An embedded number. -/
def number (k : Int) : Arg OVal := ⟨"", .scalarNative .i64, .static (.int ⟨[], [k], rfl⟩)⟩

/-- The sums of the elements before each element. -/
def before : Node OVal := ⟨.other "CumSum", "cumsum1", [vec "x", number (-1)], [vec "y"], [("exclusive", .i64 1)]⟩

/-- Products with elements chosen by an index. -/
def products : Node OVal := ⟨.other "ScatterElements", "scatter1", [vec "x", vec "i", vec "u"], [vec "y"], [("reduction", .str "mul")]⟩

/-- The hypotheses are met. -/
example (erf : ℝ → ℝ) (pick : Nat → Int → Option Nat) :
    Onnx.Meaning erf 17 .cumSum before.attrs [some (.int ⟨[3], [5, 6, 7], rfl⟩), some (.int ⟨[], [-1], rfl⟩)] [.int ⟨[3], [0, 5, 11], rfl⟩] ∧
      Supported pick store 17 before [some (.int ⟨[3], [5, 6, 7], rfl⟩), some (.int ⟨[], [-1], rfl⟩)] .cumSum ∧
      Onnx.Meaning erf 17 .scatterElements products.attrs
        [some (.int ⟨[3], [5, 6, 7], rfl⟩), some (.int ⟨[2], [-1, 0], rfl⟩), some (.int ⟨[2], [10, 100], rfl⟩)] [.int ⟨[3], [500, 6, 70], rfl⟩] ∧
      Supported pick store 17 products
        [some (.int ⟨[3], [5, 6, 7], rfl⟩), some (.int ⟨[2], [-1, 0], rfl⟩), some (.int ⟨[2], [10, 100], rfl⟩)] .scatterElements := by
  refine ⟨⟨_, some 1, none, rfl, rfl, rfl, .inr ⟨_, _, rfl, ⟨0, by decide, .inr rfl, ?_⟩, rfl⟩⟩,
    ⟨fun a ha => ?_, fun s hs => ?_, fun v hv => ?_⟩,
    ⟨_, .mul, none, 0, rfl, .inr rfl, .inr ⟨_, _, ⟨[3], [500, 6, 70], rfl⟩, rfl, rfl, ⟨by decide, rfl, rfl, fun i hi => ?_, nofun, rfl, fun p hp => ?_⟩, rfl⟩⟩,
    ⟨fun a ha => ?_, by decide +kernel, by simp [products], fun v I u axis k _ _ _ h => ?_⟩⟩
  · decide +kernel
  · cases ha; exact ⟨.inl rfl, _, rfl⟩
  · cases hs; exact ⟨_, rfl, .inl rfl⟩
  · cases hv; decide
  · match i, hi with
    | [i], hi =>
      simp only [InRange, and_true] at hi
      match i, hi with
      | 0, _ => exact ⟨[2], rfl, by simp [InRange]⟩
      | 1, _ => exact ⟨[0], rfl, by simp [InRange]⟩
    | [], hi => simp [InRange] at hi
    | _ :: _ :: _, hi => simp [InRange] at hi
  · match p, hp with
    | [i], hi =>
      simp only [InRange, and_true] at hi
      match i, hi with
      | 0, _ => decide +kernel
      | 1, _ => decide +kernel
      | 2, _ => decide +kernel
    | [], hi => simp [InRange] at hi
    | _ :: _ :: _, hi => simp [InRange] at hi
  · simp only [products, List.mem_cons, List.not_mem_nil, or_false] at ha
    rcases ha with rfl | rfl | rfl <;> exact ⟨.inl rfl, _, rfl⟩
  · simp [products, List.lookup] at h

/-- Two elements of a vector. -/
def chosen : Node OVal := ⟨.other "GatherND", "gathernd1", [vec "x", ⟨"i", .tensor ⟨.i64, 2, some [none, some 1]⟩, .dynamic⟩], [vec "y"], []⟩

/-- Where a vector of integers is not zero. -/
def places : Node OVal := ⟨.other "NonZero", "nonzero1", [vec "x"], [⟨"y", .tensor ⟨.i64, 2, some [some 1, none]⟩, .dynamic⟩], []⟩

/-- The hypotheses are met. -/
example (erf : ℝ → ℝ) (pick : Nat → Int → Option Nat) :
    Onnx.Meaning erf 17 .gatherND chosen.attrs [some (.int ⟨[3], [5, 6, 7], rfl⟩), some (.int ⟨[2, 1], [-1, 0], rfl⟩)] [.int ⟨[2], [7, 5], rfl⟩] ∧
      Supported pick store 17 chosen [some (.int ⟨[3], [5, 6, 7], rfl⟩), some (.int ⟨[2, 1], [-1, 0], rfl⟩)] .gatherND ∧
      Onnx.Meaning erf 17 .nonZero places.attrs [some (.int ⟨[3], [5, 0, 7], rfl⟩)] [.int ⟨[1, 2], [0, 2], rfl⟩] ∧
      Supported pick store 17 places [some (.int ⟨[3], [5, 0, 7], rfl⟩)] .nonZero := by
  refine ⟨⟨_, .int ⟨[2], [7, 5], rfl⟩, _, none, rfl, rfl, le_refl _, ⟨[], [2], [3], [], rfl, rfl, rfl, rfl, fun ib il is h1 h2 h3 => ?_⟩, rfl⟩,
    ⟨fun a ha => ?_, by decide +kernel, by simp [chosen], fun o ho => ?_, fun v hv => ?_⟩, .inr (.inl ⟨_, rfl, ?_⟩), fun a ha => ?_⟩
  · match ib, il, is, h1, h2, h3 with
    | [], [i], [], _, hi, _ =>
      simp only [InRange, and_true] at hi
      match i, hi with
      | 0, _ => exact ⟨[2], rfl, by simp [index, Tensor.get, flatIdx, prodShape], rfl⟩
      | 1, _ => exact ⟨[0], rfl, by simp [index, Tensor.get, flatIdx, prodShape], rfl⟩
    | _ :: _, _, _, h, _, _ => simp [InRange] at h
    | _, [], _, _, h, _ => simp [InRange] at h
    | _, _ :: _ :: _, _, _, h, _ => simp [InRange] at h
    | _, _, _ :: _, _, _, h => simp [InRange] at h
  · simp only [chosen, List.mem_cons, List.not_mem_nil, or_false] at ha
    rcases ha with rfl | rfl <;> exact ⟨.inl rfl, _, rfl⟩
  · simp only [chosen, List.mem_cons, List.not_mem_nil, or_false] at ho
    exact ⟨_, by rw [ho]; rfl⟩
  · cases hv; decide
  · congr 2
    rw [show (fun x : Int => @decide (x = 0) (Classical.propDecidable (x = 0))) = fun x => x == 0 from
      funext fun x => by by_cases h : x = 0 <;> simp [h]]
    decide +kernel
  · cases ha; exact ⟨.inl rfl, _, rfl⟩

/-- Over the last axis. -/
def lseLast : Node OVal := ⟨.other "ReduceLogSumExp", "reduce1", [⟨"x", .tensor ⟨.f32, 2, none⟩, .dynamic⟩],
  [⟨"y", .tensor ⟨.f32, 2, none⟩, .dynamic⟩], [("axes", .i64s [-1])]⟩

/-- The hypotheses are met: every matrix with two rows and three columns has a result. -/
example (erf : ℝ → ℝ) (pick : Nat → Int → Option Nat) (l : List ℝ) (hl : l.length = 6) :
    (∃ Z, Z.shape = [2, 1] ∧ Onnx.Meaning erf 17 .logSumExp lseLast.attrs [some (.float ⟨[2, 3], l, hl⟩)] [.float Z]) ∧
      Supported pick store 17 lseLast [some (.float ⟨[2, 3], l, hl⟩)] .logSumExp := by
  refine ⟨?_, fun a ha => ?_, fun s hs => by simp [lseLast] at hs, fun k hk => (by cases hk), fun v axes hv hax => ?_⟩
  · have h1 : ∃ Z, reduceT (fun l => Real.log (l.map Real.exp).sum) [-1] true ⟨[2, 3], l, hl⟩ = some Z ∧ Z.shape = [2, 1] := ⟨_, rfl, rfl⟩
    obtain ⟨Z, hZ, hs⟩ := h1
    exact ⟨Z, hs, _, some [-1], none, Z, .inl ⟨rfl, rfl⟩, rfl, .inl rfl, hZ, rfl⟩
  · cases ha; exact ⟨.inl rfl, _, rfl⟩
  · cases hv
    exact ⟨by simp [OVal.shape], .inr (.inl rfl)⟩

end ScatterExample

end OnnxIR
