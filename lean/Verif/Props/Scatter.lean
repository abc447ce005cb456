import Verif.Model.Scatter
import Verif.Props.GatherND
import Verif.Props.AxisOps
import Verif.Props.OpRules

/-!
# C63: generated code of ScatterElements and ScatterND
-/

namespace OnnxIR

open Gen

variable {α : Type} [Inhabited α]

/-! ### The loops -/

theorem scatterRound_some {f : α → α → α} {n us off : Nat} {flat out : List α} (hn : 0 < n) (hu : us + n ≤ flat.length)
    (ho : off + n ≤ out.length) :
    ∃ r, scatterRound f n flat us off out = some r ∧ r.length = out.length ∧
      ∀ p, p < out.length → r.getD p default =
        if off ≤ p ∧ p < off + n then f (out.getD p default) (flat.getD (us + (p - off)) default) else out.getD p default := by
  let vs := (flat.drop us).take n
  let xs := (out.drop off).take n
  have hvl : vs.length = n := by simp [vs]; omega
  have hxl : xs.length = n := by simp [xs]; omega
  have hzl : (List.zipWith f xs vs).length = n := by simp [hvl, hxl]
  refine ⟨out.take off ++ List.zipWith f xs vs ++ out.drop (off + n), ?_, ?_, ?_⟩
  · have e1 : Burn.narrow1 flat us n = some vs := if_pos ⟨hn, hu⟩
    have e2 : Burn.narrow1 out off n = some xs := if_pos ⟨hn, ho⟩
    simp only [scatterRound, e1, e2, Option.bind_some, Burn.sliceAssign]
    rw [if_pos ⟨hn, ho, hzl⟩]
  · simp only [List.length_append, List.length_take, List.length_drop, hzl]; omega
  · intro p hp
    rw [List.getD_eq_getElem?_getD, List.append_assoc]
    by_cases h1 : p < off
    · rw [List.getElem?_append_left (by simp; omega), if_neg (by omega), List.getElem?_take_of_lt h1, List.getD_eq_getElem?_getD]
    · rw [List.getElem?_append_right (by simp; omega), show (out.take off).length = off by simp; omega]
      by_cases h2 : p < off + n
      · rw [List.getElem?_append_left (by omega), if_pos (by omega), List.getElem?_zipWith]
        have a1 : xs[p - off]? = some out[p] := by
          simp only [xs]
          rw [List.getElem?_take_of_lt (by omega), List.getElem?_drop, show off + (p - off) = p by omega,
            List.getElem?_eq_getElem hp]
        have hq : us + (p - off) < flat.length := by omega
        have a2 : vs[p - off]? = some flat[us + (p - off)] := by
          simp only [vs]
          rw [List.getElem?_take_of_lt (by omega), List.getElem?_drop, List.getElem?_eq_getElem hq]
        rw [a1, a2]
        simp [List.getD_eq_getElem?_getD, hp, hq]
      · rw [List.getElem?_append_right (by omega), hzl, if_neg (by omega), List.getElem?_drop,
          show off + n + (p - off - n) = p by omega, List.getD_eq_getElem?_getD]

theorem block_iff {o m S s : Nat} (hs : s < S) : (o * S ≤ m * S + s ∧ m * S + s < o * S + S) ↔ o = m := by
  constructor
  · rintro ⟨h1, h2⟩
    rcases Nat.lt_trichotomy o m with h | h | h
    · have : (o + 1) * S ≤ m * S := Nat.mul_le_mul_right S h
      rw [Nat.add_mul, Nat.one_mul] at this; omega
    · exact h
    · have : (m + 1) * S ≤ o * S := Nat.mul_le_mul_right S h
      rw [Nat.add_mul, Nat.one_mul] at this; omega
  · rintro rfl; omega

/-- The rounds `L`, one after the other, on `M` slices of `S` elements. -/
theorem scatter_fold {f : α → α → α} {S M : Nat} (hS : 0 < S) {flat : List α} {o : Nat → Nat} :
    ∀ (L : List Nat) (out : List α), out.length = M * S → (∀ l ∈ L, o l < M ∧ l * S + S ≤ flat.length) →
    ∃ r, L.foldlM (fun out l => scatterRound f S flat (l * S) (o l * S) out) out = some r ∧ r.length = M * S ∧
      ∀ m s, m < M → s < S → r.getD (m * S + s) default =
        ((L.filter fun l => o l = m).map fun l => flat.getD (l * S + s) default).foldl f (out.getD (m * S + s) default) := by
  intro L
  induction L with
  | nil => intro out hl _; exact ⟨out, rfl, hl, fun _ _ _ _ => rfl⟩
  | cons l L ih =>
    intro out hl hL
    obtain ⟨h1, h2⟩ := hL l List.mem_cons_self
    have hb : ∀ m, m < M → m * S + S ≤ M * S := by
      intro m hm
      have : (m + 1) * S ≤ M * S := Nat.mul_le_mul_right S hm
      rwa [Nat.add_mul, Nat.one_mul] at this
    obtain ⟨r, e1, e2, e3⟩ := scatterRound_some (f := f) hS h2 (out := out) (off := o l * S) (by rw [hl]; exact hb _ h1)
    obtain ⟨r', g1, g2, g3⟩ := ih r (e2.trans hl) fun x hx => hL x (List.mem_cons_of_mem _ hx)
    refine ⟨r', ?_, g2, fun m s hm hs => ?_⟩
    · rw [List.foldlM_cons]
      simp only [e1]
      exact g1
    · have hp : m * S + s < out.length := by have := hb m hm; omega
      rw [g3 m s hm hs, e3 _ hp]
      by_cases h : o l = m
      · rw [if_pos ((block_iff hs).2 h), List.filter_cons_of_pos (by simpa using h), List.map_cons, List.foldl_cons]
        rw [h, show l * S + (m * S + s - m * S) = l * S + s by omega]
      · rw [if_neg (fun c => h ((block_iff hs).1 c)), List.filter_cons_of_neg (by simpa using h)]

theorem foldlM_congr {β σ : Type} {f g : σ → β → Option σ} : ∀ {L : List β} {s : σ}, (∀ x ∈ L, ∀ s, f s x = g s x) →
    L.foldlM f s = L.foldlM g s
  | [], _, _ => rfl
  | x :: L, s, h => by
    rw [List.foldlM_cons, List.foldlM_cons, h x List.mem_cons_self]
    congr 1
    funext t
    exact foldlM_congr fun y hy => h y (List.mem_cons_of_mem _ hy)

theorem scatterBody_eq {A : ScatterArith α} {ge le : α → α → Bool} {red : ScatterRed}
    (hmax : red = .max → ∀ x u, A.max x u = if ge u x then u else x)
    (hmin : red = .min → ∀ x u, A.min x u = if le u x then u else x) :
    scatterBody A ge le red = Onnx.scatterStep A red := by
  funext x u
  cases red with
  | max => exact (hmax rfl x u).symm
  | min => exact (hmin rfl x u).symm
  | _ => rfl

theorem filterMap_indices {s : List Nat} {β : Type} {p : Nat → Bool} {g : Nat → β} :
    ((List.range (prodShape s)).filter p).map g =
      ((indices s).filter fun i => p (flatIdx s i)).map fun i => g (flatIdx s i) := by
  rw [← map_flatIdx_indices, List.filter_map, List.map_map]
  rfl

/-! ### ScatterND -/

theorem flatIdx_inj {s i j : List Nat} (hi : InRange s i) (hj : InRange s j) (h : flatIdx s i = flatIdx s j) : i = j := by
  induction s generalizing i j with
  | nil =>
    cases i with
    | nil => cases j with
      | nil => rfl
      | cons _ _ => exact absurd hj (by simp [InRange])
    | cons _ _ => exact absurd hi (by simp [InRange])
  | cons d s ih =>
    cases i with
    | nil => exact absurd hi (by simp [InRange])
    | cons x i => cases j with
      | nil => exact absurd hj (by simp [InRange])
      | cons y j =>
        have hx := flatIdx_lt hi.2
        have hy := flatIdx_lt hj.2
        simp only [flatIdx] at h
        have hP : 0 < prodShape s := by omega
        have e : x = y := by
          have := congrArg (· / prodShape s) h
          simp only [Nat.mul_comm _ (prodShape s), Nat.mul_add_div hP, Nat.div_eq_of_lt hx, Nat.div_eq_of_lt hy] at this
          omega
        subst e
        rw [ih hi.2 hj.2 (by omega)]

/-- **C63, ScatterND** (partial: slices that are not empty, and no reduction of booleans, which panics). Updates that meet in a place
are applied one after the other, in every mode. -/
theorem C63_scatternd_partial {A : ScatterArith α} {ge le : α → α → Bool} {isBool : Bool} {red : ScatterRed} {ls ks ss : List Nat}
    {X U Z : Tensor α} {I : Tensor Int} (hb : isBool = true → red = .none) (hss : 0 < prodShape ss)
    (hmax : red = .max → ∀ x u, A.max x u = if ge u x then u else x)
    (hmin : red = .min → ∀ x u, A.min x u = if le u x then u else x) (hZ : Onnx.ScatterNDT A red ls ks ss X I U Z) :
    genScatterND A ge le isBool red X I U = some Z := by
  have hq : I.shape.getD (I.shape.length - 1) 0 = ks.length := by rw [hZ.index]; simp
  have hn : I.shape.take (I.shape.length - 1) = ls := by rw [hZ.index]; simp
  have hsize : (if ks.length < X.shape.length then prodShape (X.shape.drop ks.length) else 1) = prodShape ss := by
    rw [hZ.data]
    by_cases h : ks.length < (ks ++ ss).length
    · rw [if_pos h]; simp
    · rw [if_neg h]
      have : ss = [] := by
        have : ss.length = 0 := by simpa using h
        exact List.length_eq_zero_iff.1 this
      rw [this]; rfl
  have hU : U.data.length = prodShape ls * prodShape ss := by rw [U.size, hZ.updates, prodShape_append]
  unfold genScatterND
  rw [if_neg (fun c => c.2 (hb c.1))]
  simp only [hq, hn, hsize]
  rw [if_neg (by simp [hU])]
  have hplace : ∀ il, InRange ls il → ∃ ik, Onnx.tuplePlace ks I il = some ik ∧ InRange ks ik ∧
      lookupOffset X.shape I.data 0 ks.length 0 (flatIdx ls il) = flatIdx ks ik * prodShape ss := by
    intro il hil
    obtain ⟨ik, hik⟩ := Option.isSome_iff_exists.1 (hZ.valid il hil)
    obtain ⟨hlen, hget⟩ := mapM_some_getElem? hik
    have hlen : ik.length = ks.length := by simpa using hlen
    have hv : ∀ j, j < ks.length → Onnx.index (ks.getD j 0) (I.get (il ++ [j])) = some (ik.getD j 0) := by
      intro j hj
      obtain ⟨b, h1, h2⟩ := hget j j (by simp [hj])
      rw [h2, List.getD_eq_getElem?_getD, h1]; rfl
    refine ⟨ik, hik, index_lt_all hlen hv, ?_⟩
    have := lookupOffset_eq (bs := []) (ks := ks) (ss := ss) (vals := I.data) (start := 0) (lookup := flatIdx ls il) hlen (by
      intro j hj
      rw [← hv j hj]
      congr 1
      unfold Tensor.get
      rw [hZ.index, flatIdx_append hil.length]
      simp [flatIdx, prodShape])
    rw [hZ.data]
    simpa using this
  have hbl : ∀ l, l < prodShape ls → l * prodShape ss + prodShape ss ≤ prodShape ls * prodShape ss := by
    intro l hl
    have : (l + 1) * prodShape ss ≤ prodShape ls * prodShape ss := Nat.mul_le_mul_right _ hl
    rwa [Nat.add_mul, Nat.one_mul] at this
  let o : Nat → Nat := fun l => lookupOffset X.shape I.data 0 ks.length 0 l / prodShape ss
  have ho : ∀ il ik, InRange ls il → Onnx.tuplePlace ks I il = some ik →
      o (flatIdx ls il) = flatIdx ks ik ∧ InRange ks ik ∧
        lookupOffset X.shape I.data 0 ks.length 0 (flatIdx ls il) = o (flatIdx ls il) * prodShape ss := by
    intro il ik hil hik
    obtain ⟨ik', e1, e2, e3⟩ := hplace il hil
    have : ik = ik' := Option.some.inj (hik.symm.trans e1)
    subst this
    have e4 : o (flatIdx ls il) = flatIdx ks ik := by
      simp only [o, e3]
      exact Nat.mul_div_cancel _ hss
    exact ⟨e4, e2, by rw [e4, e3]⟩
  have hX : X.data.length = prodShape ks * prodShape ss := by rw [X.size, hZ.data, prodShape_append]
  obtain ⟨r, e1, e2, e3⟩ := scatter_fold (f := scatterBody A ge le red) (M := prodShape ks) hss (flat := U.data) (o := o)
    (List.range (prodShape ls)) X.data hX (by
      intro l hl
      have hl := List.mem_range.1 hl
      obtain ⟨il, hil, rfl⟩ := exists_index hl
      obtain ⟨ik, hik, _, _⟩ := hplace il hil
      obtain ⟨h1, h2, _⟩ := ho il ik hil hik
      exact ⟨by rw [h1]; exact flatIdx_lt h2, by rw [hU]; exact hbl _ hl⟩)
  have hfold : (List.range (prodShape ls)).foldlM (fun out i => scatterRound (scatterBody A ge le red) (prodShape ss) U.data
      (i * prodShape ss) (lookupOffset X.shape I.data 0 ks.length 0 i) out) X.data = some r := by
    rw [← e1]
    refine foldlM_congr fun l hl out => ?_
    obtain ⟨il, hil, rfl⟩ := exists_index (List.mem_range.1 hl)
    obtain ⟨ik, hik, _, _⟩ := hplace il hil
    rw [(ho il ik hil hik).2.2]
  rw [hfold, Option.bind_some]
  have hr : r.length = prodShape X.shape := by rw [e2, hZ.data, prodShape_append]
  rw [dif_pos hr]
  congr 1
  refine Tensor.eq_of_get hZ.shape.symm fun p hp => ?_
  have hp : InRange X.shape p := hp
  obtain ⟨ik, is, rfl, hik, his⟩ : ∃ ik is, p = ik ++ is ∧ InRange ks ik ∧ InRange ss is := by
    rw [hZ.data] at hp
    have hl := hp.length
    refine ⟨p.take ks.length, p.drop ks.length, (List.take_append_drop _ _).symm, ?_⟩
    rw [← List.take_append_drop ks.length p, inRange_append (by simp at hl ⊢; omega)] at hp
    simpa using hp
  rw [hZ.elems ik is hik his]
  have hget : (⟨X.shape, r, hr⟩ : Tensor α).get (ik ++ is) = r.getD (flatIdx ks ik * prodShape ss + flatIdx ss is) default := by
    show r.getD (flatIdx X.shape (ik ++ is)) default = _
    rw [hZ.data, flatIdx_append hik.length]
  rw [hget, e3 _ _ (flatIdx_lt hik) (flatIdx_lt his), filterMap_indices, scatterBody_eq hmax hmin]
  congr 1
  · show _ = X.data.getD (flatIdx X.shape (ik ++ is)) default
    rw [hZ.data, flatIdx_append hik.length]
  · have hf : ((indices ls).filter fun i => decide (o (flatIdx ls i) = flatIdx ks ik)) =
        (indices ls).filter fun il => decide (Onnx.tuplePlace ks I il = some ik) := by
      refine List.filter_congr fun il hil => ?_
      have hil := mem_indices.1 hil
      obtain ⟨ik', hik', _, _⟩ := hplace il hil
      obtain ⟨h1, h2, _⟩ := ho il ik' hil hik'
      rw [h1, hik']
      refine decide_eq_decide.2 ⟨fun h => by rw [flatIdx_inj h2 hik h], fun h => by cases h; rfl⟩
    rw [hf]
    refine List.map_congr_left fun il hil => ?_
    have hil := mem_indices.1 (List.mem_of_mem_filter hil)
    show _ = U.data.getD (flatIdx U.shape (il ++ is)) default
    rw [hZ.updates, flatIdx_append hil.length]

/-! ### ScatterElements -/

theorem flatIdx_drop {s i : List Nat} {n : Nat} (h : InRange s i) (hn : n < s.length) :
    flatIdx (s.drop n) (i.drop n) = i.getD n 0 * prodShape (s.drop (n + 1)) + flatIdx (s.drop (n + 1)) (i.drop (n + 1)) ∧
      flatIdx (s.drop (n + 1)) (i.drop (n + 1)) < prodShape (s.drop (n + 1)) := by
  have hl := h.length
  have hd : InRange (s.drop (n + 1)) (i.drop (n + 1)) := by
    rw [← List.take_append_drop (n + 1) s, ← List.take_append_drop (n + 1) i, inRange_append (by simp; omega)] at h
    exact h.2
  rw [List.drop_eq_getElem_cons hn, List.drop_eq_getElem_cons (show n < i.length by omega)]
  refine ⟨?_, flatIdx_lt hd⟩
  simp only [flatIdx]
  simp [List.getD_eq_getElem?_getD, show n < i.length by omega]

theorem elementOffset_eq {dims udims i : List Nat} {vals : List Int} {a j : Nat} (hr : udims.length = dims.length)
    (hi : InRange udims i) (hj : Onnx.index (dims.getD a 0) (vals.getD (flatIdx udims i) 0) = some j) (ha : a < dims.length) :
    elementOffset dims udims vals a (flatIdx udims i) = some (flatIdx dims (i.set a j)) := by
  have hil := hi.length
  have key : ∀ n, n ≤ dims.length → (List.range n).foldlM (fun (st : Nat × Nat) d =>
      let coord := st.1 / (strides udims).getD d 0
      let rest := st.1 % (strides udims).getD d 0
      if d = a then
        let idx := vals.getD (flatIdx udims i) 0
        let idx := if idx < 0 then idx + dims.getD d 0 else idx
        if 0 ≤ idx ∧ idx < dims.getD d 0 then some (rest, st.2 + idx.toNat * (strides dims).getD d 0) else none
      else some (rest, st.2 + coord * (strides dims).getD d 0)) (flatIdx udims i, 0) =
    some (flatIdx (udims.drop n) (i.drop n),
      (List.range n).foldl (fun o e => o + (i.set a j).getD e 0 * prodShape (dims.drop (e + 1))) 0) := by
    intro n
    induction n with
    | zero => intro _; simp
    | succ n ih =>
      intro hn
      rw [List.range_succ, List.foldlM_append, ih (by omega), List.foldl_append]
      obtain ⟨f1, f2⟩ := flatIdx_drop hi (show n < udims.length by omega)
      simp only [List.foldlM_cons, List.foldlM_nil, List.foldl_cons, List.foldl_nil, Option.bind_eq_bind, Option.bind_some,
        strides_eq, if_pos (show n < udims.length by omega), if_pos (show n < dims.length by omega)]
      have hP : 0 < prodShape (udims.drop (n + 1)) := by omega
      have hmod : flatIdx (udims.drop n) (i.drop n) % prodShape (udims.drop (n + 1)) =
          flatIdx (udims.drop (n + 1)) (i.drop (n + 1)) := by
        rw [f1, Nat.mul_comm, Nat.mul_add_mod, Nat.mod_eq_of_lt f2]
      have hdiv : flatIdx (udims.drop n) (i.drop n) / prodShape (udims.drop (n + 1)) = i.getD n 0 := by
        rw [f1, Nat.mul_comm, Nat.mul_add_div hP, Nat.div_eq_of_lt f2, Nat.add_zero]
      rw [hmod, hdiv, getD_set]
      by_cases h : n = a
      · subst h
        rw [if_pos rfl, if_pos (show n = n ∧ n < i.length from ⟨rfl, by omega⟩)]
        have hjj : (if vals.getD (flatIdx udims i) 0 < 0 then vals.getD (flatIdx udims i) 0 + (dims.getD n 0 : Int)
            else vals.getD (flatIdx udims i) 0) = (j : Int) ∧ j < dims.getD n 0 := by
          refine ⟨?_, index_lt hj⟩
          generalize vals.getD (flatIdx udims i) 0 = x at hj
          unfold Onnx.index at hj
          split at hj
          · cases hj; rw [if_neg (by omega)]; omega
          · split at hj
            · cases hj; rw [if_pos (by omega)]; omega
            · cases hj
        rw [hjj.1, if_pos (by omega)]
        simp
      · rw [if_neg h, if_neg (fun c => h c.1.symm)]
        simp
  unfold elementOffset
  rw [key dims.length (Nat.le_refl _)]
  have := sum_strides dims [] (i.set a j) (by simp; omega)
  simp only [List.append_nil, prodShape, Nat.mul_one] at this
  simp only [Option.map_some, this]

theorem scatterLoop_eq {A : ScatterArith α} {red : ScatterRed} {f : α → α → α} {a : Nat} {X U Z : Tensor α} {I : Tensor Int}
    (hf : f = Onnx.scatterStep A red) (hZ : Onnx.ScatterElementsT A red a X I U Z) : scatterLoop f a X I U = some Z := by
  have hplace : ∀ i, InRange I.shape i → ∃ p, Onnx.scatterPlace a X.shape I i = some p ∧ InRange X.shape p ∧
      elementOffset X.shape U.shape I.data a (flatIdx I.shape i) = some (flatIdx X.shape p) := by
    intro i hi
    obtain ⟨p, h1, h2⟩ := hZ.valid i hi
    obtain ⟨j, hj, rfl⟩ := Option.map_eq_some_iff.1 h1
    refine ⟨_, h1, h2, ?_⟩
    rw [hZ.updates]
    exact elementOffset_eq hZ.rank hi (by rw [← hj]; rfl) hZ.axis
  let o : Nat → Nat := fun l => (elementOffset X.shape U.shape I.data a l).getD 0
  have hU : U.data.length = prodShape I.shape := by rw [U.size, hZ.updates]
  obtain ⟨r, e1, e2, e3⟩ := scatter_fold (f := f) (M := prodShape X.shape) (S := 1) (by omega) (flat := U.data) (o := o)
    (List.range (prodShape I.shape)) X.data (by rw [X.size, Nat.mul_one]) (by
      intro l hl
      have hl := List.mem_range.1 hl
      obtain ⟨i, hi, rfl⟩ := exists_index hl
      obtain ⟨p, _, h2, h3⟩ := hplace i hi
      refine ⟨?_, by rw [hU]; omega⟩
      simp only [o, h3, Option.getD_some]
      exact flatIdx_lt h2)
  have hfold : (List.range (prodShape U.shape)).foldlM (fun out fi =>
      (elementOffset X.shape U.shape I.data a fi).bind fun off => scatterRound f 1 U.data fi off out) X.data = some r := by
    rw [← e1, show prodShape U.shape = prodShape I.shape by rw [hZ.updates]]
    refine foldlM_congr fun l hl out => ?_
    obtain ⟨i, hi, rfl⟩ := exists_index (List.mem_range.1 hl)
    obtain ⟨p, _, _, h3⟩ := hplace i hi
    simp only [o, h3, Option.bind_some, Option.getD_some, Nat.mul_one]
  have hr : r.length = prodShape X.shape := by rw [e2, Nat.mul_one]
  unfold scatterLoop
  rw [hfold, Option.bind_some, dif_pos hr]
  congr 1
  refine Tensor.eq_of_get hZ.shape.symm fun p hp => ?_
  have hp : InRange X.shape p := hp
  rw [hZ.elems p hp]
  have hget : (⟨X.shape, r, hr⟩ : Tensor α).get p = r.getD (flatIdx X.shape p * 1 + 0) default := by
    rw [Nat.mul_one, Nat.add_zero]; rfl
  rw [hget, e3 _ _ (flatIdx_lt hp) (by omega), filterMap_indices, hf]
  congr 1
  · show X.data.getD _ _ = X.data.getD _ _
    rw [Nat.mul_one, Nat.add_zero]
  · have hfl : ((indices I.shape).filter fun i => decide (o (flatIdx I.shape i) = flatIdx X.shape p)) =
        (indices I.shape).filter fun i => decide (Onnx.scatterPlace a X.shape I i = some p) := by
      refine List.filter_congr fun i hi => ?_
      obtain ⟨p', h1, h2, h3⟩ := hplace i (mem_indices.1 hi)
      simp only [o, h1, h3, Option.getD_some]
      refine decide_eq_decide.2 ⟨fun h => by rw [flatIdx_inj h2 hp h], fun h => by cases h; rfl⟩
    rw [hfl]
    refine List.map_congr_left fun i hi => ?_
    show U.data.getD _ _ = U.data.getD (flatIdx U.shape i) default
    rw [Nat.mul_one, Nat.add_zero, hZ.updates]

theorem burn_zip_same {β : Type} [Inhabited β] {f : α → α → β} {x y : Tensor α} (h : x.shape = y.shape) :
    Burn.zip f x y = some (Tensor.ofFn x.shape fun i => f (x.get i) (y.get i)) := by
  unfold Burn.zip Tensor.zipBcast
  rw [if_pos (by rw [h])]
  have hb : bcast x.shape y.shape = some x.shape := by
    unfold bcast
    rw [← h, bcastRev_self]; simp
  rw [hb]
  simp only [Option.map_some]
  congr 1
  refine Tensor.eq_of_get rfl fun i hi => ?_
  have hi : InRange x.shape i := hi
  rw [Tensor.get_ofFn hi, Tensor.get_ofFn hi, proj_self hi, proj_self (by rwa [← h])]

/-- What of ScatterElements goes through Burn's `gather` and `scatter`: everything without reduction but booleans, and additions. -/
def scatterNative (isBool : Bool) (red : ScatterRed) : Bool := red == .add || red == .none && !isBool

/-- **C63, ScatterElements** (partial: no reduction of booleans, which panics; through `gather` and `scatter` the indices have the
dimensions of the data outside the axis, negative ones rely on Burn reading them as ONNX does, and without reduction
`x + (u - x) = u` has to hold for the numbers at hand, which floats do not give). -/
theorem C63_scatter_elements_partial {A : ScatterArith α} {ge le : α → α → Bool} {pick : Nat → Int → Option Nat} {isBool : Bool}
    {red : ScatterRed} {axis : Option Int} {a : Nat} {X U Z : Tensor α} {I : Tensor Int}
    (ha : Onnx.index X.shape.length (axis.getD 0) = some a) (hb : isBool = true → red = .none)
    (hmax : red = .max → ∀ x u, A.max x u = if ge u x then u else x)
    (hmin : red = .min → ∀ x u, A.min x u = if le u x then u else x)
    (hs : scatterNative isBool red = true → I.shape.set a 0 = X.shape.set a 0 ∧
      ∀ k ∈ I.data, pick (X.shape.getD a 0) k = Onnx.index (X.shape.getD a 0) k)
    (hsub : red = .none → isBool = false → ∀ x ∈ X.data, ∀ u ∈ U.data, A.add x (A.sub u x) = u)
    (hZ : Onnx.ScatterElementsT A red a X I U Z) :
    genScatterElements A ge le pick isBool red axis X I U = some Z := by
  obtain ⟨a1, a2⟩ := axisUsize_index ha
  unfold genScatterElements
  rw [a1, Option.bind_some, if_neg (fun c => c.2 (hb c.1))]
  have hpl : scatterNative isBool red = true → ∀ i, InRange I.shape i →
      (pick (X.shape.getD a 0) (I.get i)).map (fun j => i.set a j) = Onnx.scatterPlace a X.shape I i := by
    intro h i hi
    rw [(hs h).2 _ (Tensor.mem_data hi)]; rfl
  have hsc : scatterNative isBool red = true → ∀ V : Tensor α, V.shape = I.shape → Burn.scatter A pick X a I V =
      some (Tensor.ofFn X.shape fun p => (((indices I.shape).filter fun i => Onnx.scatterPlace a X.shape I i = some p).map
        V.get).foldl A.add (X.get p)) := by
    intro h V hV
    unfold Burn.scatter
    simp only
    rw [if_pos]
    · congr 2
      funext p
      congr 2
      refine List.filter_congr fun i hi => ?_
      have := hpl h i (mem_indices.1 hi)
      exact decide_eq_decide.2 (by rw [← this])
    · refine ⟨a2, (hs h).1, hV, fun i hi => ?_⟩
      rw [hpl h i (mem_indices.1 hi)]
      obtain ⟨p, h1, h2⟩ := hZ.valid i (mem_indices.1 hi)
      exact ⟨p, h1, mem_indices.2 h2⟩
  cases red with
  | mul => exact scatterLoop_eq rfl hZ
  | max => exact scatterLoop_eq (scatterBody_eq hmax hmin) hZ
  | min => exact scatterLoop_eq (scatterBody_eq hmax hmin) hZ
  | add =>
    simp only
    rw [hsc rfl U hZ.updates]
    congr 1
    refine Tensor.eq_of_get hZ.shape.symm fun p hp => ?_
    have hp : InRange X.shape p := hp
    rw [Tensor.get_ofFn hp, hZ.elems p hp]
    rfl
  | none =>
    simp only
    cases isBool with
    | true => exact scatterLoop_eq rfl hZ
    | false =>
      have hn : scatterNative false .none = true := rfl
      simp only [Bool.false_eq_true, if_false]
      have hg : Burn.gather pick X a I = some (Tensor.ofFn I.shape fun i =>
          X.get (i.set a ((pick (X.shape.getD a 0) (I.get i)).getD 0))) := by
        unfold Burn.gather
        rw [if_pos]
        refine ⟨a2, (hs hn).1, fun i hi => ?_⟩
        have hi := mem_indices.1 hi
        obtain ⟨p, h1, h2⟩ := hZ.valid i hi
        obtain ⟨j, hj, rfl⟩ := Option.map_eq_some_iff.1 h1
        exact ⟨j, by rw [(hs hn).2 _ (Tensor.mem_data hi), hj]; rfl, mem_indices.2 h2⟩
      rw [hg, Option.bind_some, burn_zip_same (show U.shape = (Tensor.ofFn I.shape _).shape from hZ.updates), Option.bind_some]
      refine (hsc hn _ (show (Tensor.ofFn U.shape _).shape = _ from hZ.updates)).trans ?_
      congr 1
      refine Tensor.eq_of_get hZ.shape.symm fun p hp => ?_
      have hp : InRange X.shape p := hp
      rw [Tensor.get_ofFn hp, hZ.elems p hp]
      by_cases hhit : ∃ i, InRange I.shape i ∧ Onnx.scatterPlace a X.shape I i = some p
      · obtain ⟨i, hi, hip⟩ := hhit
        rw [filter_unique (x := i) (indices_nodup _) (mem_indices.2 hi)]
        · simp only [List.map_cons, List.map_nil, List.foldl_cons, List.foldl_nil, Onnx.scatterStep]
          rw [Tensor.get_ofFn (by rw [hZ.updates]; exact hi), Tensor.get_ofFn hi]
          obtain ⟨j, hj, rfl⟩ := Option.map_eq_some_iff.1 hip
          rw [(hs hn).2 _ (Tensor.mem_data hi), hj]
          exact hsub rfl rfl _ (Tensor.mem_data hp) _ (Tensor.mem_data (by rw [hZ.updates]; exact hi))
        · intro y hy
          have hy := mem_indices.1 hy
          rw [decide_eq_true_iff]
          exact ⟨fun h => hZ.distinct rfl y i hy hi (h.trans hip.symm), fun h => by rw [h]; exact hip⟩
      · rw [List.filter_eq_nil_iff.2]
        · rfl
        · intro i hi c
          exact hhit ⟨i, mem_indices.1 hi, by simpa using c⟩

/-! ### Where it fails -/

/-- Integers with infinities and not-a-number, as in IEEE 754. -/
inductive Ext
  | num (n : Int) | inf | negInf | nan
deriving DecidableEq, Inhabited

/-- Addition. -/
def Ext.add : Ext → Ext → Ext
  | .num a, .num b => .num (a + b)
  | .nan, _ | _, .nan => .nan
  | .inf, .negInf | .negInf, .inf => .nan
  | .inf, _ | _, .inf => .inf
  | .negInf, _ | _, .negInf => .negInf

/-- Negation. -/
def Ext.neg : Ext → Ext
  | .num a => .num (-a)
  | .nan => .nan
  | .inf => .negInf
  | .negInf => .inf

/-- As far as the example needs it. -/
def extArith : ScatterArith Ext := ⟨Ext.add, fun x y => x.add y.neg, fun x _ => x, fun x _ => x, fun x _ => x⟩

/-- **C63, not for infinite data**: without reduction an update of an infinite element (of a mask, say) gives not-a-number. -/
theorem C63_scatter_infinite_wrong :
    (genScatterElements extArith (fun _ _ => true) (fun _ _ => true) Onnx.index false .none none ⟨[2], [.num 1, .inf], rfl⟩ ⟨[1], [1], rfl⟩
      ⟨[1], [.num 5], rfl⟩).map (·.data) = some [.num 1, .nan] ∧
    Onnx.ScatterElementsT extArith .none 0 ⟨[2], [.num 1, .inf], rfl⟩ ⟨[1], [1], rfl⟩ ⟨[1], [.num 5], rfl⟩
      ⟨[2], [.num 1, .num 5], rfl⟩ := by
  refine ⟨by decide +kernel, ⟨by decide, rfl, rfl, ?_, ?_, rfl, ?_⟩⟩
  · intro i hi
    replace hi := mem_indices.2 hi
    have : i = [0] := by simpa [indices] using hi
    subst this
    exact ⟨[1], rfl, by simp [InRange]⟩
  · intro _ i j hi hj _
    have hi' : i = [0] := by simpa [indices] using mem_indices.2 hi
    have hj' : j = [0] := by simpa [indices] using mem_indices.2 hj
    rw [hi', hj']
  · intro i hi
    replace hi := mem_indices.2 hi
    revert i
    decide +kernel

/-- **C63, not for booleans with a reduction**: the generator panics. -/
theorem C63_scatter_bool_panics {A : ScatterArith α} {ge le : α → α → Bool} {pick : Nat → Int → Option Nat} {red : ScatterRed}
    {axis : Option Int} {X U : Tensor α} {I : Tensor Int} (h : red ≠ .none) :
    genScatterElements A ge le pick true red axis X I U = none ∧ genScatterND A ge le true red X I U = none := by
  constructor
  · unfold genScatterElements
    cases axisUsize X.shape.length (axis.getD 0) with
    | none => rfl
    | some d => rw [Option.bind_some, if_pos ⟨rfl, h⟩]
  · unfold genScatterND; rw [if_pos ⟨rfl, h⟩]

/-! ### Examples -/

/-- Integers. -/
def intArith : ScatterArith Int := ⟨(· + ·), (· - ·), (· * ·), max, min⟩

example : parts (genScatterElements intArith (fun a b => decide (b ≤ a)) (fun a b => decide (a ≤ b)) Onnx.index false .mul (some (-1))
    ⟨[2, 3], [1, 2, 3, 4, 5, 6], rfl⟩ ⟨[1, 2], [-1, 2], rfl⟩ ⟨[1, 2], [10, 100], rfl⟩) =
      some ([2, 3], [1, 2, 3000, 4, 5, 6]) := by decide +kernel

example : Onnx.ScatterElementsT intArith .mul 1 ⟨[2, 3], [1, 2, 3, 4, 5, 6], rfl⟩ ⟨[1, 2], [-1, 2], rfl⟩ ⟨[1, 2], [10, 100], rfl⟩
    ⟨[2, 3], [1, 2, 3000, 4, 5, 6], rfl⟩ := by
  refine ⟨by decide, rfl, rfl, ?_, (fun h => by cases h), rfl, ?_⟩
  · intro i hi
    replace hi := mem_indices.2 hi
    have : i = [0, 0] ∨ i = [0, 1] := by simpa [indices, List.range_succ] using hi
    rcases this with rfl | rfl
    · exact ⟨[0, 2], rfl, by simp [InRange]⟩
    · exact ⟨[0, 2], rfl, by simp [InRange]⟩
  · intro i hi
    replace hi := mem_indices.2 hi
    revert i
    decide +kernel

/-- Two slices of ScatterND, one of them met twice. -/
example : parts (genScatterND intArith (fun a b => decide (b ≤ a)) (fun a b => decide (a ≤ b)) false .max
    ⟨[3, 2], [1, 2, 3, 4, 5, 6], rfl⟩ ⟨[3, 1], [-1, 0, 2], rfl⟩ ⟨[3, 2], [7, 0, 0, 9, 8, 1], rfl⟩) =
      some ([3, 2], [1, 9, 3, 4, 8, 6]) := by decide +kernel

example : Onnx.ScatterNDT intArith .max [3] [3] [2] ⟨[3, 2], [1, 2, 3, 4, 5, 6], rfl⟩ ⟨[3, 1], [-1, 0, 2], rfl⟩
    ⟨[3, 2], [7, 0, 0, 9, 8, 1], rfl⟩ ⟨[3, 2], [1, 9, 3, 4, 8, 6], rfl⟩ := by
  refine ⟨rfl, rfl, rfl, ?_, rfl, ?_⟩
  · intro i hi
    replace hi := mem_indices.2 hi
    revert i
    decide +kernel
  · intro i j hi hj
    replace hi := mem_indices.2 hi
    replace hj := mem_indices.2 hj
    have hj : j = [0] ∨ j = [1] := by simpa [indices, List.range_succ] using hj
    revert i
    rcases hj with rfl | rfl <;> decide +kernel

end OnnxIR
