import Verif.Lemmas.Shapes
import Verif.Model.Broadcast

/-!
# C16, C17: broadcasting and merging of static shapes
-/

namespace OnnxIR

/-! ## C17: merging -/

theorem mergeDims_length {p q : PShape} : (mergeDims p q).length = p.length := by
  induction p generalizing q with
  | nil => cases q <;> simp [mergeDims]
  | cons o ps ih => cases q <;> cases o <;> simp [mergeDims, ih]

theorem mergeDims_get {p q : PShape} (h : p.length = q.length) (i : Nat) :
    (mergeDims p q)[i]? = match p[i]? with
      | some none => q[i]?
      | o => o := by
  induction p generalizing q i with
  | nil => cases q <;> simp_all [mergeDims]
  | cons o ps ih =>
    cases q with
    | nil => simp at h
    | cons y ys =>
      simp at h
      cases o <;> cases i <;> simp [mergeDims, ih h]

/-- Whatever was described by both is described by the merge, and conversely a shape described by
the merge is described by the first: merging adds exactly the second's knowledge. -/
theorem mergeDims_describes {p q : PShape} {s : List Nat} (hp : p.Describes s) (hq : q.Describes s) :
    (mergeDims p q).Describes s := by
  rw [PShape.describes_iff] at hp hq ⊢
  refine ⟨by rw [mergeDims_length]; exact hp.1, fun i k hk => ?_⟩
  rw [mergeDims_get (by rw [hp.1, hq.1])] at hk
  split at hk
  · exact hq.2 i k hk
  · exact hp.2 i k hk

/-- **C17 (truth).** If a value's shape agrees with both annotations, it agrees with the merged one. -/
theorem C17_merge_sound (a b : ArgType) (s : List Nat) (ha : a.Admits s) (hb : b.Admits s) :
    (a.mergeStaticShape b).Admits s := by
  cases a with
  | tensor x =>
    cases b with
    | tensor y =>
      simp only [ArgType.mergeStaticShape, ArgType.Admits] at *
      unfold TensorType.mergeStaticShape
      split
      · exact ha
      · split
        · next o hx hy =>
          split
          · refine ⟨ha.1, fun p hp => ?_⟩; cases hp; exact hb.2 o hy
          · exact ha
        · next p o hx hy =>
          split
          · refine ⟨ha.1, fun p' hp => ?_⟩; cases hp
            exact mergeDims_describes (ha.2 p hx) (hb.2 o hy)
          · exact ha
        · exact ha
    | _ => exact ha
  | _ => exact ha

/-- The dimension `i` of an annotation, if it is known. -/
def ArgType.dim? (a : ArgType) (i : Nat) : Option Nat := (a.staticShape.bind (·[i]?)).join

/-- **C17 (nothing lost, nothing invented).** Kind, element type and rank stay; a known dimension
stays as it is; a dimension known after merging was known to one of the two. -/
theorem C17_merge_informative (a b : ArgType) :
    (a.mergeStaticShape b).rank = a.rank ∧ (a.mergeStaticShape b).elemType = a.elemType ∧
    (∀ i d, a.dim? i = some d → (a.mergeStaticShape b).dim? i = some d) ∧
    (∀ i d, (a.mergeStaticShape b).dim? i = some d → a.dim? i = some d ∨ b.dim? i = some d) := by
  cases a with
  | tensor x =>
    cases b with
    | tensor y =>
      simp only [ArgType.mergeStaticShape]
      unfold TensorType.mergeStaticShape
      split
      · exact ⟨rfl, rfl, fun _ _ h => h, fun _ _ h => .inl h⟩
      · split
        · next o hx hy =>
          split
          · refine ⟨rfl, rfl, fun i d h => ?_, fun i d h => .inr ?_⟩
            · simp [ArgType.dim?, ArgType.staticShape, hx] at h
            · simpa [ArgType.dim?, ArgType.staticShape, hy] using h
          · exact ⟨rfl, rfl, fun _ _ h => h, fun _ _ h => .inl h⟩
        · next p o hx hy =>
          split
          · next hl =>
            refine ⟨rfl, rfl, fun i d h => ?_, fun i d h => ?_⟩
            · simp only [ArgType.dim?, ArgType.staticShape, hx, Option.bind_some] at h ⊢
              rw [mergeDims_get hl]
              have := Option.join_eq_some_iff.1 h
              rw [this]; rfl
            · simp only [ArgType.dim?, ArgType.staticShape, hx, hy, Option.bind_some] at h ⊢
              rw [mergeDims_get hl] at h
              split at h
              · exact .inr h
              · exact .inl h
          · exact ⟨rfl, rfl, fun _ _ h => h, fun _ _ h => .inl h⟩
        · exact ⟨rfl, rfl, fun _ _ h => h, fun _ _ h => .inl h⟩
    | _ => exact ⟨rfl, rfl, fun _ _ h => h, fun _ _ h => .inl h⟩
  | _ => exact ⟨rfl, rfl, fun _ _ h => h, fun _ _ h => .inl h⟩

/-- A static shape has as many entries as the rank says. -/
def ArgType.WellRanked : ArgType → Prop
  | .tensor t => ∀ p, t.staticShape = some p → p.length = t.rank
  | _ => True

/-- **C17 (gain).** Two tensor annotations of the same rank: after merging, every dimension either
of them knew is known. -/
theorem C17_merge_gains (x y : TensorType) (hr : x.rank = y.rank) (hx : (ArgType.tensor x).WellRanked)
    (hy : (ArgType.tensor y).WellRanked) (i d : Nat) (h : (ArgType.tensor y).dim? i = some d) :
    ∃ d', ((ArgType.tensor x).mergeStaticShape (.tensor y)).dim? i = some d' := by
  simp only [ArgType.WellRanked] at hx hy
  simp only [ArgType.dim?, ArgType.staticShape] at h
  cases hys : y.staticShape with
  | none => simp [hys] at h
  | some o =>
    simp [hys] at h
    simp only [ArgType.mergeStaticShape, ArgType.dim?, ArgType.staticShape]
    unfold TensorType.mergeStaticShape
    rw [if_neg (by simp [hr]), hys]
    cases hxs : x.staticShape with
    | none =>
      simp only
      rw [if_pos (by rw [hr]; exact hy o hys)]
      exact ⟨d, by simp [h]⟩
    | some p =>
      simp only
      rw [if_pos (by rw [hx p hxs, hy o hys, hr])]
      simp only [Option.bind_some]
      rw [mergeDims_get (by rw [hx p hxs, hy o hys, hr])]
      have hlt : i < p.length := by
        rw [hx p hxs, hr, ← hy o hys]
        have h' := Option.join_eq_some_iff.1 (by simpa using h : (o[i]?).join = some d)
        exact (List.getElem?_eq_some_iff.1 h').1
      rw [List.getElem?_eq_getElem hlt]
      cases hp : p[i] with
      | none => exact ⟨d, by simpa using h⟩
      | some e => exact ⟨e, by simp⟩

theorem mergeDims_idem {p q : PShape} (h : p.length = q.length) :
    mergeDims (mergeDims p q) q = mergeDims p q := by
  apply List.ext_getElem?
  intro i
  rw [mergeDims_get (by rw [mergeDims_length, h]), mergeDims_get h]
  cases p[i]? with
  | none => rfl
  | some o =>
    cases o with
    | some _ => rfl
    | none =>
      simp only
      split <;> simp_all

/-- **C17 (idempotent).** Merging the same annotation twice is merging it once. -/
theorem C17_merge_idempotent (a b : ArgType) :
    (a.mergeStaticShape b).mergeStaticShape b = a.mergeStaticShape b := by
  cases a with
  | tensor x =>
    cases b with
    | tensor y =>
      simp only [ArgType.mergeStaticShape, ArgType.tensor.injEq]
      by_cases hr : x.rank = y.rank
      · cases hx : x.staticShape with
        | none =>
          cases hy : y.staticShape with
          | none => simp [TensorType.mergeStaticShape, hx, hy]
          | some o =>
            by_cases hl : o.length = y.rank
            · simp [TensorType.mergeStaticShape, hx, hy, hr, hl]
              apply List.ext_getElem?
              intro i
              rw [mergeDims_get rfl]
              cases o[i]? with
              | none => rfl
              | some v => cases v <;> rfl
            · simp [TensorType.mergeStaticShape, hx, hy, hr, hl]
        | some p =>
          cases hy : y.staticShape with
          | none => simp [TensorType.mergeStaticShape, hx, hy]
          | some o =>
            by_cases hl : p.length = o.length
            · simp [TensorType.mergeStaticShape, hx, hy, hr, hl, mergeDims_length, mergeDims_idem hl]
            · simp [TensorType.mergeStaticShape, hx, hy, hr, hl]
      · simp [TensorType.mergeStaticShape, hr]
    | _ => rfl
  | _ => rfl

theorem mergeDims_ne {p o : PShape} (hl : p.length = o.length) :
    ((p.zip o).any fun q => q.1.isNone && q.2.isSome) = true ↔ mergeDims p o ≠ p := by
  induction p generalizing o with
  | nil => cases o <;> simp_all [mergeDims]
  | cons a p ih =>
    cases o with
    | nil => simp at hl
    | cons b o =>
      simp at hl
      have ih' := ih hl
      cases a with
      | none => cases b <;> simp only [List.zip_cons_cons, List.any_cons, mergeDims] <;> simp_all
      | some a => simp only [List.zip_cons_cons, List.any_cons, mergeDims]; simp_all

/-- **C17 (flag).** The flag returned is true exactly if something was changed. -/
theorem C17_flag_exact (x y : TensorType) :
    x.mergeChanges y = true ↔ x.mergeStaticShape y ≠ x := by
  obtain ⟨dt, rk, ss⟩ := x
  unfold TensorType.mergeChanges TensorType.mergeStaticShape
  by_cases hr : rk = y.rank
  · subst hr
    simp only [ne_eq, not_true_eq_false, if_false]
    cases ss with
    | none =>
      cases hy : y.staticShape with
      | none => simp
      | some o => simp
    | some p =>
      cases hy : y.staticShape with
      | none => simp
      | some o =>
        simp only [Bool.and_eq_true, beq_iff_eq]
        by_cases hl : p.length = o.length
        · simp only [hl, true_and, if_true, TensorType.mk.injEq, Option.some.injEq]
          exact mergeDims_ne hl
        · simp [hl]
  · simp [hr]

/-- A case where merging teaches something: `[None, 3]` merged with `[2, None]`. -/
example : (ArgType.tensor ⟨.f32, 2, some [none, some 3]⟩).mergeStaticShape
    (.tensor ⟨.f32, 2, some [some 2, none]⟩) = .tensor ⟨.f32, 2, some [some 2, some 3]⟩ ∧
    (ArgType.tensor ⟨.f32, 2, some [none, some 3]⟩).Admits [2, 3] ∧
    (ArgType.tensor ⟨.f32, 2, some [some 2, none]⟩).Admits [2, 3] := by
  refine ⟨by decide +kernel, ⟨rfl, ?_⟩, ⟨rfl, ?_⟩⟩ <;> intro p hp <;> cases hp <;> simp [PShape.Describes]

/-! ## C16: broadcasting -/

/-- The contribution of one input to the rank. -/
def ArgType.bRank : ArgType → Nat
  | .tensor t => t.rank
  | .scalarTensor _ => 1
  | .scalarNative _ => 0
  | .shape _ => 1

theorem computeBroadcastRank_eq (inputs : List ArgType) :
    computeBroadcastRank inputs = (inputs.map ArgType.bRank).foldl max 0 := by
  unfold computeBroadcastRank
  rw [List.foldl_map]
  congr 1
  funext acc ty
  cases ty <;> simp [ArgType.bRank]

theorem foldl_max_ge (l : List Nat) (a : Nat) : a ≤ l.foldl max a := by
  induction l generalizing a with
  | nil => simp
  | cons x l ih => exact Nat.le_trans (Nat.le_max_left a x) (ih _)

theorem foldl_max_mem (l : List Nat) (a : Nat) : ∀ x ∈ l, x ≤ l.foldl max a := by
  induction l generalizing a with
  | nil => simp
  | cons y l ih =>
    intro x hx
    rcases List.mem_cons.1 hx with rfl | hx
    · exact Nat.le_trans (Nat.le_max_right a x) (foldl_max_ge l _)
    · exact ih _ x hx

theorem foldl_max_le (l : List Nat) (a b : Nat) (ha : a ≤ b) (h : ∀ x ∈ l, x ≤ b) :
    l.foldl max a ≤ b := by
  induction l generalizing a with
  | nil => simpa using ha
  | cons y l ih =>
    exact ih _ (Nat.max_le.2 ⟨ha, h y (by simp)⟩) fun x hx => h x (by simp [hx])

/-- The rank of a broadcast of many shapes is the largest rank. -/
theorem bcastOnto_length {shapes : List (List Nat)} {acc out : List Nat}
    (h : bcastOnto acc shapes = some out) :
    out.length = (shapes.map List.length).foldl max acc.length := by
  induction shapes generalizing acc with
  | nil => simp [bcastOnto] at h; simp [h]
  | cons s ss ih =>
    simp only [bcastOnto, Option.bind_eq_some_iff] at h
    obtain ⟨a, h1, h2⟩ := h
    rw [ih h2, bcast_length h1]; rfl

/-- No tensor annotation of rank 0 (processor.rs:330-347 rejects them). -/
def NoRankZero (inputs : List ArgType) : Prop := ∀ t, ArgType.tensor t ∈ inputs → 1 ≤ t.rank

/-- One dimension: what the code computes is true of the broadcast dimension. -/
theorem broadcastDim_describes {c d r : Option Nat} {x y z : Nat} (hc : ∀ k, c = some k → k = x)
    (hd : ∀ k, d = some k → k = y) (hr : broadcastDim c d = some r)
    (hz : (if x = y then some x else if x = 1 then some y else if y = 1 then some x else none) = some z) :
    ∀ k, r = some k → k = z := by
  intro k hk
  subst hk
  cases c with
  | none => cases d <;> simp [broadcastDim] at hr
  | some c =>
    cases d with
    | none => simp [broadcastDim] at hr
    | some d =>
      have h1 := hc c rfl
      have h2 := hd d rfl
      subst h1 h2
      simp only [broadcastDim] at hr
      split at hr
      · simp only [Option.some.injEq] at hr
        by_cases hcd : c = d
        · simp [hcd] at hz; omega
        · rw [if_neg hcd, if_pos ‹c = 1›] at hz; simp at hz; omega
      · split at hr
        · cases hr
        · next h1 h2 =>
          simp only [Option.some.injEq] at hr
          by_cases hcd : c = d
          · simp [hcd] at hz; omega
          · have hd1 : d = 1 := by omega
            simp [hd1, h1] at hz; omega

theorem broadcastDims_describes {cs ds rs : PShape} {x y z : List Nat} (hc : cs.Describes x)
    (hd : ds.Describes y) (hr : broadcastDims cs ds = some rs) (hz : zipDims x y = some z) :
    rs.Describes z := by
  induction cs generalizing ds rs x y z with
  | nil =>
    cases x <;> simp [PShape.Describes] at hc
    cases y <;> simp [zipDims] at hz
    cases ds <;> simp [PShape.Describes] at hd
    simp [broadcastDims] at hr
    subst hr hz
    trivial
  | cons c cs ih =>
    cases x with
    | nil => simp [PShape.Describes] at hc
    | cons x xs =>
      cases y with
      | nil => simp [zipDims] at hz
      | cons y ys =>
        cases ds with
        | nil => simp [PShape.Describes] at hd
        | cons d ds =>
          simp only [PShape.Describes] at hc hd
          simp only [broadcastDims] at hr
          simp only [zipDims] at hz
          split at hr
          · next r rs' h1 h2 =>
            cases hr
            split at hz
            · next z' zs h3 h4 =>
              cases hz
              exact ⟨broadcastDim_describes hc.1 hd.1 h1 h3, ih hc.2 hd.2 h2 h4⟩
            · cases hz
          · cases hr

/-- One shape merged into the running result, which describes the padded running shape. -/
theorem broadcastInto_describes {r sh r' : PShape} {acc s out : List Nat} {m : Nat}
    (hr : r.Describes (List.replicate (m - acc.length) 1 ++ acc)) (hacc : acc.length ≤ m)
    (hs : sh.Describes s) (hsm : s.length ≤ m) (ho : bcast acc s = some out)
    (hi : broadcastInto r sh = some r') :
    r'.Describes (List.replicate (m - out.length) 1 ++ out) ∧ out.length ≤ m := by
  have hol := bcast_length ho
  have hom : out.length ≤ m := by omega
  refine ⟨?_, hom⟩
  have hpad := bcast_pad ho (m - acc.length) (by omega)
  rw [show acc.length + (m - acc.length) - out.length = m - out.length by omega] at hpad
  -- split the padded running shape at the offset
  let P := List.replicate (m - acc.length) 1 ++ acc
  have hPl : P.length = m := by simp [P]; omega
  have hrl : r.length = m := by rw [hr.length]; exact hPl
  have hoff : r.length - sh.length = m - s.length := by rw [hrl, hs.length]
  have hsplit : P = P.take (m - s.length) ++ P.drop (m - s.length) := (List.take_append_drop _ _).symm
  have hdl : (P.drop (m - s.length)).length = s.length := by rw [List.length_drop, hPl]; omega
  have hz := hpad
  change bcast P s = _ at hz
  rw [hsplit, bcast_zip hdl] at hz
  obtain ⟨z, hz1, hz2⟩ := Option.map_eq_some_iff.1 hz
  unfold broadcastInto at hi
  simp only [hoff] at hi
  obtain ⟨q, hq1, hq2⟩ := Option.map_eq_some_iff.1 hi
  have hlen : (r.take (m - s.length)).length = (P.take (m - s.length)).length := by
    rw [List.length_take, List.length_take, hrl, hPl]
  have hr2 : PShape.Describes (r.take (m - s.length) ++ r.drop (m - s.length))
      (P.take (m - s.length) ++ P.drop (m - s.length)) := by
    rw [List.take_append_drop, ← hsplit]; exact hr
  rw [PShape.describes_append hlen] at hr2
  rw [← hz2, ← hq2, PShape.describes_append hlen]
  exact ⟨hr2.1, broadcastDims_describes hr2.2 hs hq1 hz1⟩

/-- Position-wise truth of a list of partially known shapes. -/
inductive DescribesAll : List PShape → List (List Nat) → Prop
  | nil : DescribesAll [] []
  | cons {p ps s ss} : p.Describes s → DescribesAll ps ss → DescribesAll (p :: ps) (s :: ss)

theorem broadcastAllInto_describes {shs : List PShape} {ss : List (List Nat)} {r r' : PShape}
    {acc out : List Nat} {m : Nat} (hr : r.Describes (List.replicate (m - acc.length) 1 ++ acc))
    (hacc : acc.length ≤ m) (hs : DescribesAll shs ss) (hsm : ∀ s ∈ ss, s.length ≤ m)
    (ho : bcastOnto acc ss = some out) (hi : broadcastAllInto r shs = some r') :
    r'.Describes (List.replicate (m - out.length) 1 ++ out) ∧ out.length ≤ m := by
  induction hs generalizing r acc with
  | nil =>
    simp [bcastOnto] at ho; simp [broadcastAllInto] at hi
    subst ho hi; exact ⟨hr, hacc⟩
  | cons h1 h2 ih =>
    simp only [bcastOnto, Option.bind_eq_some_iff] at ho
    obtain ⟨a, ho1, ho2⟩ := ho
    simp only [broadcastAllInto, Option.bind_eq_some_iff] at hi
    obtain ⟨q, hi1, hi2⟩ := hi
    obtain ⟨h3, h4⟩ := broadcastInto_describes hr hacc h1 (hsm _ (by simp)) ho1 hi1
    exact ih h3 h4 (fun s hs => hsm s (by simp [hs])) ho2 hi2

/-- The shapes of the inputs that are tensors. -/
def tensorShapes : List ArgType → List (List Nat) → List (List Nat)
  | t :: ts, s :: ss => if t.isTensor then s :: tensorShapes ts ss else tensorShapes ts ss
  | _, _ => []

/-- Every tensor annotation has a static shape, and there is no `Shape` input. -/
def AllStatic (inputs : List ArgType) : Prop :=
  ∀ a ∈ inputs, (∀ t, a = .tensor t → t.staticShape ≠ none) ∧ ∀ k, a ≠ .shape k

/-- Scalars do not take part in broadcasting. -/
theorem bcastOnto_tensors {inputs : List ArgType} {shapes : List (List Nat)} {acc : List Nat}
    (h : AdmitsAll inputs shapes) (hs : AllStatic inputs) :
    bcastOnto acc shapes = bcastOnto acc (tensorShapes inputs shapes) ∧
      DescribesAll (inputs.filterMap ArgType.staticShape) (tensorShapes inputs shapes) := by
  induction h generalizing acc with
  | nil => exact ⟨rfl, .nil⟩
  | @cons t ts s ss h1 h2 ih =>
    have hs' : AllStatic ts := fun a ha => hs a (by simp [ha])
    obtain ⟨h3, h4⟩ := hs t (by simp)
    cases t with
    | scalarNative d =>
      simp only [ArgType.Admits] at h1; subst h1
      simp only [bcastOnto, bcast_nil_right, Option.bind_some, tensorShapes, ArgType.isTensor,
        List.filterMap_cons, ArgType.staticShape]
      exact ih hs'
    | scalarTensor d =>
      simp only [ArgType.Admits] at h1; subst h1
      simp only [bcastOnto, bcast_nil_right, Option.bind_some, tensorShapes, ArgType.isTensor,
        List.filterMap_cons, ArgType.staticShape]
      exact ih hs'
    | shape k => exact absurd rfl (h4 k)
    | tensor t =>
      cases hp : t.staticShape with
      | none => exact absurd hp (h3 t rfl)
      | some p =>
        simp only [bcastOnto, tensorShapes, ArgType.isTensor, List.filterMap_cons,
          ArgType.staticShape, hp, if_true]
        refine ⟨?_, .cons (h1.2 p hp) (ih (acc := acc) hs').2⟩
        cases bcast acc s with
        | none => rfl
        | some a => exact (ih hs').1

theorem DescribesAll.lengths {ps : List PShape} {ss : List (List Nat)} (h : DescribesAll ps ss) :
    ps.map List.length = ss.map List.length := by
  induction h with
  | nil => rfl
  | cons h1 _ ih => simp [ih, h1.length]

theorem zipDims_describes {p : PShape} {a b s : List Nat} (ha : p.Describes a) (hb : p.Describes b)
    (h : zipDims a b = some s) : p.Describes s := by
  induction p generalizing a b s with
  | nil =>
    cases a <;> simp [PShape.Describes] at ha
    cases b <;> simp [PShape.Describes] at hb
    simp [zipDims] at h; subst h; trivial
  | cons o ps ih =>
    cases a with
    | nil => simp [PShape.Describes] at ha
    | cons x a =>
      cases b with
      | nil => simp [PShape.Describes] at hb
      | cons y b =>
        simp only [PShape.Describes] at ha hb
        simp only [zipDims] at h
        split at h
        · next z zs h1 h2 =>
          cases h
          refine ⟨fun k hk => ?_, ih ha.2 hb.2 h2⟩
          have e1 := ha.1 k hk
          have e2 := hb.1 k hk
          subst e1 e2
          simpa using h1
        · cases h

theorem bcastOnto_same {p : PShape} {ss : List (List Nat)} {acc out : List Nat}
    (ha : p.Describes acc) (h : ∀ s ∈ ss, p.Describes s) (ho : bcastOnto acc ss = some out) :
    p.Describes out := by
  induction ss generalizing acc with
  | nil => simp [bcastOnto] at ho; exact ho ▸ ha
  | cons s ss ih =>
    simp only [bcastOnto, Option.bind_eq_some_iff] at ho
    obtain ⟨a, h1, h2⟩ := ho
    have hs := h s (by simp)
    have hz := bcast_zip (p := []) (a := acc) (b := s) (by rw [← ha.length, hs.length])
    simp only [List.nil_append, Option.map_id'] at hz
    rw [hz] at h1
    exact ih (zipDims_describes ha hs h1) (fun s' hs' => h s' (by simp [hs'])) h2

theorem adjacentEqual_all {s : PShape} {ss : List PShape} (h : adjacentEqual (s :: ss) = true) :
    ∀ q ∈ ss, q = s := by
  induction ss generalizing s with
  | nil => simp
  | cons a ss ih =>
    simp only [adjacentEqual, Bool.and_eq_true, beq_iff_eq] at h
    intro q hq
    rcases List.mem_cons.1 hq with rfl | hq
    · exact h.1.symm
    · rw [ih h.2 q hq, h.1]

theorem DescribesAll.mem {ps : List PShape} {ss : List (List Nat)} (h : DescribesAll ps ss)
    {q : PShape} (hq : ∀ p ∈ ps, p = q) : ∀ s ∈ ss, q.Describes s := by
  induction h with
  | nil => simp
  | cons h1 h2 ih =>
    intro s hs
    rcases List.mem_cons.1 hs with rfl | hs
    · rw [← hq _ (List.mem_cons_self ..)]; exact h1
    · exact ih (fun p hp => hq p (by simp [hp])) s hs

/-- **C16 (static shape).** If every tensor input has a static shape and no input is a `Shape`, the
inferred static shape is true of the broadcast of the actual shapes. -/
theorem C16_static_shape_partial (inputs : List ArgType) (shapes : List (List Nat)) (out : List Nat)
    (p : PShape) (ha : AdmitsAll inputs shapes) (hs : AllStatic inputs)
    (ho : bcastAll shapes = some out) (hp : computeBroadcastStaticShape inputs = some p) :
    p.Describes out := by
  obtain ⟨h1, h2⟩ := bcastOnto_tensors (acc := []) ha hs
  unfold bcastAll at ho
  rw [h1] at ho
  unfold computeBroadcastStaticShape at hp
  revert h2 ho hp
  generalize tensorShapes inputs shapes = ts
  generalize inputs.filterMap ArgType.staticShape = ps
  intro ho hp h2
  split at hp
  · cases hp
  · next q =>
    split at hp
    · cases hp
      cases h2 with
      | cons h3 h4 =>
        cases h4
        simp [bcastOnto, bcast_nil_left] at ho
        exact ho ▸ h3
    · cases hp
  · next q q' qs =>
    split at hp
    · next hadj =>
      cases hp
      cases h2 with
      | cons h3 h4 =>
        simp only [bcastOnto, bcast_nil_left, Option.bind_some] at ho
        exact bcastOnto_same h3 (h4.mem (adjacentEqual_all hadj)) ho
    · have hm : maxLength (q :: q' :: qs) = (ts.map List.length).foldl max 0 := by
        rw [← h2.lengths, List.foldl_map]; rfl
      have hol := bcastOnto_length ho
      obtain ⟨h5, h6⟩ := broadcastAllInto_describes (m := maxLength (q :: q' :: qs)) (acc := [])
        (by
          simp only [List.length_nil, Nat.sub_zero, List.append_nil]
          rw [PShape.describes_iff]
          refine ⟨by simp, fun i k hk => ?_⟩
          simp [List.getElem?_replicate] at hk ⊢
          exact ⟨hk.1, hk.2⟩) (by simp) h2
        (fun s hsm => by
          rw [hm]
          exact foldl_max_mem _ _ _ (List.mem_map_of_mem hsm)) ho hp
      rw [hm, ← (by simpa using hol : out.length = (ts.map List.length).foldl max 0)] at h5
      simpa using h5

theorem admitsAll_rank {inputs : List ArgType} {shapes : List (List Nat)}
    (h : AdmitsAll inputs shapes) :
    (∀ s ∈ shapes, s.length ≤ (inputs.map ArgType.bRank).foldl max 0) ∧
    (∀ t, ArgType.tensor t ∈ inputs → ∃ s ∈ shapes, s.length = t.rank) := by
  induction h with
  | nil => simp
  | @cons t ts s ss h1 h2 ih =>
    have hge : ∀ b : Nat, b ≤ (ts.map ArgType.bRank).foldl max 0 →
        b ≤ ((t :: ts).map ArgType.bRank).foldl max 0 := by
      intro b hb
      refine Nat.le_trans hb (foldl_max_le _ _ _ (Nat.zero_le _) fun x hx => ?_)
      exact foldl_max_mem _ _ _ (by simp only [List.map_cons, List.mem_cons]; exact .inr hx)
    refine ⟨fun q hq => ?_, fun u hu => ?_⟩
    · rcases List.mem_cons.1 hq with rfl | hq
      · refine Nat.le_trans ?_ (foldl_max_mem _ _ t.bRank (by simp))
        cases t <;> simp only [ArgType.Admits] at h1 <;> simp_all [ArgType.bRank]
      · exact hge _ (ih.1 q hq)
    · rcases List.mem_cons.1 hu with rfl | hu
      · exact ⟨s, by simp, h1.1⟩
      · obtain ⟨q, hq, he⟩ := ih.2 u hu
        exact ⟨q, by simp [hq], he⟩

/-- **C16 (rank).** With at least one tensor input, the inferred rank is the rank of the result. -/
theorem C16_rank (inputs : List ArgType) (shapes : List (List Nat)) (out : List Nat)
    (ha : AdmitsAll inputs shapes) (hz : NoRankZero inputs) (ht : inputs.any ArgType.isTensor = true)
    (ho : bcastAll shapes = some out) : computeBroadcastRank inputs = out.length := by
  rw [bcastOnto_length ho, computeBroadcastRank_eq]
  obtain ⟨h1, h2⟩ := admitsAll_rank ha
  obtain ⟨a, hm, hta⟩ := List.any_eq_true.1 ht
  have hge : ∀ t, ArgType.tensor t ∈ inputs → t.rank ≤ (shapes.map List.length).foldl max 0 := by
    intro t htm
    obtain ⟨s, hs, he⟩ := h2 t htm
    rw [← he]; exact foldl_max_mem _ _ _ (List.mem_map_of_mem hs)
  apply Nat.le_antisymm
  · refine foldl_max_le _ _ _ (Nat.zero_le _) fun x hx => ?_
    obtain ⟨b, hb, rfl⟩ := List.mem_map.1 hx
    cases a with
    | tensor t =>
      have h1 : 1 ≤ (shapes.map List.length).foldl max 0 := Nat.le_trans (hz t hm) (hge t hm)
      cases b with
      | tensor u => exact hge u hb
      | _ => simp only [ArgType.bRank]; omega
    | _ => simp [ArgType.isTensor] at hta
  · refine foldl_max_le _ _ _ (Nat.zero_le _) fun x hx => ?_
    obtain ⟨b, hb, rfl⟩ := List.mem_map.1 hx
    exact h1 b hb

/-- Scalars only: the result is a scalar. -/
theorem bcastOnto_scalars {inputs : List ArgType} {shapes : List (List Nat)}
    (h : AdmitsAll inputs shapes) (hn : ∀ a ∈ inputs, a.isScalar = true) :
    bcastOnto [] shapes = some [] := by
  induction h with
  | nil => rfl
  | @cons t ts s ss h1 h2 ih =>
    have := hn t (by simp)
    cases t <;> simp [ArgType.isScalar] at this <;>
    · simp only [ArgType.Admits] at h1; subst h1
      simp only [bcastOnto, bcast_nil_right, Option.bind_some]
      exact ih fun a ha => hn a (by simp [ha])

/-- Vectors of `k` elements and scalars: the result is a vector of `k` elements. -/
theorem bcastOnto_shapes {inputs : List ArgType} {shapes : List (List Nat)} {k : Nat}
    (h : AdmitsAll inputs shapes) (hn : ∀ a ∈ inputs, a.isScalar = true ∨ a = .shape k) :
    (∀ acc, acc = [k] → bcastOnto acc shapes = some [k]) ∧
    (.shape k ∈ inputs → bcastOnto [] shapes = some [k]) := by
  have hkk : bcast [k] [k] = some [k] := by simp [bcast, bcastRev]
  induction h with
  | nil => exact ⟨fun acc h => by simp [bcastOnto, h], by simp⟩
  | @cons t ts s ss h1 h2 ih =>
    obtain ⟨i1, i2⟩ := ih fun a ha => hn a (by simp [ha])
    rcases hn t (by simp) with ht | rfl
    · cases t <;> simp [ArgType.isScalar] at ht <;>
      · simp only [ArgType.Admits] at h1; subst h1
        simp only [bcastOnto, bcast_nil_right, Option.bind_some]
        refine ⟨i1, fun hm => i2 ?_⟩
        simpa using hm
    · simp only [ArgType.Admits] at h1; subst h1
      refine ⟨fun acc ha => ?_, fun _ => ?_⟩
      · subst ha; simp only [bcastOnto, hkk, Option.bind_some]; exact i1 _ rfl
      · simp only [bcastOnto, bcast_nil_left, Option.bind_some]; exact i1 _ rfl

theorem rank_zero_native {inputs : List ArgType} (hz : NoRankZero inputs)
    (h : computeBroadcastRank inputs = 0) : ∀ a ∈ inputs, ∃ d, a = .scalarNative d := by
  intro a ha
  have h1 := foldl_max_mem (inputs.map ArgType.bRank) 0 a.bRank (List.mem_map_of_mem ha)
  rw [← computeBroadcastRank_eq, h] at h1
  cases a with
  | scalarNative d => exact ⟨d, rfl⟩
  | tensor t => have := hz t ha; simp [ArgType.bRank] at h1; omega
  | _ => simp [ArgType.bRank] at h1

/-- The inferred annotation is right whenever the static shape is. -/
theorem broadcast_of_static {inputs : List ArgType} {shapes : List (List Nat)}
    {out : List Nat} {d : Option DType} {ty : ArgType} (ha : AdmitsAll inputs shapes)
    (hz : NoRankZero inputs)
    (hs : ∀ p, computeBroadcastStaticShape inputs = some p → p.Describes out)
    (hk : ∀ j k, .shape j ∈ inputs → .shape k ∈ inputs → j = k)
    (ho : bcastAll shapes = some out) (hty : broadcastOutputType inputs d = some ty) :
    ty.Admits out := by
  unfold broadcastOutputType at hty
  simp only [Bool.and_eq_true, Bool.not_eq_true'] at hty
  split at hty
  · next hc =>
    obtain ⟨k, hf, rfl⟩ := Option.map_eq_some_iff.1 hty
    obtain ⟨a, hm, hak⟩ := List.exists_of_findSome?_eq_some hf
    have hak' : a = .shape k := by cases a <;> simp [ArgType.shapeLen?] at hak; rw [hak]
    subst hak'
    have := (bcastOnto_shapes (k := k) ha fun b hb => by
      have hbt := List.any_eq_false.1 hc.1 b hb
      cases b with
      | tensor t => simp [ArgType.isTensor] at hbt
      | shape j => right; rw [hk j k hb hm]
      | _ => left; rfl).2 hm
    unfold bcastAll at ho
    rw [this] at ho
    simp only [Option.some.injEq] at ho
    exact ho.symm
  · next hc =>
    obtain ⟨dt, -, rfl⟩ := Option.map_eq_some_iff.1 hty
    by_cases ht : inputs.any ArgType.isTensor = true
    · have hr := C16_rank inputs shapes out ha hz ht ho
      have hr0 : computeBroadcastRank inputs ≠ 0 := by
        intro h0
        obtain ⟨a, hm, hta⟩ := List.any_eq_true.1 ht
        obtain ⟨d, rfl⟩ := rank_zero_native hz h0 a hm
        simp [ArgType.isTensor] at hta
      rw [if_neg hr0, if_neg (by simp [ht])]
      refine ⟨hr.symm, fun p hp => ?_⟩
      exact hs p hp
    · have ht' : inputs.any ArgType.isTensor = false := by simpa using ht
      have hsc : ∀ a ∈ inputs, a.isScalar = true := by
        intro a hm
        have h1 := List.any_eq_false.1 ht' a hm
        cases a with
        | tensor t => simp [ArgType.isTensor] at h1
        | shape k =>
          exfalso
          apply hc
          refine ⟨ht', ?_⟩
          rw [Option.isSome_iff_ne_none]
          intro hnone
          have := List.findSome?_eq_none_iff.1 hnone _ hm
          simp [ArgType.shapeLen?] at this
        | _ => rfl
      have hout := bcastOnto_scalars ha hsc
      unfold bcastAll at ho
      rw [hout] at ho
      simp only [Option.some.injEq] at ho
      subst ho
      have hle : computeBroadcastRank inputs ≤ 1 := by
        rw [computeBroadcastRank_eq]
        refine foldl_max_le _ _ _ (Nat.zero_le _) fun x hx => ?_
        obtain ⟨b, hb, rfl⟩ := List.mem_map.1 hx
        have := hsc b hb
        cases b <;> simp [ArgType.isScalar] at this <;> simp [ArgType.bRank]
      split
      · rfl
      · rw [if_pos (by simp [ht']; omega)]; rfl

/-- **C16.** The annotation inferred for a broadcasting operator is true of ONNX broadcasting of the
actual inputs, for every number of inputs, if either no tensor has a static shape or all of them do
(and then no input is a `Shape`), and all `Shape` inputs have the same length. -/
theorem C16_broadcast_sound_partial (inputs : List ArgType) (shapes : List (List Nat))
    (out : List Nat) (d : Option DType) (ty : ArgType) (ha : AdmitsAll inputs shapes)
    (hz : NoRankZero inputs)
    (hs : AllStatic inputs ∨ (∀ a ∈ inputs, a.staticShape = none))
    (hk : ∀ j k, .shape j ∈ inputs → .shape k ∈ inputs → j = k)
    (ho : bcastAll shapes = some out) (hty : broadcastOutputType inputs d = some ty) :
    ty.Admits out := by
  refine broadcast_of_static ha hz (fun p hp => ?_) hk ho hty
  rcases hs with hs | hs
  · exact C16_static_shape_partial inputs shapes out p ha hs ho hp
  · have : inputs.filterMap ArgType.staticShape = [] := by
      rw [List.filterMap_eq_nil_iff]; exact hs
    simp [computeBroadcastStaticShape, this] at hp

/-- A case with three tensors of different ranks and unknown dimensions, and a scalar. -/
def bcastCase : List ArgType :=
  [.tensor ⟨.f32, 3, some [some 4, none, some 1]⟩, .scalarTensor .f32, .tensor ⟨.f32, 1, some [some 5]⟩,
   .tensor ⟨.f32, 2, some [some 1, some 5]⟩]

example : broadcastOutputType bcastCase none = some (.tensor ⟨.f32, 3, some [some 4, none, some 5]⟩) ∧
    bcastAll [[4, 7, 1], [], [5], [1, 5]] = some [4, 7, 5] := by decide +kernel

example : AdmitsAll bcastCase [[4, 7, 1], [], [5], [1, 5]] ∧ AllStatic bcastCase ∧ NoRankZero bcastCase := by
  refine ⟨.cons ⟨rfl, ?_⟩ (.cons rfl (.cons ⟨rfl, ?_⟩ (.cons ⟨rfl, ?_⟩ .nil))), ?_, ?_⟩
  · intro p hp; cases hp; simp [PShape.Describes]
  · intro p hp; cases hp; simp [PShape.Describes]
  · intro p hp; cases hp; simp [PShape.Describes]
  · intro a ha
    simp only [bcastCase, List.mem_cons, List.not_mem_nil, or_false] at ha
    rcases ha with rfl | rfl | rfl | rfl <;> simp
  · intro t ht
    simp only [bcastCase, List.mem_cons, List.not_mem_nil, or_false, ArgType.tensor.injEq, reduceCtorEq,
      false_or] at ht
    rcases ht with rfl | rfl | rfl <;> simp

/-- **C16 fails** when one tensor has a static shape and another has none: `[1, 1]` with an unknown
matrix is inferred to be `[1, 1]`, but a `5 × 5` matrix makes the result `5 × 5`. -/
theorem C16_unknown_input_ignored :
    ∃ (inputs : List ArgType) (shapes : List (List Nat)) (out : List Nat) (ty : ArgType),
      AdmitsAll inputs shapes ∧ NoRankZero inputs ∧ bcastAll shapes = some out ∧
      broadcastOutputType inputs none = some ty ∧ ¬ ty.Admits out := by
  refine ⟨[.tensor ⟨.f32, 2, some [some 1, some 1]⟩, .tensor ⟨.f32, 2, none⟩], [[1, 1], [5, 5]], [5, 5],
    .tensor ⟨.f32, 2, some [some 1, some 1]⟩, .cons ⟨rfl, ?_⟩ (.cons ⟨rfl, ?_⟩ .nil), ?_, by decide +kernel,
    by decide +kernel, ?_⟩
  · intro p hp; cases hp; simp [PShape.Describes]
  · intro p hp; cases hp
  · intro t ht
    simp only [List.mem_cons, List.not_mem_nil, or_false, ArgType.tensor.injEq] at ht
    rcases ht with rfl | rfl <;> simp
  · rintro ⟨_, h⟩
    have := h _ rfl
    simp [PShape.Describes] at this

/-- **C16 fails**: with two static shapes and a longer unknown one, the inferred rank and the length
of the inferred static shape differ. -/
theorem C16_rank_and_shape_disagree :
    broadcastOutputType [.tensor ⟨.f32, 2, some [some 2, some 3]⟩, .tensor ⟨.f32, 1, some [some 3]⟩,
      .tensor ⟨.f32, 4, none⟩] none = some (.tensor ⟨.f32, 4, some [some 2, some 3]⟩) := by
  decide +kernel

/-- **C16 fails** for `Shape` inputs of different length: the first one decides. -/
theorem C16_first_shape_wins :
    broadcastOutputType [.shape 1, .shape 3] none = some (.shape 1) ∧ bcastAll [[1], [3]] = some [3] := by
  decide +kernel

end OnnxIR
