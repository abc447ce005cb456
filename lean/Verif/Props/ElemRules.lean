import Verif.Model.Registry
import Verif.Props.ElemTypes
import Verif.Props.Registry

/-!
# C15: element types, for the rules of the library
-/

namespace OnnxIR

variable {V : Type}

open Infer

/-! ## The rules -/

theorem elem_of_type {t : ArgType} {d e : DType} (h : t.HasElem d) (he : t.elemType = some e) : e = d := by
  cases t <;> simp only [ArgType.elemType, Option.some.injEq, reduceCtorEq] at he <;> subst he <;> exact h

theorem broadcast_elem {tys : List ArgType} {d : DType} {t : ArgType} (hin : ∀ a ∈ tys, a.HasElem d)
    (h : broadcastOutputType tys none = some t) : t.HasElem d := by
  simp only [broadcastOutputType] at h
  split at h
  · next hc =>
    simp only [Bool.and_eq_true, Option.isSome_iff_exists] at hc
    obtain ⟨_, k, hk⟩ := hc
    obtain ⟨a, ha, hs⟩ := List.exists_of_findSome?_eq_some hk
    rw [hk] at h
    simp only [Option.map_some, Option.some.injEq] at h
    subst h
    cases a <;> simp only [ArgType.shapeLen?, reduceCtorEq] at hs
    have : d = .i64 := hin _ ha
    exact this
  · obtain ⟨e, he, rfl⟩ := Option.map_eq_some_iff.1 h
    have : e = d := by
      simp only [broadcastDtype] at he
      split at he
      · next e' hf =>
        obtain ⟨a, ha, hs⟩ := List.exists_of_findSome?_eq_some hf
        have hx := hin a ha
        simp only [Option.some.injEq] at he
        subst he
        cases a <;> simp only [ArgType.deviceDtype?, Option.some.injEq, reduceCtorEq] at hs <;> subst hs <;> exact hx
      · obtain ⟨a, ha, he⟩ := Option.bind_eq_some_iff.1 he
        exact elem_of_type (hin a (List.mem_of_mem_head? (by simp [ha]))) he
    subst this
    split
    · rfl
    · split <;> rfl

theorem compare_elem {tys : List ArgType} {d : DType} {t : ArgType} (hin : ∀ a ∈ tys, a.HasElem d)
    (hd : d ≠ .i64) (h : broadcastOutputType tys (some .bool) = some t) : t.HasElem .bool := by
  simp only [broadcastOutputType] at h
  split at h
  · next hc =>
    simp only [Bool.and_eq_true, Option.isSome_iff_exists] at hc
    obtain ⟨_, k, hk⟩ := hc
    obtain ⟨a, ha, hs⟩ := List.exists_of_findSome?_eq_some hk
    cases a <;> simp only [ArgType.shapeLen?, reduceCtorEq] at hs
    exact absurd (hin _ ha) hd
  · obtain ⟨e, he, rfl⟩ := Option.map_eq_some_iff.1 h
    simp only [broadcastDtype, Option.some.injEq] at he
    subst he
    split
    · rfl
    · split <;> rfl

theorem constant_elem {d : DType} {dims : List Nat} {ws wn : Bool} (h : ws = true → d = .i64) :
    (Infer.constant d dims ws wn).HasElem d := by
  unfold Infer.constant
  split
  · split <;> rfl
  · split
    · next hw => exact h hw
    · rfl
  · rfl

theorem cast_elem {d : DType} {x t : ArgType}
    (hx : (∀ k, x ≠ .shape k) ∨ d ∈ [DType.f64, .f32, .f16, .bf16, .bool, .i64])
    (h : Infer.cast d x = some t) : t.HasElem d := by
  cases x <;> simp only [Infer.cast] at h
  · cases h; rfl
  · cases h; rfl
  · next k =>
    rcases hx with hx | hx
    · exact absurd rfl (hx k)
    · split at h
      · cases h; rfl
      · next hn =>
        cases h
        simp only [List.mem_cons, List.not_mem_nil, or_false] at hx
        rcases hx with rfl | rfl | rfl | rfl | rfl | rfl <;> simp [isFloatOrBool, ArgType.HasElem] at hn ⊢
  · split at h <;> cases h <;> rfl

theorem transpose_elem {p : Option (List Int)} {x t : ArgType} {d : DType} (hx : x.HasElem d)
    (h : Infer.transpose p x = some t) : t.HasElem d := by
  cases x <;> simp only [Infer.transpose, reduceCtorEq] at h
  split at h
  · cases h
  · split at h
    · cases h; exact hx
    · obtain ⟨q, _, rfl⟩ := Option.map_eq_some_iff.1 h; exact hx

theorem flatten_elem {p : Option Int} {x t : ArgType} {d : DType} (hx : x.HasElem d)
    (h : Infer.flatten p x = some t) : t.HasElem d := by
  cases x <;> simp only [Infer.flatten, reduceCtorEq] at h
  split at h
  · cases h
  · split at h
    · cases h; exact hx
    · split at h
      · cases h
      · cases h; exact hx

theorem squeeze_elem {p : Option (List Int)} {x t : ArgType} {d : DType} (hx : x.HasElem d)
    (h : Infer.squeeze p x = some t) : t.HasElem d := by
  cases x <;> simp only [Infer.squeeze] at h
  · cases h; exact hx
  · cases h; exact hx
  · have hd : d = .i64 := hx
    subst hd
    split at h
    · split at h
      · cases h
      · cases h; split <;> rfl
    · cases h; split <;> rfl
  · split at h
    · split at h
      · cases h
      · cases h; split <;> exact hx
    · split at h
      · cases h
      · cases h; split <;> exact hx

theorem unsqueezeTensor_elem {o : Nat} {p : Option (List Int)} {dims : PShape} {t : ArgType} {d : DType}
    (h : unsqueezeTensor o p dims d = some t) : t.HasElem d := by
  unfold unsqueezeTensor at h
  split at h
  · obtain ⟨q, _, rfl⟩ := Option.map_eq_some_iff.1 h; rfl
  · cases h; rfl

theorem unsqueezeElem_elem {x prev : ArgType} {d e : DType} (hx : x.HasElem d)
    (hp : prev.HasElem d ∨ prev.Unknown) (h : unsqueezeElem x prev = some e) : e = d := by
  unfold unsqueezeElem at h
  rcases hp with hp | hp
  · cases prev <;> simp only [Option.some.injEq] at h
    · exact h ▸ hp
    · exact h ▸ hp
    · exact h ▸ hp.symm
    · exact elem_of_type hx h
  · rw [hp] at h
    exact elem_of_type hx h

theorem unsqueezeScalar_elem {o : Nat} {p : Option (List Int)} {t : ArgType} {d : DType} {e : Option DType}
    (hi : isInt d = true → d = .i64) (he : ∀ e', e = some e' → e' = d)
    (h : unsqueezeScalar o p d e = some t) : t.HasElem d := by
  unfold unsqueezeScalar at h
  split at h
  · cases h
    split
    · next hc => exact hi hc
    · rfl
  · obtain ⟨e', he', h⟩ := Option.bind_eq_some_iff.1 h
    exact he e' he' ▸ unsqueezeTensor_elem h

theorem unsqueeze_elem {p : Option (List Int)} {q : Option ArgType} {prev x t : ArgType} {d : DType}
    (hx : x.HasElem d) (hp : prev.HasElem d ∨ prev.Unknown) (hi : isInt d = true → d = .i64)
    (h : Infer.unsqueeze p q prev x = some t) : t.HasElem d := by
  have he : ∀ e, unsqueezeElem x prev = some e → e = d := fun e => unsqueezeElem_elem hx hp
  cases x <;> simp only [Infer.unsqueeze, reduceCtorEq] at h
  · obtain ⟨o, _, h⟩ := Option.bind_eq_some_iff.1 h
    have hd : _ = d := hx
    subst hd
    exact unsqueezeScalar_elem hi he h
  · obtain ⟨o, _, h⟩ := Option.bind_eq_some_iff.1 h
    have hd : _ = d := hx
    subst hd
    exact unsqueezeScalar_elem hi he h
  · obtain ⟨o, _, h⟩ := Option.bind_eq_some_iff.1 h
    obtain ⟨e, he', h⟩ := Option.bind_eq_some_iff.1 h
    exact he e he' ▸ unsqueezeTensor_elem h

theorem gather_elem {a : Int} {x i t : ArgType} {d : DType} (hx : x.HasElem d)
    (h : Infer.gather a x i = some t) : t.HasElem d := by
  simp only [Infer.gather] at h
  split at h
  · cases h
  · cases x <;> simp only at h
    · cases h; exact hx
    · cases h; exact hx
    · split at h <;> cases h
      · exact hx.symm
      · exact hx
    · split at h <;> cases h <;> exact hx

theorem concat_elem {inputs : List (ArgType × Option (List Nat))} {d : DType} {t : ArgType}
    (hin : ∀ a ∈ inputs, a.1.HasElem d) (h : Infer.concat inputs = some t) : t.HasElem d := by
  have hany : inputs.any (fun i => Infer.isShape i.1) = true → d = .i64 := by
    intro hs
    obtain ⟨a, ha, hs⟩ := List.any_eq_true.1 hs
    have := hin a ha
    cases hk : a.1 <;> simp [Infer.isShape, hk] at hs
    rw [hk] at this
    exact this
  simp only [Infer.concat] at h
  split at h
  · next hsc =>
    simp only [concatScalars] at h
    split at h
    · cases h
    · split at h
      · next hs => cases h; exact hany hs
      · next hns =>
        split at h
        · cases h
          show (inputs.filterMap (fun i => concatDtype i.1)).headD .i64 = d
          cases hl : inputs.filterMap (fun i => concatDtype i.1) with
          | nil =>
            exfalso
            obtain ⟨a, ha, hs⟩ := List.any_eq_true.1 hsc
            have := List.filterMap_eq_nil_iff.1 hl a ha
            cases hk : a.1 <;> simp [hk, concatDtype, ArgType.isScalar] at this hs
          | cons e es =>
            have : e ∈ inputs.filterMap (fun i => concatDtype i.1) := by simp [hl]
            obtain ⟨a, ha, he⟩ := List.mem_filterMap.1 this
            have hx := hin a ha
            cases hk : a.1 <;> rw [hk] at he hx <;> simp only [concatDtype, Option.some.injEq, reduceCtorEq] at he <;>
              subst he <;> exact hx
        · cases h
  · split at h
    · cases h
    · split at h
      · next hs =>
        simp only [Bool.and_eq_true] at hs
        obtain ⟨k, _, rfl⟩ := Option.map_eq_some_iff.1 h
        exact hany hs.1
      · split at h
        · next u rest he =>
          cases h
          have : ArgType.tensor u ∈ inputs.map Prod.fst := by simp [he]
          obtain ⟨a, ha, hu⟩ := List.mem_map.1 this
          have := hin a ha
          rw [hu] at this
          exact this
        · next u rest he =>
          obtain ⟨k, _, rfl⟩ := Option.map_eq_some_iff.1 h
          have : ArgType.shape u ∈ inputs.map Prod.fst := by simp [he]
          obtain ⟨a, ha, hu⟩ := List.mem_map.1 this
          have := hin a ha
          rw [hu] at this
          exact this
        · cases h

theorem reshapeElem_elem {x : ArgType} {d : DType} (hx : x.HasElem d) : reshapeElem x = d := by
  cases x <;> first | exact hx | exact hx.symm

theorem reshape_elem {az : Bool} {tg : Option (List Int)} {q : Option ArgType} {prev x t : ArgType} {d : DType}
    (hx : x.HasElem d) (h : Infer.reshape az tg q prev x = some t) : t.HasElem d := by
  simp only [Infer.reshape] at h
  split at h
  · cases h
  · split at h
    · cases h
    · obtain ⟨r, _, rfl⟩ := Option.map_eq_some_iff.1 h
      have he := reshapeElem_elem hx
      unfold reshapeOut
      split
      · exact he
      · cases x <;> simp only
        · exact he
        · split <;> exact he
        · split
          · exact hx
          · exact hx.symm
        · exact he

theorem shape_elem {a b : Option Int} {x t : ArgType} (h : Infer.shape a b x = some t) : t.HasElem .i64 := by
  cases x <;> simp only [Infer.shape, reduceCtorEq] at h
  · cases h; rfl
  · split at h <;> cases h; rfl

theorem matmul_elem {a b t : ArgType} {d : DType} (hx : a.HasElem d) (h : Infer.matmul a b = some t) : t.HasElem d := by
  cases a <;> cases b <;> simp only [Infer.matmul, reduceCtorEq] at h
  split at h
  · cases h
  · split at h
    · cases h
    · cases h; exact hx

theorem matmulInteger_elem {a b t : ArgType} (h : Infer.matmulInteger a b = some t) : t.HasElem .i32 := by
  cases a <;> cases b <;> simp only [Infer.matmulInteger, reduceCtorEq] at h
  cases h; rfl

theorem gemm_elem {a b t : ArgType} {d : DType} (hx : a.HasElem d) (h : Infer.gemm a b = some t) : t.HasElem d := by
  cases a <;> cases b <;> simp only [Infer.gemm, reduceCtorEq] at h
  cases h; exact hx

theorem reduce_elem {as : List Int} {k : Bool} {x t : ArgType} {d : DType} (hx : x.HasElem d)
    (h : Infer.reduce as k x = some t) : t.HasElem d := by
  cases x <;> simp only [Infer.reduce, reduceCtorEq] at h
  split at h
  · cases h
  · split at h
    · cases h; exact hx
    · split at h
      · cases h
      · split at h
        · cases h; exact hx
        · split at h
          · cases h; exact hx
          · split at h <;> obtain ⟨q, _, rfl⟩ := Option.map_eq_some_iff.1 h <;> exact hx

theorem argmax_elem {k : Bool} {x t : ArgType} (h : Infer.argmax k x = some t) : t.HasElem .i64 := by
  cases x <;> simp only [Infer.argmax, reduceCtorEq] at h
  split at h
  · cases h; rfl
  · split at h <;> cases h <;> rfl

theorem topk_elem {x : ArgType} {p : ArgType × ArgType} {d : DType} (hx : x.HasElem d)
    (h : Infer.topk x = some p) : p.1.HasElem d ∧ p.2.HasElem .i64 := by
  cases x <;> simp only [Infer.topk, reduceCtorEq] at h
  cases h; exact ⟨hx, rfl⟩

theorem topk_second {x : ArgType} {p : ArgType × ArgType}
    (h : Infer.topk x = some p) : p.2.HasElem .i64 := by
  cases x <;> simp only [Infer.topk, reduceCtorEq] at h
  cases h; rfl

theorem gatherElements_elem {x i t : ArgType} {d : DType} (hx : x.HasElem d)
    (h : Infer.gatherElements x i = some t) : t.HasElem d := by
  cases x <;> cases i <;> simp only [Infer.gatherElements, reduceCtorEq] at h
  cases h; exact hx

theorem conv_elem {n : Nat} {a : WindowAttrs} {x w t : ArgType} {ws : Option (List Nat)} {d : DType}
    (hx : x.HasElem d)
    (h : (match n with
        | 1 => Infer.conv1d a x w ws
        | 2 => Infer.conv2d a x w ws
        | 3 => Infer.conv3d a x w ws
        | _ => none) = some t) : t.HasElem d := by
  split at h
  · cases x <;> cases w <;> simp only [Infer.conv1d, reduceCtorEq] at h
    repeat' (split at h <;> try cases h)
    all_goals exact hx
  · cases x <;> cases w <;> simp only [Infer.conv2d, reduceCtorEq] at h
    repeat' (split at h <;> try cases h)
    all_goals exact hx
  · cases x <;> cases w <;> simp only [Infer.conv3d, reduceCtorEq] at h
    repeat' (split at h <;> try cases h)
    all_goals exact hx
  · cases h

theorem deformConv_elem {a : WindowAttrs} {x w t : ArgType} {ws : Option (List Nat)} {d : DType}
    (hx : x.HasElem d) (h : Infer.deformConv a x w ws = some t) : t.HasElem d := by
  cases x <;> cases w <;> simp only [Infer.deformConv, reduceCtorEq] at h
  repeat' (split at h <;> try cases h)
  all_goals exact hx

theorem rankOnly_elem {x t : ArgType} {d : DType} (hx : x.HasElem d) (h : Infer.rankOnly x = some t) :
    t.HasElem d := by
  cases x <;> simp only [Infer.rankOnly, reduceCtorEq] at h
  cases h; exact hx

theorem batchNorm_elem {s x t : ArgType} {v : Option (List Nat)} {d : DType} (hx : x.HasElem d)
    (h : Infer.batchNorm s v x = some t) : t.HasElem d := by
  cases x <;> simp only [Infer.batchNorm, reduceCtorEq] at h
  cases h; exact hx

theorem gatherND_elem {b : Int} {x i t : ArgType} {d : DType} (hx : x.HasElem d)
    (h : Infer.gatherND b x i = some t) : t.HasElem d := by
  cases x <;> cases i <;> simp only [Infer.gatherND, reduceCtorEq] at h
  repeat' (split at h <;> try cases h)
  all_goals exact hx

theorem split_elem {x t : ArgType} {a : Int} {sz : Option (List Int)} {i : Nat} {d : DType} (hx : x.HasElem d)
    (h : Infer.splitOutput x a sz i = some t) : t.HasElem d := by
  have key : ∀ {dt rank sh}, dt = d → splitTensor dt rank sh a sz i = some t → t.HasElem d := by
    intro dt rank sh hd h
    subst hd
    unfold splitTensor at h
    repeat' (split at h <;> try cases h)
    all_goals rfl
  cases x <;> simp only [Infer.splitOutput, reduceCtorEq] at h
  · exact key hx.symm h
  · exact key hx h

theorem nonZero_elem {x t : ArgType} (h : Infer.nonZero x = some t) : t.HasElem .i64 := by
  cases x <;> simp only [Infer.nonZero, reduceCtorEq] at h
  cases h; rfl

theorem oneHot_elem {x t : ArgType} {d : DType} (h : Infer.oneHot d x = some t) : t.HasElem d := by
  cases x <;> simp only [Infer.oneHot, reduceCtorEq] at h
  cases h; rfl

theorem constantOfShape_elem {x t : ArgType} {v : Option (List Int)} {d : DType}
    (h : Infer.constantOfShape d v x = some t) : t.HasElem d := by
  unfold Infer.constantOfShape at h
  split at h
  · cases h
  · split at h
    · next hc => split at h <;> cases h <;> first | rfl | exact hc.2
    · split at h <;> cases h <;> rfl

theorem likeInput_elem {x t : ArgType} {d : DType} (h : Infer.likeInput d x = some t) : t.HasElem d := by
  cases x <;> simp only [Infer.likeInput, reduceCtorEq] at h
  cases h; rfl

theorem randomLike_elem {d : Option DType} {x t : ArgType} (h : Infer.randomLikeType d x = some t) :
    t.HasElem (d.getD .f32) := by
  unfold Infer.randomLikeType at h
  split at h <;> cases h <;> next he => rw [he]; rfl

theorem expand_elem {tg : Option (List Int)} {s prev x t : ArgType} {d : DType} (hx : x.HasElem d)
    (h : Infer.expand tg s prev x = some t) : t.HasElem d := by
  unfold Infer.expand at h
  split at h
  · obtain ⟨e, he, h⟩ := Option.bind_eq_some_iff.1 h
    have : e = d := by
      cases x <;> simp only [expandElem, Option.some.injEq, reduceCtorEq] at he <;> subst he <;> exact hx
    subst this
    split at h
    · cases h; rfl
    · obtain ⟨r, _, rfl⟩ := Option.map_eq_some_iff.1 h; rfl
  · cases h

theorem depthToSpace_elem {b : Nat} {x t : ArgType} {d : DType} (hx : x.HasElem d)
    (h : Infer.depthToSpace b x = some t) : t.HasElem d := by
  cases x <;> simp only [Infer.depthToSpace, reduceCtorEq] at h
  repeat' (split at h <;> try cases h)
  all_goals exact hx

theorem spaceToDepth_elem {b : Nat} {x t : ArgType} {d : DType} (hx : x.HasElem d)
    (h : Infer.spaceToDepth b x = some t) : t.HasElem d := by
  cases x <;> simp only [Infer.spaceToDepth, reduceCtorEq] at h
  repeat' (split at h <;> try cases h)
  all_goals exact hx

theorem elementType_code (d : DType) : Decode.elementType (Onnx.typeCode d) = some d := by
  cases d <;> rfl

/-! ## What the rules get wrong -/

/-- The guards of the single rules. Comparisons of `Shape` values are annotated as dimensions; a `Shape`
cast to another integer type, and an integer scalar that gains a dimension, too; Pow takes the type of
its first operand on the device; Gather makes dimensions of the constant indices into dimensions; the
result of OneHot keeps the placeholder type; without `dtype`, RandomNormalLike and RandomUniformLike
give 32-bit floats; Bernoulli knows five types only. -/
def Onnx.ElemLaw.Supported (δ : Elems) (k : Skeleton V) : Onnx.ElemLaw → Prop
  | .power => Onnx.OneType δ k
  | .compare => ∃ d, Onnx.inElem δ k 0 = some d ∧ d ≠ .i64
  | .cast => (∃ e, Onnx.inElem δ k 0 = some e ∧ e ≠ .i64) ∨
      ∀ y ∈ k.outputs, ∀ d, δ y.1 = some d → d ∈ [DType.f64, .f32, .f16, .bf16, .bool, .i64]
  | .unsqueeze => ∀ d, Onnx.inElem δ k 0 = some d → d ∉ [DType.i32, .i16, .i8]
  | .gather => (∃ e, Onnx.inElem δ k 0 = some e ∧ e ≠ .i64) ∨ ∀ d, Onnx.inElem δ k 1 = some d → d = .i64
  | .oneHot => ∀ y ∈ k.outputs, ∀ d, δ y.1 = some d → d = .f32
  | .bernoulli => ∀ d, k.attrs.lookup "dtype" = some (.i64 (Onnx.typeCode d)) →
      d ∈ [DType.f32, .i32, .i64, .f64, .bool]
  | .randomLike => k.attrs.lookup "dtype" = none → Onnx.inElem δ k 0 = some .f32
  | _ => True

theorem where_elem {c x y t : ArgType} {d : DType} (hx : x.HasElem d) (hy : y.HasElem d)
    (h : Infer.where_ c x y = some t) : t.HasElem d := by
  have e : ∀ {z : ArgType}, z.HasElem d → whereElem z = d := by
    intro z hz
    cases z <;> simp only [ArgType.HasElem] at hz <;> simp [whereElem, hz]
  have hd : whereDtype x y = some d := by simp [whereDtype, e hx, e hy]
  simp only [Infer.where_, hd] at h
  split at h
  · cases h
  · split at h
    · cases h; rfl
    · split at h
      · next hh =>
        cases h
        simp only [Bool.and_eq_true, beq_iff_eq] at hh
        exact hh.2
      · cases h; rfl

/-! ## The table -/

/-- Whether a rule is the one for a law. -/
def elemFits : Rule → Onnx.ElemLaw → Bool
  | .same, l | .transpose, l | .flatten, l | .squeeze, l | .matmul, l | .gemm, l | .reduce, l
  | .gatherElements, l | .scatter, l | .conv _, l | .deformConv, l | .rankOnly, l | .copied, l
  | .batchNorm, l | .depthToSpace, l | .spaceToDepth, l | .gatherND, l | .split, l | .range, l => l = .first
  | .broadcast none, l => l = .common ∨ l = .power
  | .broadcast (some d), l => d = .bool ∧ l = .compare
  | .constant, l => l = .stored
  | .cast, l => l = .cast
  | .unsqueeze, l => l = .unsqueeze
  | .gather, l => l = .gather
  | .concat, l => l = .common
  | .reshape, l => l = .reshape
  | .shape, l | .argmax, l | .nonZero, l | .size, l => l = .fixed .i64
  | .matmulInteger, l => l = .fixed .i32
  | .topk, l => l = .topk
  | .oneHot, l => l = .oneHot
  | .constantOfShape, l => l = .fill
  | .eyeLike, l => l = .like
  | .bernoulli, l => l = .bernoulli
  | .randomLike, l => l = .randomLike
  | .dropout, l => l = .dropout
  | .expand, l => l = .expand
  | .where_, l => l = .select

theorem ruleOf_elem {t : NodeType} {law : Onnx.ElemLaw} (h : Onnx.elemLawOf t = some law) :
    ∃ r, ruleOf t = some r ∧ elemFits r law = true := by
  have key : ((ruleOf t).any fun r => elemFits r law) = true := by
    cases t with
    | other name =>
      have h1 : ∀ p ∈ Onnx.namedElemLaws, ((ruleOf (.other p.1)).any fun r => elemFits r p.2) = true := by
        decide +kernel
      exact h1 _ (mem_of_lookup (show Onnx.namedElemLaws.lookup name = some law from h))
    | linear => simp [Onnx.elemLawOf] at h
    | attention => simp [Onnx.elemLawOf] at h
    | slice => simp [Onnx.elemLawOf] at h
    | _ =>
      simp only [Onnx.elemLawOf, Option.some.injEq] at h
      subst h
      decide +kernel
  obtain ⟨r, hr, hf⟩ := (Option.any_eq_true _ _).1 key
  exact ⟨r, hr, hf⟩

/-! ## Soundness of the table -/

/-- The types are right about the elements of the outputs, or say nothing. -/
def ElemGood (δ : Elems) (m : Node V) (tys : List ArgType) : Prop :=
  ∀ (k : Nat) (o : Arg V), m.outputs[k]? = some o →
    ((tys[k]?).getD o.ty).Unknown ∨ ∀ d, δ o.name = some d → ((tys[k]?).getD o.ty).HasElem d

section
variable {δ : Elems} {S : Store V} {opset : Nat} {m : Node V} {prefs : OutPrefs} {tys : List ArgType}

theorem kept_elem (hopen : ∀ o ∈ m.outputs, ElemTrue δ o ∨ o.ty.Unknown) {k : Nat} {o : Arg V}
    (ho : m.outputs[k]? = some o) : o.ty.Unknown ∨ ∀ d, δ o.name = some d → o.ty.HasElem d :=
  (hopen o (List.mem_of_getElem? ho)).symm

theorem ElemGood.one (hopen : ∀ o ∈ m.outputs, ElemTrue δ o ∨ o.ty.Unknown) {t : ArgType}
    (h : ∀ o, m.outputs[0]? = some o → ∀ d, δ o.name = some d → t.HasElem d) : ElemGood δ m [t] := by
  intro k o ho
  cases k with
  | zero => exact .inr (h o ho)
  | succ k => simpa using kept_elem hopen ho

theorem first_elem (hin : ∀ a ∈ m.inputs, ElemTrue δ a) {i : Nat} {d : DType} {x : ArgType}
    (h0 : Onnx.inElem δ m.skel i = some d) (hx : inTy m i = some x) : x.HasElem d := by
  obtain ⟨a, ha, rfl⟩ := Option.map_eq_some_iff.1 hx
  have : δ a.name = some d := by
    simpa [Onnx.inElem, Node.skel, ha] using h0
  exact hin a (List.mem_of_getElem? ha) d this

theorem skel_output {k : Nat} {o : Arg V} (h : m.outputs[k]? = some o) :
    m.skel.outputs[k]? = some (o.name, o.src) := by
  simp [Node.skel, h]

variable (hin : ∀ a ∈ m.inputs, ElemTrue δ a) (hopen : ∀ o ∈ m.outputs, ElemTrue δ o ∨ o.ty.Unknown)
include hin hopen

theorem good_map {F : ArgType → Option ArgType} (hF : ∀ x t d, x.HasElem d → F x = some t → t.HasElem d)
    (hl : ∀ o, m.outputs[0]? = some o → ∀ d, δ o.name = some d → Onnx.inElem δ m.skel 0 = some d)
    {x : ArgType} (hx : inTy m 0 = some x) (ha : (F x).map ([·]) = some tys) : ElemGood δ m tys := by
  obtain ⟨t, ht, rfl⟩ := Option.map_eq_some_iff.1 ha
  exact .one hopen fun o ho d hd => hF x t d (first_elem hin (hl o ho d hd) hx) ht

/-- The rules whose result has the elements of the first input. -/
theorem good_first {r : Rule}
    (hr : elemFits r .first = true)
    (hl : ∀ (j : Nat) o, m.outputs[j]? = some o → ∀ d, δ o.name = some d → Onnx.inElem δ m.skel 0 = some d)
    (ha : apply S opset m prefs r = some tys) : ElemGood δ m tys := by
  have hl0 := hl 0
  cases r with
  | same =>
    simp only [apply, sameAsInput, List.head?_map] at ha
    obtain ⟨t, ht, rfl⟩ := Option.map_eq_some_iff.1 ha
    refine .one hopen fun o ho d hd => first_elem hin (hl0 o ho d hd) ?_
    simpa [inTy, List.head?_eq_getElem?] using ht
  | broadcast d =>
    cases d <;> simp [elemFits] at hr
  | transpose =>
    simp only [apply] at ha
    split at ha
    · next hx => exact good_map hin hopen (fun _ _ _ => transpose_elem) hl0 hx ha
    · cases ha
  | flatten =>
    simp only [apply] at ha
    split at ha
    · next hx => exact good_map hin hopen (fun _ _ _ => flatten_elem) hl0 hx ha
    · cases ha
  | squeeze =>
    simp only [apply] at ha
    split at ha
    · next hx => exact good_map hin hopen (fun _ _ _ => squeeze_elem) hl0 hx ha
    · cases ha
  | matmul =>
    simp only [apply] at ha
    split at ha
    · next b hx _ => exact good_map (F := fun x => Infer.matmul x b) hin hopen (fun _ _ _ => matmul_elem) hl0 hx ha
    · cases ha
  | gemm =>
    simp only [apply] at ha
    split at ha
    · next b hx _ => exact good_map (F := fun x => Infer.gemm x b) hin hopen (fun _ _ _ => gemm_elem) hl0 hx ha
    · cases ha
  | reduce =>
    simp only [apply] at ha
    split at ha
    · next hx => exact good_map hin hopen (fun _ _ _ => reduce_elem) hl0 hx ha
    · cases ha
  | gatherElements =>
    simp only [apply] at ha
    split at ha
    · next x i hx _ =>
      simp only [Option.some.injEq] at ha
      subst ha
      cases hg : Infer.gatherElements x i with
      | none => exact fun k o ho => by simpa using kept_elem hopen ho
      | some t => exact .one hopen fun o ho d hd => gatherElements_elem (first_elem hin (hl0 o ho d hd) hx) hg
    · cases ha
  | scatter =>
    simp only [apply] at ha
    split at ha
    · next t hx => cases ha; exact .one hopen fun o ho d hd => first_elem hin (hl0 o ho d hd) hx
    · cases ha; exact fun k o ho => by simpa using kept_elem hopen ho
    · cases ha
  | conv n =>
    simp only [apply] at ha
    split at ha
    · next hx _ =>
      obtain ⟨t, ht, rfl⟩ := Option.map_eq_some_iff.1 ha
      exact .one hopen fun o ho d hd => conv_elem (first_elem hin (hl0 o ho d hd) hx) ht
    · cases ha
  | deformConv =>
    simp only [apply] at ha
    split at ha
    · next hx _ =>
      obtain ⟨t, ht, rfl⟩ := Option.map_eq_some_iff.1 ha
      exact .one hopen fun o ho d hd => deformConv_elem (first_elem hin (hl0 o ho d hd) hx) ht
    · cases ha
  | rankOnly =>
    simp only [apply] at ha
    obtain ⟨x, hx, ha⟩ := Option.bind_eq_some_iff.1 ha
    exact good_map hin hopen (fun _ _ _ => rankOnly_elem) hl0 hx ha
  | copied =>
    simp only [apply] at ha
    obtain ⟨x, hx, ha⟩ := Option.bind_eq_some_iff.1 ha
    exact good_map hin hopen (fun _ _ _ h e => by cases e; exact h) hl0 hx ha
  | batchNorm =>
    simp only [apply] at ha
    split at ha
    · next hx _ => exact good_map hin hopen (fun _ _ _ => batchNorm_elem) hl0 hx ha
    · cases ha
  | depthToSpace =>
    simp only [apply] at ha
    split at ha
    · next hx => exact good_map hin hopen (fun _ _ _ => depthToSpace_elem) hl0 hx ha
    · cases ha
  | spaceToDepth =>
    simp only [apply] at ha
    split at ha
    · next hx => exact good_map hin hopen (fun _ _ _ => spaceToDepth_elem) hl0 hx ha
    · cases ha
  | gatherND =>
    simp only [apply] at ha
    split at ha
    · next b _ i _ hx _ =>
      obtain ⟨t, ht, rfl⟩ := Option.map_eq_some_iff.1 ha
      exact .one hopen fun o ho d hd => gatherND_elem (first_elem hin (hl0 o ho d hd) hx) ht
    · cases ha
  | split =>
    simp only [apply] at ha
    split at ha
    · next hx =>
      intro k o ho
      right
      intro d hd
      have hk : k < m.outputs.length := (List.getElem?_eq_some_iff.1 ho).1
      obtain ⟨t, ht, hs⟩ := (mapM_some_getElem? ha).2 k k (by simp [hk])
      rw [ht]
      exact split_elem (first_elem hin (hl k o ho d hd) hx) hs
    · cases ha
  | range =>
    simp only [apply] at ha
    obtain ⟨e, he, rfl⟩ := Option.map_eq_some_iff.1 ha
    obtain ⟨x, hx, he⟩ := Option.bind_eq_some_iff.1 he
    exact .one hopen fun o ho d hd => elem_of_type (first_elem hin (hl0 o ho d hd) hx) he
  | _ => simp [elemFits] at hr

theorem good_fixed {t : ArgType} {e : DType} (ht : t.HasElem e)
    (hl : ∀ o, m.outputs[0]? = some o → ∀ d, δ o.name = some d → d = e) : ElemGood δ m [t] :=
  .one hopen fun o ho d hd => hl o ho d hd ▸ ht

omit hopen in
theorem inputs_one (h : Onnx.OneType δ m.skel) : ∃ d, (∀ t ∈ m.inputs.map Arg.ty, t.HasElem d) ∧
    (∀ a ∈ m.inputs, δ a.name = some d) ∧ ∀ e, Onnx.inElem δ m.skel 0 = some e → e = d := by
  obtain ⟨d, hd⟩ := h
  have hd' : ∀ a ∈ m.inputs, δ a.name = some d := fun a ha =>
    hd (a.name, a.src) (List.mem_map.2 ⟨a, ha, rfl⟩)
  refine ⟨d, ?_, hd', ?_⟩
  · intro t ht
    obtain ⟨a, ha, rfl⟩ := List.mem_map.1 ht
    exact hin a ha d (hd' a ha)
  · intro e he
    simp only [Onnx.inElem] at he
    obtain ⟨a, ha, he⟩ := Option.bind_eq_some_iff.1 he
    have := hd a (List.mem_of_getElem? ha)
    rw [this] at he
    exact (Option.some.inj he).symm

theorem good_apply {r : Rule} {law : Onnx.ElemLaw} (hr : elemFits r law = true)
    (hl : law.Holds δ ((S.at m.skel 0).map S.dtype) S.dtype m.skel) (hs : law.Supported δ m.skel)
    (hw : ∀ o ∈ m.outputs, Pref.shape ∈ prefs o.name → IsI64 δ o.name)
    (ha : apply S opset m prefs r = some tys) : ElemGood δ m tys := by
  obtain ⟨hli, hl⟩ := hl
  have hl : ∀ (j : Nat) o, m.outputs[j]? = some o → ∀ d, δ o.name = some d →
      law.Gives δ ((S.at m.skel 0).map S.dtype) S.dtype m.skel j d :=
    fun j o ho => hl j (o.name, o.src) (skel_output ho)
  have hl0 := hl 0
  have ho' : ∀ (j : Nat) o, m.outputs[j]? = some o → (o.name, o.src) ∈ m.skel.outputs :=
    fun j o ho => List.mem_of_getElem? (skel_output ho)
  by_cases hf : elemFits r .first = true ∧ law = .first
  · obtain ⟨hf, rfl⟩ := hf
    exact good_first hin hopen hf hl ha
  cases r with
  | broadcast d =>
    cases d with
    | none =>
      simp only [apply] at ha
      obtain ⟨t, ht, rfl⟩ := Option.map_eq_some_iff.1 ha
      simp only [elemFits, decide_eq_true_eq] at hr
      have h1 : Onnx.OneType δ m.skel := by rcases hr with rfl | rfl; exacts [hli, hs]
      obtain ⟨d, h2, _, h3⟩ := inputs_one hin h1
      refine .one hopen fun o ho e he => ?_
      have : e = d := by rcases hr with rfl | rfl <;> exact h3 e (hl0 o ho e he)
      subst this
      exact broadcast_elem h2 ht
    | some d =>
      simp only [elemFits, decide_eq_true_eq] at hr
      obtain ⟨rfl, rfl⟩ := hr
      simp only [apply] at ha
      obtain ⟨t, ht, rfl⟩ := Option.map_eq_some_iff.1 ha
      obtain ⟨d, h2, _, h3⟩ := inputs_one hin hli
      obtain ⟨e, he, hne⟩ := hs
      have : e = d := h3 e he
      subst this
      exact good_fixed hin hopen (compare_elem h2 hne ht) hl0
  | constant =>
    simp only [elemFits, decide_eq_true_eq] at hr
    subst hr
    simp only [apply] at ha
    split at ha
    · next v o hv ho =>
      cases ha
      refine .one hopen fun o' ho' d hd => ?_
      rw [ho] at ho'; cases ho'
      have h1 : (S.at m.skel 0).map S.dtype = some d := hl0 o ho d hd
      have h2 : S.at m.skel 0 = some v := by
        obtain ⟨a, ha, hv⟩ := Option.bind_eq_some_iff.1 hv
        simpa [Store.at, Node.skel, ha, Store.read] using hv
      rw [h2] at h1
      cases h1
      exact constant_elem fun hc => hw o (List.mem_of_getElem? ho) (by simpa using hc) _ hd
    · cases ha
  | cast =>
    simp only [elemFits, decide_eq_true_eq] at hr
    subst hr
    simp only [apply] at ha
    split at ha
    · next c x hc hx =>
      obtain ⟨e, he, ha⟩ := Option.bind_eq_some_iff.1 ha
      obtain ⟨t, ht, rfl⟩ := Option.map_eq_some_iff.1 ha
      refine .one hopen fun o ho d hd => ?_
      have h1 : m.attrs.lookup "to" = some (.i64 (Onnx.typeCode d)) := hl0 o ho d hd
      rw [hc] at h1
      simp only [Option.some.injEq, AttrVal.i64.injEq] at h1
      rw [h1, elementType_code] at he
      cases he
      refine cast_elem ?_ ht
      rcases hs with ⟨e, he, hne⟩ | hs
      · left
        rintro k rfl
        exact hne (first_elem hin he hx)
      · exact .inr (hs _ (ho' 0 o ho) _ hd)
    · cases ha
  | unsqueeze =>
    simp only [elemFits, decide_eq_true_eq] at hr
    subst hr
    simp only [apply] at ha
    split at ha
    · next x o _ hx ho =>
      obtain ⟨t, ht, rfl⟩ := Option.map_eq_some_iff.1 ha
      refine .one hopen fun o' ho' d hd => ?_
      rw [ho] at ho'; cases ho'
      have h0 := hl0 o ho d hd
      refine unsqueeze_elem (first_elem hin h0 hx) ?_ ?_ ht
      · rcases hopen o (List.mem_of_getElem? ho) with h | h
        · exact .inl (h d hd)
        · exact .inr h
      · intro hi
        have := hs d h0
        cases d <;> simp [isInt] at hi this ⊢
    · cases ha
  | gather =>
    simp only [elemFits, decide_eq_true_eq] at hr
    subst hr
    simp only [apply] at ha
    split at ha
    · next hx _ =>
      obtain ⟨t, ht, rfl⟩ := Option.map_eq_some_iff.1 ha
      exact .one hopen fun o ho d hd => gather_elem (first_elem hin (hl0 o ho d hd) hx) ht
    · cases ha
  | concat =>
    simp only [elemFits, decide_eq_true_eq] at hr
    subst hr
    simp only [apply] at ha
    split at ha
    · obtain ⟨t, ht, rfl⟩ := Option.map_eq_some_iff.1 ha
      obtain ⟨d, h2, _, h3⟩ := inputs_one hin hli
      refine .one hopen fun o ho e he => ?_
      have : e = d := h3 e (hl0 o ho e he)
      subst this
      refine concat_elem ?_ ht
      intro p hp
      obtain ⟨a, ha, rfl⟩ := List.mem_map.1 hp
      exact h2 a.ty (List.mem_map_of_mem ha)
    · cases ha
  | reshape =>
    simp only [elemFits, decide_eq_true_eq] at hr
    subst hr
    simp only [apply] at ha
    split at ha
    · next hx _ =>
      obtain ⟨t, ht, rfl⟩ := Option.map_eq_some_iff.1 ha
      exact .one hopen fun o ho d hd => reshape_elem (first_elem hin (hl0 o ho d hd) hx) ht
    · cases ha
  | shape =>
    simp only [elemFits, decide_eq_true_eq] at hr
    subst hr
    simp only [apply] at ha
    split at ha
    · obtain ⟨t, ht, rfl⟩ := Option.map_eq_some_iff.1 ha
      exact good_fixed hin hopen (shape_elem ht) hl0
    · cases ha
  | argmax =>
    simp only [elemFits, decide_eq_true_eq] at hr
    subst hr
    simp only [apply] at ha
    split at ha
    · split at ha
      · obtain ⟨t, ht, rfl⟩ := Option.map_eq_some_iff.1 ha
        exact good_fixed hin hopen (argmax_elem ht) hl0
      · cases ha
    · cases ha
  | nonZero =>
    simp only [elemFits, decide_eq_true_eq] at hr
    subst hr
    simp only [apply] at ha
    obtain ⟨x, _, ha⟩ := Option.bind_eq_some_iff.1 ha
    obtain ⟨t, ht, rfl⟩ := Option.map_eq_some_iff.1 ha
    exact good_fixed hin hopen (nonZero_elem ht) hl0
  | size =>
    simp only [elemFits, decide_eq_true_eq] at hr
    subst hr
    simp only [apply, Option.some.injEq] at ha
    subst ha
    exact good_fixed hin hopen rfl hl0
  | matmulInteger =>
    simp only [elemFits, decide_eq_true_eq] at hr
    subst hr
    simp only [apply] at ha
    split at ha
    · obtain ⟨t, ht, rfl⟩ := Option.map_eq_some_iff.1 ha
      exact good_fixed hin hopen (matmulInteger_elem ht) hl0
    · cases ha
  | topk =>
    simp only [elemFits, decide_eq_true_eq] at hr
    subst hr
    simp only [apply] at ha
    obtain ⟨x, hx, ha⟩ := Option.bind_eq_some_iff.1 ha
    obtain ⟨p, hp, rfl⟩ := Option.map_eq_some_iff.1 ha
    intro k o ho
    match k with
    | 0 =>
      right
      intro d hd
      exact (topk_elem (first_elem hin (hl0 o ho d hd) hx) hp).1
    | 1 =>
      right
      intro d hd
      have : d = .i64 := hl 1 o ho d hd
      exact this ▸ topk_second hp
    | k + 2 => simpa using kept_elem hopen ho
  | oneHot =>
    simp only [elemFits, decide_eq_true_eq] at hr
    subst hr
    simp only [apply] at ha
    split at ha
    · next x e hx he =>
      obtain ⟨t, ht, rfl⟩ := Option.map_eq_some_iff.1 ha
      refine .one hopen fun o ho d hd => ?_
      rw [ho] at he
      have h1 : o.ty.elemType = some e := he
      have h2 : d = .f32 := hs _ (ho' 0 o ho) d hd
      have h3 : e = d := by
        rcases hopen o (List.mem_of_getElem? ho) with h | h
        · exact elem_of_type (h d hd) h1
        · rw [h] at h1
          cases h1
          exact h2.symm
      exact h3 ▸ oneHot_elem ht
    · cases ha
  | constantOfShape =>
    simp only [elemFits, decide_eq_true_eq] at hr
    subst hr
    simp only [apply] at ha
    split at ha
    · next e x he hx =>
      obtain ⟨t, ht, rfl⟩ := Option.map_eq_some_iff.1 ha
      refine .one hopen fun o ho d hd => ?_
      have hg : m.attrs.lookup "value" = none ∧ d = .f32 ∨
        ∃ v, m.attrs.lookup "value" = some (.tensor v) ∧ d = S.dtype v := hl0 o ho d hd
      have : e = d := by
        rcases hg with ⟨h1, rfl⟩ | ⟨v, h1, rfl⟩ <;> rw [h1] at he <;> cases he <;> rfl
      exact this ▸ constantOfShape_elem ht
    · cases ha
  | eyeLike =>
    simp only [elemFits, decide_eq_true_eq] at hr
    subst hr
    simp only [apply] at ha
    split at ha
    · next e u he hx =>
      split at ha
      · obtain ⟨t, ht, rfl⟩ := Option.map_eq_some_iff.1 ha
        refine .one hopen fun o ho d hd => ?_
        have hg : m.attrs.lookup "dtype" = none ∧ Onnx.inElem δ m.skel 0 = some d ∨
          m.attrs.lookup "dtype" = some (.i64 (Onnx.typeCode d)) := hl0 o ho d hd
        have : e.getD u.dtype = d := by
          rcases hg with ⟨h1, h2⟩ | h1
          · simp only [attrDtype, attrInt?, h1, Option.some.injEq] at he
            subst he
            exact first_elem hin h2 hx
          · simp only [attrDtype, attrInt?, h1, elementType_code, Option.map_some, Option.some.injEq] at he
            subst he
            rfl
        exact this ▸ likeInput_elem ht
      · cases ha
    · cases ha
  | bernoulli =>
    simp only [elemFits, decide_eq_true_eq] at hr
    subst hr
    simp only [apply] at ha
    split at ha
    · next e u he hx =>
      obtain ⟨t, ht, rfl⟩ := Option.map_eq_some_iff.1 ha
      refine .one hopen fun o ho d hd => ?_
      have hg : m.attrs.lookup "dtype" = none ∧ Onnx.inElem δ m.skel 0 = some d ∨
        m.attrs.lookup "dtype" = some (.i64 (Onnx.typeCode d)) := hl0 o ho d hd
      have : bernoulliElem e u.dtype = d := by
        rcases hg with ⟨h1, h2⟩ | h1
        · simp only [attrDtype, attrInt?, h1, Option.some.injEq] at he
          subst he
          exact first_elem hin h2 hx
        · have h3 := hs d h1
          simp only [attrDtype, attrInt?, h1, elementType_code, Option.map_some, Option.some.injEq] at he
          subst he
          simp only [List.mem_cons, List.not_mem_nil, or_false] at h3
          rcases h3 with rfl | rfl | rfl | rfl | rfl <;> rfl
      exact this ▸ likeInput_elem ht
    · cases ha
  | randomLike =>
    simp only [elemFits, decide_eq_true_eq] at hr
    subst hr
    simp only [apply] at ha
    split at ha
    · next e x he hx =>
      obtain ⟨t, ht, rfl⟩ := Option.map_eq_some_iff.1 ha
      refine .one hopen fun o ho d hd => ?_
      have hg : m.attrs.lookup "dtype" = none ∧ Onnx.inElem δ m.skel 0 = some d ∨
        m.attrs.lookup "dtype" = some (.i64 (Onnx.typeCode d)) := hl0 o ho d hd
      have : e.getD .f32 = d := by
        rcases hg with ⟨h1, h2⟩ | h1
        · simp only [attrDtype, attrInt?, h1, Option.some.injEq] at he
          subst he
          have h3 : Onnx.inElem δ m.skel 0 = some .f32 := hs h1
          rw [h2] at h3
          exact (Option.some.inj h3).symm
        · simp only [attrDtype, attrInt?, h1, elementType_code, Option.map_some, Option.some.injEq] at he
          subst he
          rfl
      exact this ▸ randomLike_elem ht
    · cases ha
  | dropout =>
    simp only [elemFits, decide_eq_true_eq] at hr
    subst hr
    simp only [apply] at ha
    obtain ⟨t, ht, rfl⟩ := Option.map_eq_some_iff.1 ha
    have hx : inTy m 0 = some t := by
      simp only [sameAsInput, List.head?_map] at ht
      simpa [inTy, List.head?_eq_getElem?] using ht
    rw [hx]
    dsimp only
    have h0 : ∀ o, m.outputs[0]? = some o → ∀ d, δ o.name = some d → t.HasElem d :=
      fun o ho d hd => first_elem hin (hl0 o ho d hd) hx
    split
    · cases hm : Infer.likeInput .bool t with
      | none => exact .one hopen h0
      | some u =>
        intro k o ho
        match k with
        | 0 => exact .inr (h0 o ho)
        | 1 =>
          right
          intro d hd
          have : d = .bool := hl 1 o ho d hd
          exact this ▸ likeInput_elem hm
        | k + 2 => simpa using kept_elem hopen ho
    · exact .one hopen h0
  | expand =>
    simp only [elemFits, decide_eq_true_eq] at hr
    subst hr
    simp only [apply] at ha
    split at ha
    · next hx _ =>
      obtain ⟨tg, _, ha⟩ := Option.bind_eq_some_iff.1 ha
      obtain ⟨t, ht, rfl⟩ := Option.map_eq_some_iff.1 ha
      exact .one hopen fun o ho d hd => expand_elem (first_elem hin (hl0 o ho d hd) hx) ht
    · cases ha
  | where_ =>
    simp only [elemFits, decide_eq_true_eq] at hr
    subst hr
    simp only [apply] at ha
    split at ha
    · next hc hx hy =>
      obtain ⟨t, ht, rfl⟩ := Option.map_eq_some_iff.1 ha
      refine .one hopen fun o ho d hd => ?_
      have h1 : Onnx.inElem δ m.skel 1 = some d := hl0 o ho d hd
      exact where_elem (first_elem hin h1 hx) (first_elem hin (hli.2 ▸ h1) hy) ht
    · cases ha
  | _ =>
    simp only [elemFits, decide_eq_true_eq] at hr
    exact absurd ⟨rfl, hr⟩ hf

end

/-! ## The wishes of the consumers -/

theorem want_shape {c : Bool} {x y : String} : (y, Pref.shape) ∉ want c x .scalarNative := by
  unfold want; split <;> simp

theorem shape_of_isShape {t : ArgType} (h : t.isShape = true) : ∃ k, t = .shape k := by
  cases t <;> simp [ArgType.isShape] at h
  exact ⟨_, rfl⟩

theorem besideShape_name {a : Arg V} {y : String} (h : (y, Pref.shape) = besideShape a) : y = a.name := by
  simp only [besideShape, Prod.mk.injEq] at h; exact h.1

section
variable {δ : Elems} {m : Node V} (hin : ∀ a ∈ m.inputs, ElemTrue δ a)
include hin

theorem one_i64 (h : Onnx.OneType δ m.skel) {a b : Arg V} (ha : a ∈ m.inputs) (hb : b ∈ m.inputs)
    (hs : a.ty.isShape = true) : IsI64 δ b.name := by
  obtain ⟨d, h1, h2, _⟩ := inputs_one hin h
  obtain ⟨k, hk⟩ := shape_of_isShape hs
  have : d = .i64 := by have := h1 a.ty (List.mem_map_of_mem ha); rw [hk] at this; exact this
  intro e he
  rw [h2 b hb] at he
  cases he
  exact this

theorem arithmetic_wish (h : Onnx.OneType δ m.skel) {a b : Arg V} (hi : m.inputs = [a, b]) {x : String}
    (hx : (x, Pref.shape) ∈ arithmeticWants a b) : IsI64 δ x := by
  have ha : a ∈ m.inputs := by simp [hi]
  have hb : b ∈ m.inputs := by simp [hi]
  simp only [arithmeticWants, List.mem_append, want_shape, or_false] at hx
  rcases hx with hx | hx
  · split at hx
    · next hs =>
      rw [besideShape_name (List.mem_singleton.1 hx)]
      exact one_i64 hin h ha hb hs
    · cases hx
  · split at hx
    · next hs =>
      rw [besideShape_name (List.mem_singleton.1 hx)]
      exact one_i64 hin h hb ha hs
    · cases hx

theorem wish_ok {law : Onnx.ElemLaw} (hlaw : Onnx.elemLawOf m.ty = some law)
    (hli : law.Inputs δ m.skel) (hs : law.Supported δ m.skel) {x : String}
    (hx : (x, Pref.shape) ∈ wantsOf m) : IsI64 δ x := by
  simp only [wantsOf] at hx
  split at hx
  iterate 4
    · next hty hi =>
      rw [hty] at hlaw
      simp only [Onnx.elemLawOf, Option.some.injEq] at hlaw
      subst hlaw
      exact arithmetic_wish hin hli hi hx
  · next a b rest hty hi =>
    rw [hty] at hlaw
    simp only [Onnx.elemLawOf, Option.some.injEq] at hlaw
    subst hlaw
    split at hx
    · next hsh =>
      rw [besideShape_name (List.mem_singleton.1 hx)]
      rcases hs with ⟨e, he, hne⟩ | hs
      · obtain ⟨k, hk⟩ := shape_of_isShape hsh
        have : a.ty.HasElem e := first_elem hin he (by simp [inTy, hi])
        rw [hk] at this
        exact absurd this hne
      · intro d hd
        exact hs d (by simpa [Onnx.inElem, Node.skel, hi] using hd)
    · cases hx
  · next hty => rw [hty] at hlaw; simp [Onnx.elemLawOf] at hlaw
  · next hty =>
    rw [hty] at hlaw
    simp only [Onnx.elemLawOf, Option.some.injEq] at hlaw
    subst hlaw
    simp only [concatWants, List.mem_flatMap, List.mem_append, want_shape, or_false] at hx
    obtain ⟨a, ha, hx⟩ := hx
    simp only [want] at hx
    split at hx
    · next hc =>
      simp only [List.mem_singleton, Prod.mk.injEq, and_true] at hx
      subst hx
      simp only [Bool.and_eq_true, List.any_eq_true] at hc
      obtain ⟨⟨b, hb, hsh⟩, _⟩ := hc
      exact one_i64 hin hli hb ha hsh
    · cases hx
  · next a b rest hty hi =>
    rw [hty] at hlaw
    simp only [Onnx.elemLawOf, Option.some.injEq] at hlaw
    subst hlaw
    simp only [List.mem_singleton, Prod.mk.injEq, and_true] at hx
    subst hx
    intro d hd
    exact hli d (by simpa [Onnx.inElem, Node.skel, hi] using hd)
  · next op inputs hty =>
    split at hx
    · next hop =>
      subst hop
      rw [hty] at hlaw
      have : law = .common := by
        have h2 : Onnx.elemLawOf (.other "Mod") = some .common := by decide +kernel
        rw [h2] at hlaw; exact (Option.some.inj hlaw).symm
      subst this
      split at hx
      · next a b hi => exact arithmetic_wish hin hli hi hx
      · cases hx
    · split at hx
      · split at hx
        · simp only [comparisonWants, List.mem_append, want_shape, or_false] at hx
        · cases hx
      · split at hx
        · obtain ⟨a, _, hx⟩ := List.mem_flatMap.1 hx
          exact absurd hx want_shape
        · split at hx
          · simp at hx
          · split at hx
            · obtain ⟨a, _, ha⟩ := List.mem_map.1 hx
              cases ha
            · split at hx
              · obtain ⟨a, _, ha⟩ := List.mem_map.1 hx
                cases ha
              · cases hx
  · cases hx

end

/-- The element types of the run follow the ONNX definition of the node, within what the library's rule
gets right. -/
def ElemFollows (S : Store V) (δ : Elems) (k : Skeleton V) : Prop :=
  ∃ law, Onnx.elemLawOf k.ty = some law ∧ law.Holds δ ((S.at k 0).map S.dtype) S.dtype k ∧ law.Supported δ k

theorem elemSound_registry {S : Store V} {δ : Elems} {opset : Nat} {E : Rules V} {n : Node V}
    (h : ElemFollows S δ n.skel) : ElemSoundFor (registry S opset E) δ n := by
  obtain ⟨law, hlaw, hl, hs⟩ := h
  constructor
  · intro m prefs tys hsk hin hopen hw ha
    obtain ⟨r, hr, hf⟩ := ruleOf_elem hlaw
    have hty : m.ty = n.skel.ty := by rw [← hsk]; rfl
    simp only [registry, hty, hr] at ha
    rw [← hsk] at hl hs
    exact good_apply hin hopen hf hl hs hw ha
  · intro m hsk hin x hx
    rw [← hsk] at hl hs hlaw
    exact wish_ok hin hlaw hl.1 hs hx

/-- **C15, element types, with the rules of the library** (`_partial`: nodes whose operators are not in
the table need the hypothesis `ElemSoundFor`, and `ElemLaw.Supported` excludes what the single rules get
wrong). In a topologically ordered graph whose external values are annotated with their element types and
whose other values are annotated truthfully or not at all, if the element types of the values of every
node follow the ONNX definition of its operator, then after inference every annotation of every input and
output names the element type of the value computed at run time. -/
theorem C15_element_types_partial (E : Rules V) (S : Store V) (opset : Nat) (δ : Elems)
    (nodes nodes' : List (Node V)) (conv : Bool) (hord : OrderedNodes nodes)
    (hext : ∀ n ∈ nodes, ∀ a ∈ n.inputs, a.name ∉ nodes.flatMap Node.outNames → ElemTrue δ a)
    (hopen : ∀ n ∈ nodes, ∀ o ∈ n.outputs, ElemTrue δ o ∨ o.ty.Unknown)
    (hrun : ∀ n ∈ nodes, ElemFollows S δ n.skel ∨ ElemSoundFor (registry S opset E) δ n)
    (h : inferTypes (registry S opset E) nodes = some (nodes', conv)) :
    ∀ n ∈ nodes', (∀ a ∈ n.inputs, ElemTrue δ a) ∧ ∀ o ∈ n.outputs, ElemTrue δ o :=
  C15_element_types_sound _ δ nodes nodes' conv hord hext hopen
    (fun n hn => (hrun n hn).elim elemSound_registry id) h

/-! ## A graph that meets the hypotheses, and graphs the rules get wrong -/

namespace ElemExample

def arg (x : String) (t : ArgType := .tensor ⟨.f32, 0, none⟩) : Arg DType := ⟨x, t, .dynamic⟩

/-- Stored values are represented by their element type; they are vectors of two numbers. -/
def store : Store DType :=
  ⟨fun _ s => match s with | .static d => some d | _ => none, fun _ => [2], id, fun _ => some [1, 1]⟩

def other : Rules DType := ⟨fun _ => true, fun _ => true, fun _ _ => none, fun _ => []⟩

/-- `x` is a double matrix; its shape is added to a constant and gives the shape of a matrix of halves,
which is expanded; the maximum of `x` is found and compared with `x` in another type. -/
def nodes : List (Node DType) :=
  [⟨.constant, "n0", [⟨"", .tensor ⟨.i64, 1, none⟩, .static .i64⟩], [arg "c"], []⟩,
   ⟨.shape, "n1", [arg "x" (.tensor ⟨.f64, 2, none⟩)], [arg "s"], []⟩,
   ⟨.add, "n2", [arg "s", arg "c"], [arg "t"], []⟩,
   ⟨.other "ConstantOfShape", "n3", [arg "t"], [arg "h"], [("value", .tensor .f16)]⟩,
   ⟨.cast, "n4", [arg "h"], [arg "d"], [("to", .i64 11)]⟩,
   ⟨.other "Less", "n5", [arg "d", arg "x" (.tensor ⟨.f64, 2, none⟩)], [arg "b"], []⟩,
   ⟨.other "ArgMax", "n6", [arg "x" (.tensor ⟨.f64, 2, none⟩)], [arg "i"], []⟩]

def elems : Elems := fun x => [("x", .f64), ("c", .i64), ("s", .i64), ("t", .i64), ("h", .f16), ("d", .f64),
  ("b", .bool), ("i", .i64)].lookup x

example : ∃ nodes' conv, inferTypes (registry store 17 other) nodes = some (nodes', conv) ∧ conv = true ∧
    nodes'.map (fun n => n.outputs.map Arg.ty) =
      [[.shape 2], [.shape 2], [.shape 2], [.tensor ⟨.f16, 2, none⟩], [.tensor ⟨.f64, 2, none⟩],
        [.tensor ⟨.bool, 2, none⟩], [.tensor ⟨.i64, 2, none⟩]] := by
  refine ⟨((inferTypes (registry store 17 other) nodes).getD ([], false)).1, true, ?_, rfl, ?_⟩ <;>
    decide +kernel

theorem single_out {δ : Elems} {k : Skeleton DType} {l : Onnx.ElemLaw} {y : String} {s : Src DType} {st : Option DType}
    (ho : k.outputs = [(y, s)]) {d : DType} (hd : δ y = some d) (hi : l.Inputs δ k)
    (h : l.Gives δ st id k 0 d) : l.Holds δ st id k := by
  refine ⟨hi, fun j z hj e he => ?_⟩
  rw [ho] at hj
  cases j with
  | zero =>
    cases hj
    rw [hd] at he
    cases he
    exact h
  | succ j => simp at hj

example : ∀ n ∈ nodes, ElemFollows store elems n.skel := by
  simp only [nodes, List.forall_mem_cons]
  have hx : elems "x" = some .f64 := rfl
  refine ⟨⟨.stored, rfl, single_out rfl (d := .i64) rfl trivial rfl, trivial⟩,
    ⟨.fixed .i64, rfl, single_out rfl (d := .i64) rfl trivial rfl, trivial⟩,
    ⟨.common, rfl, single_out rfl (d := .i64) rfl ⟨.i64, by simp [Node.skel, arg, elems, List.lookup]⟩ rfl, trivial⟩,
    ⟨.fill, by decide +kernel, single_out rfl (d := .f16) rfl trivial (.inr ⟨.f16, rfl, rfl⟩), trivial⟩,
    ⟨.cast, rfl, single_out rfl (d := .f64) rfl trivial rfl, .inl ⟨.f16, rfl, by decide⟩⟩,
    ⟨.compare, by decide +kernel, single_out rfl (d := .bool) rfl
      ⟨.f64, by simp [Node.skel, arg, elems, List.lookup]⟩ rfl, ⟨.f64, rfl, by decide⟩⟩,
    ⟨.fixed .i64, by decide +kernel, single_out rfl (d := .i64) rfl trivial rfl, trivial⟩, by simp⟩

end ElemExample

/-- **C15, violated.** The result of comparing two shapes is annotated as dimensions, not as truth
values. -/
theorem C15_compare_shapes_wrong :
    ∃ nodes', inferTypes (registry ElemExample.store 17 ElemExample.other)
      [⟨.shape, "n1", [ElemExample.arg "x" (.tensor ⟨.f32, 2, none⟩)], [ElemExample.arg "s"], []⟩,
       ⟨.other "Equal", "n2", [ElemExample.arg "s", ElemExample.arg "s"], [ElemExample.arg "b"], []⟩] =
        some (nodes', true) ∧
    nodes'.map (fun n => n.outputs.map Arg.ty) = [[.shape 2], [.shape 2]] ∧ ¬ (ArgType.shape 2).HasElem .bool := by
  refine ⟨_, rfl, by decide +kernel, by simp [ArgType.HasElem]⟩

/-- **C15, violated.** OneHot with 64-bit values is annotated with 32-bit floats when the file has no
annotation for its result. -/
theorem C15_onehot_elements_wrong :
    ∃ nodes', inferTypes (registry ElemExample.store 17 ElemExample.other)
      [⟨.other "OneHot", "n1", [ElemExample.arg "x" (.tensor ⟨.i64, 1, none⟩),
        ElemExample.arg "depth" (.scalarNative .i64), ElemExample.arg "values" (.tensor ⟨.i64, 1, some [some 2]⟩)],
        [ElemExample.arg "y"], []⟩] = some (nodes', true) ∧
    nodes'.map (fun n => n.outputs.map Arg.ty) = [[.tensor ⟨.f32, 2, none⟩]] ∧
    ¬ (ArgType.tensor ⟨.f32, 2, none⟩).HasElem .i64 := by
  refine ⟨_, rfl, by decide +kernel, by simp [ArgType.HasElem]⟩

/-- **C15, violated.** RandomNormalLike of doubles without `dtype` is annotated with 32-bit floats; ONNX
takes the element type of the input. -/
theorem C15_random_like_elements_wrong :
    ∃ nodes', inferTypes (registry ElemExample.store 17 ElemExample.other)
      [⟨.other "RandomNormalLike", "n1", [ElemExample.arg "x" (.tensor ⟨.f64, 1, none⟩)],
        [ElemExample.arg "y"], []⟩] = some (nodes', true) ∧
    nodes'.map (fun n => n.outputs.map Arg.ty) = [[.tensor ⟨.f32, 1, none⟩]] ∧
    ¬ (ArgType.tensor ⟨.f32, 1, none⟩).HasElem .f64 := by
  refine ⟨_, rfl, by decide +kernel, by simp [ArgType.HasElem]⟩

end OnnxIR
