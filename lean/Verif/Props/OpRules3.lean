import Verif.Model.OpRules3
import Verif.Spec.OpShapes3
import Verif.Props.OpRules2
import Verif.Props.Broadcast

/-!
# Output types of ArgMax, TopK, OneHot, Slice, Pad, pooling, Cast, Where, …
-/

namespace OnnxIR

open Infer

theorem axis_lt {r : Nat} {a : Int} {k : Nat} (h : Onnx.axis r a = some k) : k < r := by
  unfold Onnx.axis at h
  split at h
  · simp only [Option.some.injEq] at h; split at h <;> omega
  · cases h

/-! ## Ranks only -/

/-- ArgMax and ArgMin: the type describes the ONNX output, for every axis and both values of
keepdims. -/
theorem C47_argmax_type {a : Int} {keep : Bool} {x t : ArgType} {s out : List Nat} (hx : x.Admits s)
    (ht : Infer.argmax keep x = some t) (ho : Onnx.argmax a keep s = some out) : t.Admits out := by
  cases x with
  | tensor u =>
    obtain ⟨k, hk, rfl⟩ := Option.map_eq_some_iff.1 ho
    have hk' := axis_lt hk
    have hr : s.length = u.rank := hx.1
    simp only [Infer.argmax] at ht
    split at ht
    · cases ht
      rename_i hkeep
      simp only [hkeep, if_true]
      exact ⟨by simpa using hr, by simp⟩
    · rename_i hkeep
      simp only [hkeep]
      split at ht
      · cases ht
        refine List.eq_nil_of_length_eq_zero ?_
        simp [List.length_eraseIdx_of_lt hk']
        omega
      · cases ht
        refine ⟨?_, by simp⟩
        simp [List.length_eraseIdx_of_lt hk']
        omega
  | _ => cases ht

example : Infer.argmax false (.tensor ⟨.f32, 3, none⟩) = some (.tensor ⟨.i64, 2, none⟩) ∧
    Onnx.argmax (-1) false [2, 3, 4] = some [2, 3] ∧ Onnx.argmax 0 true [5] = some [1] := by
  decide +kernel

/-- TopK: both outputs' types describe the ONNX outputs. -/
theorem C47_topk_type {a : Int} {k : Nat} {x t u : ArgType} {s out : List Nat} (hx : x.Admits s)
    (ht : Infer.topk x = some (t, u)) (ho : Onnx.topk a k s = some out) :
    t.Admits out ∧ u.Admits out := by
  cases x with
  | tensor v =>
    simp [Infer.topk] at ht
    obtain ⟨rfl, rfl⟩ := ht
    obtain ⟨i, -, ho⟩ := Option.bind_eq_some_iff.1 ho
    split at ho
    · cases ho
      exact ⟨⟨by simpa using hx.1, by simp⟩, ⟨by simpa using hx.1, by simp⟩⟩
    · cases ho
  | _ => cases ht

example : Infer.topk (.tensor ⟨.f32, 2, some [some 3, some 5]⟩) =
      some (.tensor ⟨.f32, 2, none⟩, .tensor ⟨.i64, 2, none⟩) ∧
    Onnx.topk (-1) 2 [3, 5] = some [3, 2] := by decide +kernel

/-- OneHot: the type describes the ONNX output for every axis and depth. -/
theorem C47_onehot_type {a : Int} {depth : Nat} {d : DType} {x t : ArgType} {s out : List Nat}
    (hx : x.Admits s) (ht : Infer.oneHot d x = some t) (ho : Onnx.oneHot a depth s = some out) :
    t.Admits out := by
  cases x with
  | tensor v =>
    cases ht
    obtain ⟨i, hi, rfl⟩ := Option.map_eq_some_iff.1 ho
    have hi' := axis_lt hi
    refine ⟨?_, by simp⟩
    rw [List.length_insertIdx_of_le_length (by omega)]
    exact congrArg (· + 1) hx.1
  | _ => cases ht

example : Infer.oneHot .f32 (.tensor ⟨.i64, 2, none⟩) = some (.tensor ⟨.f32, 3, none⟩) ∧
    Onnx.oneHot 1 7 [2, 3] = some [2, 7, 3] := by decide +kernel

/-! ## Operators that keep the shape -/

/-- The rules that copy the first input's type (`same_as_input`) are sound for every operator whose
output has the shape of its first input (Relu, Sigmoid, Exp, Softmax, LayerNormalization, …). -/
theorem C14_same_shape_sound {inputs : List ArgType} {t x : ArgType} {rest : List ArgType}
    {s : List Nat} (hin : inputs = x :: rest) (hx : x.Admits s)
    (ht : Infer.sameAsInput inputs = some t) : t.Admits s := by
  subst hin
  cases ht
  exact hx

example : Infer.sameAsInput [.tensor ⟨.f32, 2, some [none, some 3]⟩, .shape 2] =
    some (.tensor ⟨.f32, 2, some [none, some 3]⟩) := rfl

/-- ScatterElements and ScatterND have the data's shape. -/
theorem C14_scatter_sound {x t : ArgType} {s : List Nat} (hx : x.Admits s)
    (ht : Infer.copyFirst x = some t) : t.Admits s := by
  cases ht; exact hx

/-- Bernoulli, RandomNormalLike, RandomUniformLike, EyeLike and Dropout's mask have the input's
shape. -/
theorem C14_like_sound {d : DType} {x t : ArgType} {s : List Nat} (hx : x.Admits s)
    (ht : Infer.likeInput d x = some t) : t.Admits s := by
  cases x with
  | tensor u => cases ht; exact ⟨hx.1, hx.2⟩
  | _ => cases ht

/-- GatherElements has the indices' shape. -/
theorem C14_gather_elements_sound {x i t : ArgType} {si : List Nat} (hi : i.Admits si)
    (ht : Infer.gatherElements x i = some t) : t.Admits si := by
  cases x with
  | tensor u =>
    cases i with
    | tensor v => cases ht; exact ⟨hi.1, hi.2⟩
    | _ => cases ht
  | _ => cases ht

/-- Cast keeps the shape. -/
theorem C14_cast_sound {d : DType} {x t : ArgType} {s : List Nat} (hx : x.Admits s)
    (ht : Infer.cast d x = some t) : t.Admits s := by
  cases x with
  | tensor u =>
    simp only [Infer.cast] at ht
    split at ht
    · cases ht
      exact List.eq_nil_of_length_eq_zero (hx.1.trans ‹_›)
    · cases ht; exact ⟨hx.1, hx.2⟩
  | scalarTensor _ => cases ht; exact hx
  | scalarNative _ => cases ht; exact hx
  | shape k =>
    simp only [Infer.cast] at ht
    split at ht
    · cases ht
      cases hx
      refine ⟨rfl, ?_⟩
      intro p hp; cases hp; simp [PShape.Describes]
    · cases ht; exact hx

/-- BatchNormalization: the static shape, completed with the number of channels from the scale,
describes the ONNX output. -/
theorem C14_batchnorm_sound {scale x t : ArgType} {value : Option (List Nat)} {s ss out : List Nat}
    (hx : x.Admits s) (hs : scale.Admits ss) (hv : ∀ v, value = some v → v = ss)
    (ht : Infer.batchNorm scale value x = some t) (ho : Onnx.batchNorm s ss = some out) :
    t.Admits out := by
  cases x with
  | tensor u =>
    cases ht
    unfold Onnx.batchNorm at ho
    split at ho
    · rename_i hc
      cases ho
      obtain ⟨hlen, rfl⟩ := hc
      obtain ⟨n, c, rest, rfl⟩ : ∃ n c rest, s = n :: c :: rest := by
        match s, hlen with
        | n :: c :: rest, _ => exact ⟨n, c, rest, rfl⟩
      have hch : ∀ k, Infer.bnChannels scale value = some k → k = c := by
        intro k hk
        unfold Infer.bnChannels at hk
        cases value with
        | some v =>
          have := hv v rfl
          subst this
          simpa using hk.symm
        | none =>
          simp only [Option.bind_none, Option.none_or] at hk
          cases scale with
          | tensor w =>
            simp only at hk
            obtain ⟨p, hp, hk⟩ := Option.bind_eq_some_iff.1 hk
            have hd := hs.2 p hp
            match p, hd with
            | o :: ps, hd =>
              simp at hk
              subst hk
              simpa using hd.1 k rfl
          | _ => cases hk
      refine ⟨hx.1, ?_⟩
      intro p hp
      cases hp
      have hbase : (u.staticShape.getD (List.replicate u.rank none)).Describes (n :: c :: rest) := by
        cases hu : u.staticShape with
        | some p => exact hx.2 p hu
        | none =>
          simp only [Option.getD_none]
          rw [← hx.1]
          exact PShape.describes_none
      unfold Infer.bnShape
      split
      · rename_i heq
        rw [heq] at hbase
        exact ⟨hbase.1, hch, hbase.2.2⟩
      · exact hbase
    · cases ho
  | _ => cases ht

example : Infer.batchNorm (.tensor ⟨.f32, 1, some [some 6]⟩) none (.tensor ⟨.f32, 4, none⟩) =
      some (.tensor ⟨.f32, 4, some [none, some 6, none, none]⟩) ∧
    Onnx.batchNorm [2, 6, 8, 8] [6] = some [2, 6, 8, 8] := by decide +kernel

/-- NonZero: rows are the rank, columns are unknown. -/
theorem C14_nonzero_sound {x t : ArgType} {s : List Nat} (hx : x.Admits s) (found : Nat)
    (ht : Infer.nonZero x = some t) : t.Admits (Onnx.nonZero found s) := by
  cases x with
  | tensor u =>
    cases ht
    refine ⟨rfl, ?_⟩
    intro p hp
    cases hp
    simp [Onnx.nonZero, PShape.Describes, hx.1]
  | _ => cases ht

/-- Operators whose inference records only the rank: right for any output of that rank (Random*,
Range, and, through `rankOnly`, AveragePool and GridSample, which keep the rank). -/
theorem C14_rank_only_sound {x t : ArgType} {s out : List Nat} (hx : x.Admits s)
    (ht : Infer.rankOnly x = some t) (hr : out.length = s.length) : t.Admits out := by
  cases x with
  | tensor u => cases ht; exact ⟨hr.trans hx.1, by simp⟩
  | _ => cases ht

/-- Cases of the theorems above. -/
example : Infer.copyFirst (.tensor ⟨.f32, 2, some [none, some 3]⟩) = some (.tensor ⟨.f32, 2, some [none, some 3]⟩) ∧
    Infer.likeInput .bool (.tensor ⟨.f32, 2, some [some 4, some 3]⟩) = some (.tensor ⟨.bool, 2, some [some 4, some 3]⟩) ∧
    Infer.gatherElements (.tensor ⟨.f32, 2, none⟩) (.tensor ⟨.i64, 2, some [some 4, some 3]⟩) =
      some (.tensor ⟨.f32, 2, some [some 4, some 3]⟩) ∧
    Infer.cast .f32 (.shape 4) = some (.tensor ⟨.f32, 1, some [some 4]⟩) ∧
    Infer.nonZero (.tensor ⟨.f32, 3, none⟩) = some (.tensor ⟨.i64, 2, some [some 3, none]⟩) ∧
    Infer.rankOnly (.tensor ⟨.f32, 4, some [some 1, some 2, some 8, some 8]⟩) = some (.tensor ⟨.f32, 4, none⟩) := by
  decide +kernel

/-! ## ConstantOfShape -/

/-- ConstantOfShape: the type describes the ONNX output, when the shape input was not mistyped (a
`Shape(k)` holds `k` values). -/
theorem C14_constant_of_shape_sound {d : DType} {value : Option (List Int)} {v : List Int}
    {x t : ArgType} {out : List Nat} (hx : x.Admits [v.length]) (hv : ∀ w, value = some w → w = v)
    (ht : Infer.constantOfShape d value x = some t) (ho : Onnx.constantOfShape v = some out) :
    t.Admits out := by
  unfold Onnx.constantOfShape at ho
  split at ho
  · rename_i hpos
    cases ho
    have hrank : ∀ r, Infer.cosRank value x = some r → r = v.length := by
      intro r hr
      cases x with
      | shape k => cases hr; cases hx; rfl
      | tensor u =>
        simp only [Infer.cosRank] at hr
        split at hr
        · cases hr
        · cases value with
          | some w => cases hr; rw [hv w rfl]
          | none =>
            simp only at hr
            obtain ⟨p, hp, hk⟩ := Option.bind_eq_some_iff.1 hr
            have hd := hx.2 p hp
            match p, hd with
            | o :: ps, hd =>
              simp at hk
              subst hk
              exact hd.1 r rfl
      | _ => cases hr
    unfold Infer.constantOfShape at ht
    split at ht
    · cases ht
    · rename_i rank hrk
      have := hrank rank hrk
      subst this
      split at ht
      · rename_i hc
        split at ht
        · rename_i a w
          have := hv _ rfl
          subst this
          cases ht
          have hl : w = [] := by
            have := hc.1; simpa using this
          subst hl
          have h0 := hpos a (by simp)
          show [a.toNat] = [Infer.asUsize a]
          simp [Infer.asUsize]
          omega
        · have := hv _ rfl
          subst this
          simp at hc
        · cases ht
          exact ⟨by simp, by simp⟩
      · split at ht
        · cases ht
          rename_i h0
          have := List.eq_nil_of_length_eq_zero h0
          subst this
          rfl
        · cases ht
          exact ⟨by simp, by simp⟩
  · cases ho

example : Infer.constantOfShape .i64 (some [3]) (.shape 1) = some (.shape 3) ∧
    Infer.constantOfShape .f32 none (.tensor ⟨.i64, 1, some [some 3]⟩) = some (.tensor ⟨.f32, 3, none⟩) ∧
    Onnx.constantOfShape [2, 0, 5] = some [2, 0, 5] := by decide +kernel

/-! ## Slice -/

theorem slicePositions_length {step e : Int} (hs : 0 < step) (n : Nat) (i : Int)
    (hn : (e - i).toNat ≤ n) :
    (slicePositions step e i).length = ((e - i).toNat + step.natAbs - 1) / step.natAbs := by
  induction n generalizing i with
  | zero =>
    rw [slicePositions, dif_neg (by omega)]
    have : (e - i).toNat = 0 := by omega
    rw [this, Nat.div_eq_of_lt (by omega)]
    rfl
  | succ n ih =>
    rw [slicePositions]
    split
    · rename_i h
      have hie : i < e := by omega
      simp only [List.length_cons]
      rw [ih (i + step) (by omega)]
      by_cases hlt : e ≤ i + step
      · have h0 : (e - (i + step)).toNat = 0 := by omega
        rw [h0, Nat.div_eq_of_lt (by omega)]
        have : ((e - i).toNat + step.natAbs - 1) = ((e - i).toNat - 1) + step.natAbs := by omega
        rw [this, Nat.add_div_right _ (by omega), Nat.div_eq_of_lt (by omega)]
      · have : ((e - i).toNat + step.natAbs - 1) =
            ((e - (i + step)).toNat + step.natAbs - 1) + step.natAbs := by omega
        rw [this, Nat.add_div_right _ (by omega)]
    · have : (e - i).toNat = 0 := by omega
      rw [this, Nat.div_eq_of_lt (by omega)]
      rfl

theorem slicePositions_mem {step e : Int} (hs : 0 < step) (n : Nat) (i : Int)
    (hn : (e - i).toNat ≤ n) : ∀ j ∈ slicePositions step e i, i ≤ j ∧ j < e := by
  induction n generalizing i with
  | zero =>
    rw [slicePositions, dif_neg (by omega)]
    simp
  | succ n ih =>
    rw [slicePositions]
    split
    · intro j hj
      rcases List.mem_cons.1 hj with rfl | hj
      · omega
      · have := ih (i + step) (by omega) j hj
        omega
    · simp

theorem filterMap_length_of_some {α β : Type} {f : α → Option β} {l : List α}
    (h : ∀ a ∈ l, (f a).isSome) : (l.filterMap f).length = l.length := by
  induction l with
  | nil => rfl
  | cons a l ih =>
    obtain ⟨b, hb⟩ := Option.isSome_iff_exists.1 (h a (by simp))
    simp [List.filterMap_cons, hb, ih fun a ha => h a (by simp [ha])]

/-- Length of a slice of a `Shape` value: for every start, end, positive step and length it is the
number of elements ONNX reads. -/
theorem shapeSliceLen_eq {n : Nat} {start stop step : Int} (hs : 0 < step) :
    Infer.shapeSliceLen start stop step n = Onnx.sliceLen n start stop step := by
  unfold Onnx.sliceLen onnxSlice1
  simp only [hs, if_true, List.length_replicate]
  have hsta : Infer.sliceStart n start = clampInt 0 n (fromBack n start) := by
    unfold Infer.sliceStart clampInt fromBack
    repeat' split
    all_goals omega
  have hend : Infer.sliceEnd n stop = clampInt 0 n (fromBack n stop) := by
    unfold Infer.sliceEnd clampInt fromBack
    repeat' split
    all_goals omega
  have hb : ∀ x : Int, 0 ≤ clampInt 0 n x ∧ clampInt 0 n x ≤ n := by
    intro x; unfold clampInt; repeat' split
    all_goals omega
  rw [filterMap_length_of_some]
  · rw [slicePositions_length hs _ _ (Nat.le_refl _)]
    unfold Infer.shapeSliceLen
    rw [hsta, hend]
    have : (max (clampInt 0 n (fromBack n stop) - clampInt 0 n (fromBack n start)) 0).toNat =
      (clampInt 0 n (fromBack n stop) - clampInt 0 n (fromBack n start)).toNat := by omega
    simp only [this]
  · intro j hj
    have := slicePositions_mem hs _ _ (Nat.le_refl _) j hj
    have h1 := hb (fromBack n start)
    have h2 := hb (fromBack n stop)
    rw [List.getElem?_eq_getElem (by simp; omega)]
    rfl

theorem Onnx.slice_length {s out : List Nat} {l : List (Int × Int × Int × Int)}
    (h : Onnx.slice s l = some out) : out.length = s.length := by
  induction l generalizing out with
  | nil => cases h; rfl
  | cons q l ih =>
    obtain ⟨a, b, c, d⟩ := q
    simp only [Onnx.slice] at h
    split at h
    · rename_i h1 h2
      cases h
      simpa using ih h2
    · cases h

/-- Slice of a `Shape` value with a positive step: the type is right. -/
theorem C14_slice_shape_partial {start stop step : Int} {n : Nat} {t : ArgType} {out : List Nat}
    {a : Int} (hs : 0 < step) (ht : Infer.slice [start] [stop] [step] (.shape n) = some t)
    (ho : Onnx.slice [n] [(a, start, stop, step)] = some out) : t.Admits out := by
  have h0 : ¬ (0 ∈ [step]) := by simp; omega
  simp only [Infer.slice, if_neg h0] at ht
  cases ht
  simp only [Onnx.slice] at ho
  split at ho
  · rename_i i o hi h2
    cases ho
    cases h2
    have := axis_lt hi
    simp at this
    subst this
    show _ = _
    simp [shapeSliceLen_eq hs]
  · cases ho

example : Infer.slice [-3] [9] [2] (.shape 4) = some (.shape 2) ∧ Infer.sliceEnd 4 9 = 4 := by
  decide +kernel

/-- Slice of a tensor without static shape: the type is right, for any slices. -/
theorem C14_slice_tensor_partial {starts ends steps : List Int} {u : TensorType} {t : ArgType}
    {s out : List Nat} {l : List (Int × Int × Int × Int)} (hx : (ArgType.tensor u).Admits s)
    (hu : u.staticShape = none) (ht : Infer.slice starts ends steps (.tensor u) = some t)
    (ho : Onnx.slice s l = some out) : t.Admits out := by
  simp only [Infer.slice] at ht
  split at ht
  · cases ht
  · cases ht
    exact ⟨(Onnx.slice_length ho).trans hx.1, by simp [hu]⟩

theorem sliceLen_zero_two : Onnx.sliceLen 5 0 2 1 = 2 := by
  rw [← shapeSliceLen_eq (by omega)]; decide

/-- A tensor with a static shape: the type of a slice repeats the shape of the input. -/
theorem C14_slice_static_wrong :
    ∃ x t, ArgType.Admits x [5] ∧ Infer.slice [0] [2] [1] x = some t ∧
      Onnx.slice [5] [(0, 0, 2, 1)] = some [2] ∧ ¬ t.Admits [2] := by
  refine ⟨.tensor ⟨.f32, 1, some [some 5]⟩, .tensor ⟨.f32, 1, some [some 5]⟩, ⟨rfl, ?_⟩, by decide, ?_, ?_⟩
  · intro p hp; cases hp; simp [PShape.Describes]
  · have h : Onnx.axis ([5] : List Nat).length 0 = some 0 := by decide
    simp only [Onnx.slice, h]
    simp [sliceLen_zero_two]
  · rintro ⟨-, h⟩; have := h _ rfl; simp [PShape.Describes] at this

theorem sliceLen_reverse : Onnx.sliceLen 3 (-1) (-4) (-1) = 3 := by
  unfold Onnx.sliceLen onnxSlice1
  simp only [show ¬ (0 : Int) < -1 by omega, if_false]
  simp only [clampInt, fromBack, List.length_replicate]
  simp
  repeat (rw [slicePositions]; simp)

/-- A `Shape` value reversed with step −1: the type says it is empty. -/
theorem C14_slice_reverse_wrong :
    ∃ t, Infer.slice [-1] [-4] [-1] (.shape 3) = some t ∧
      Onnx.slice [3] [(0, -1, -4, -1)] = some [3] ∧ ¬ t.Admits [3] := by
  refine ⟨.shape 0, by decide, ?_, ?_⟩
  · have h : Onnx.axis ([3] : List Nat).length 0 = some 0 := by decide
    simp only [Onnx.slice, h]
    simp [sliceLen_reverse]
  · intro h; cases h

/-! ## Rules that copy a static shape although the operator changes it -/

/-- Without static shapes, Pad, Tile and GlobalAveragePool get a right type. -/
theorem C14_copy_rank_partial {u : TensorType} {t : ArgType} {s out : List Nat}
    (hx : (ArgType.tensor u).Admits s) (hu : u.staticShape = none)
    (ht : Infer.copyFirst (.tensor u) = some t)
    (ho : (∃ b e, Onnx.pad s b e = some out) ∨ (∃ r, Onnx.tile s r = some out) ∨
      Onnx.globalPool s = some out) : t.Admits out := by
  cases ht
  have hl : out.length = s.length := by
    rcases ho with ⟨b, e, ho⟩ | ⟨r, ho⟩ | ho
    · unfold Onnx.pad at ho
      split at ho
      · cases ho; simp; omega
      · cases ho
    · unfold Onnx.tile at ho
      split at ho
      · cases ho; simp; omega
      · cases ho
    · unfold Onnx.globalPool at ho
      split at ho
      · cases ho; simp
      · cases ho
  exact ⟨hl.trans hx.1, by simp [hu]⟩

theorem not_admits_static {d : DType} {r : Nat} {l out : List Nat} (h : l ≠ out) :
    ¬ (ArgType.tensor ⟨d, r, some (l.map some)⟩).Admits out := by
  rintro ⟨-, h2⟩
  exact h (PShape.describes_some.1 (h2 _ rfl)).symm

theorem admits_static {d : DType} {l : List Nat} :
    (ArgType.tensor ⟨d, l.length, some (l.map some)⟩).Admits l :=
  ⟨rfl, fun p hp => by cases hp; exact PShape.describes_some.2 rfl⟩

/-- Pad, Tile and GlobalAveragePool repeat the static shape of the input, which is wrong. -/
theorem C14_copied_shape_wrong :
    (∃ x t, ArgType.Admits x [2, 3] ∧ Infer.copyFirst x = some t ∧
      Onnx.pad [2, 3] [0, 1] [0, 2] = some [2, 6] ∧ ¬ t.Admits [2, 6]) ∧
    (∃ x t, ArgType.Admits x [2, 3] ∧ Infer.copyFirst x = some t ∧
      Onnx.tile [2, 3] [2, 1] = some [4, 3] ∧ ¬ t.Admits [4, 3]) ∧
    (∃ x t, ArgType.Admits x [1, 8, 7, 7] ∧ Infer.copyFirst x = some t ∧
      Onnx.globalPool [1, 8, 7, 7] = some [1, 8, 1, 1] ∧ ¬ t.Admits [1, 8, 1, 1]) :=
  ⟨⟨_, _, admits_static (d := .f32), rfl, by decide, not_admits_static (by decide)⟩,
   ⟨_, _, admits_static (d := .f32), rfl, by decide, not_admits_static (by decide)⟩,
   ⟨_, _, admits_static (d := .f32), rfl, by decide, not_admits_static (by decide)⟩⟩

/-! ## Where -/

/-- Where with at least one tensor among condition and branches, statics all known or all unknown:
the type describes the broadcast of the three shapes. -/
theorem C14_where_tensor_partial {c x y t : ArgType} {sc sx sy out : List Nat}
    (hc : c.Admits sc) (hx : x.Admits sx) (hy : y.Admits sy) (hz : NoRankZero [c, x, y])
    (hs : AllStatic [c, x, y] ∨ (∀ a ∈ [c, x, y], a.staticShape = none))
    (htens : [c, x, y].any ArgType.isTensor = true) (hxy : ¬ (Infer.isShape x ∧ Infer.isShape y))
    (ht : Infer.where_ c x y = some t) (ho : bcastAll [sc, sx, sy] = some out) : t.Admits out := by
  have ha : AdmitsAll [c, x, y] [sc, sx, sy] := .cons hc (.cons hx (.cons hy .nil))
  have hr := C16_rank _ _ out ha hz htens ho
  have hr0 : computeBroadcastRank [c, x, y] ≠ 0 := by
    intro h0
    obtain ⟨a, hm, hta⟩ := List.any_eq_true.1 htens
    obtain ⟨d, rfl⟩ := rank_zero_native hz h0 a hm
    simp [ArgType.isTensor] at hta
  unfold Infer.where_ at ht
  split at ht
  · cases ht
  · split at ht
    · cases ht
    · dsimp only at ht
      rw [if_neg hr0] at ht
      split at ht
      · rename_i h
        simp only [Bool.and_eq_true] at h
        exact absurd h.1.1 hxy
      · cases ht
        refine ⟨hr.symm, fun p hp => ?_⟩
        rcases hs with hs | hs
        · exact C16_static_shape_partial _ _ out p ha hs ho hp
        · have : [c, x, y].filterMap ArgType.staticShape = [] := by
            rw [List.filterMap_eq_nil_iff]; exact hs
          simp only [computeBroadcastStaticShape, this] at hp
          cases hp

example : Infer.where_ (.tensor ⟨.bool, 2, some [some 2, some 1]⟩) (.tensor ⟨.f32, 1, some [some 3]⟩)
      (.scalarNative .f32) = some (.tensor ⟨.f32, 2, some [some 2, some 3]⟩) ∧
    bcastAll [[2, 1], [3], []] = some [2, 3] := by decide +kernel

/-- Where choosing between two `Shape` values by a condition that does not enlarge them. -/
theorem C14_where_shape_partial {c t : ArgType} {n m : Nat} {out : List Nat} (hn : 0 < n) (hm : 0 < m)
    (ht : Infer.where_ c (.shape n) (.shape m) = some t) (hr : computeBroadcastRank [c, .shape n, .shape m] = 1)
    (ho : bcastAll [[n], [m]] = some out) : t.Admits out := by
  unfold Infer.where_ at ht
  split at ht
  · cases ht
  · simp only [Infer.whereDtype, Infer.whereElem, if_true, hr, Infer.isShape, Infer.whereSize] at ht
    simp at ht
    subst ht
    show out = _
    simp only [bcastAll, bcastOnto, bcast_nil_left, Option.bind_some] at ho
    simp only [bcast, List.reverse_singleton, bcastRev] at ho
    repeat' split at ho
    all_goals simp at ho ⊢
    all_goals subst ho; simp
    all_goals omega

example : Infer.where_ (.scalarNative .bool) (.shape 3) (.shape 1) = some (.shape 3) ∧
    computeBroadcastRank [.scalarNative .bool, .shape 3, .shape 1] = 1 ∧ bcastAll [[3], [1]] = some [3] := by
  decide +kernel

/-- A condition longer than the two `Shape` branches: the type forgets it. -/
theorem C14_where_condition_wrong :
    ∃ c t, ArgType.Admits c [3] ∧ Infer.where_ c (.shape 1) (.shape 1) = some t ∧
      bcastAll [[3], [1], [1]] = some [3] ∧ ¬ t.Admits [3] := by
  refine ⟨.tensor ⟨.bool, 1, none⟩, .shape 1, ⟨rfl, by simp⟩, by decide, by decide, ?_⟩
  intro h; cases h

end OnnxIR
