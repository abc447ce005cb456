import Verif.Model.Norm
import Verif.Props.Unary
import Verif.Props.LogSumExp

/-!
# C66: normalisation
-/

namespace OnnxIR

open Gen

/-! ### Operands that are broadcast to the input -/

theorem zip_fits {f : ℝ → ℝ → ℝ} {x u : Tensor ℝ} (hl : x.shape.length = u.shape.length) (hb : bcast x.shape u.shape = some x.shape) :
    Burn.zip f x u = some (Tensor.ofFn x.shape fun i => f (x.get i) (u.get (proj u.shape i))) := by
  unfold Burn.zip Tensor.zipBcast
  rw [if_pos hl, hb, Option.map_some]
  congr 1
  exact Tensor.ofFn_congr fun i hi => by rw [proj_self hi]

theorem channelShape_eq (r c : Nat) : Burn.channelShape (r + 2) c = [1] ++ c :: List.replicate r 1 := by
  simp [Burn.channelShape, List.replicate_succ]

theorem zipDims_ones : ∀ s : List Nat, zipDims s (List.replicate s.length 1) = some s
  | [] => rfl
  | d :: s => by
    simp only [List.length_cons, List.replicate_succ, zipDims, zipDims_ones s]
    by_cases h : d = 1 <;> simp [h]

theorem bcast_channel (n c : Nat) (rest : List Nat) :
    bcast (n :: c :: rest) ([1] ++ c :: List.replicate rest.length 1) = some (n :: c :: rest) := by
  have h := bcast_zip (a := n :: c :: rest) (b := [1] ++ c :: List.replicate rest.length 1) (p := []) (by simp)
  rw [List.nil_append] at h
  rw [h]
  simp only [List.cons_append, List.nil_append, zipDims, zipDims_ones]
  by_cases hn : n = 1 <;> simp [hn]

/-- A parameter for each channel, combined with the input. -/
theorem channel_param {p : Tensor ℝ} {n c : Nat} {rest : List Nat} (hp : p.shape = [c]) :
    ∃ u, Burn.reshape p (Burn.channelShape (rest.length + 2) c) = some u ∧ u.shape = [1] ++ c :: List.replicate rest.length 1 ∧
      ∀ i, InRange (n :: c :: rest) i → u.get (proj u.shape i) = p.get [i.getD 1 0] := by
  have hs : prodShape (Burn.channelShape (rest.length + 2) c) = prodShape p.shape := by
    rw [channelShape_eq, hp]
    simp [prodShape, prodShape_replicate_one]
  refine ⟨⟨Burn.channelShape (rest.length + 2) c, p.data, by rw [p.size, hs]⟩, dif_pos hs, channelShape_eq _ _, fun i hi => ?_⟩
  unfold Tensor.get
  simp only [channelShape_eq, flatIdx_channel (.inr rfl) hi, hp]
  simp [flatIdx, prodShape]

theorem zip_channel {f : ℝ → ℝ → ℝ} {x u p : Tensor ℝ} {n c : Nat} {rest : List Nat} (hx : x.shape = n :: c :: rest)
    (hu : u.shape = [1] ++ c :: List.replicate rest.length 1)
    (hg : ∀ i, InRange (n :: c :: rest) i → u.get (proj u.shape i) = p.get [i.getD 1 0]) :
    Burn.zip f x u = some (Tensor.ofFn x.shape fun i => f (x.get i) (p.get [i.getD 1 0])) := by
  rw [zip_fits (by rw [hx, hu]; simp) (by rw [hx, hu]; exact bcast_channel _ _ _)]
  congr 1
  exact Tensor.ofFn_congr fun i hi => by rw [hg i (hx ▸ hi)]

/-- Parameters with the shape of the module are loaded as they are. -/
theorem loadParam_ok {t : Tensor ℝ} {n : Nat} (h : t.shape = [n]) : loadParam n (.constant t) = some t := by
  simp only [loadParam]
  have hs : (if t.shape = [] then [1] else t.shape) = t.shape := if_neg (by rw [h]; simp)
  rw [hs, show Burn.reshape t t.shape = some t from dif_pos rfl, Option.bind_some, if_pos h]

theorem loadParam_shape {p : ParamIn} {t : Tensor ℝ} {n : Nat} (h : loadParam n p = some t) : t.shape = [n] := by
  unfold loadParam at h
  split at h
  · obtain ⟨u, _, hu⟩ := Option.bind_eq_some_iff.1 h
    split at hu
    · next hs => cases hu; exact hs
    · cases hu
  · cases h

/-! ### BatchNormalization -/

theorem map_channel {v : Tensor ℝ} {g : ℝ → ℝ} {u : Tensor ℝ} {n c : Nat} {rest : List Nat}
    (hu : u.shape = [1] ++ c :: List.replicate rest.length 1)
    (hg : ∀ i, InRange (n :: c :: rest) i → u.get (proj u.shape i) = v.get [i.getD 1 0]) (hv : v.shape = [c]) :
    ∀ i, InRange (n :: c :: rest) i → (u.map g).get (proj (u.map g).shape i) = (v.map g).get [i.getD 1 0] := by
  intro i hi
  show (u.map g).get (proj u.shape i) = _
  rw [Tensor.get_map, hg i hi, Tensor.get_map]
  · rw [hv]
    match i, hi with
    | a :: b :: is, hi => exact ⟨hi.2.1, trivial⟩
  · have hb := bcast_channel n c rest
    rw [← hu] at hb
    exact (proj_inRange hb hi).2

/-- The last steps of both codes. -/
theorem batchNorm_steps {eps : ℝ} {scale b mean var x s b' m v : Tensor ℝ} {n c : Nat} {rest : List Nat} (hx : x.shape = n :: c :: rest)
    (hvs : var.shape = [c])
    (hs : s.shape = [1] ++ c :: List.replicate rest.length 1 ∧ ∀ i, InRange (n :: c :: rest) i → s.get (proj s.shape i) = scale.get [i.getD 1 0])
    (hb : b'.shape = [1] ++ c :: List.replicate rest.length 1 ∧ ∀ i, InRange (n :: c :: rest) i → b'.get (proj b'.shape i) = b.get [i.getD 1 0])
    (hm : m.shape = [1] ++ c :: List.replicate rest.length 1 ∧ ∀ i, InRange (n :: c :: rest) i → m.get (proj m.shape i) = mean.get [i.getD 1 0])
    (hv : v.shape = [1] ++ c :: List.replicate rest.length 1 ∧ ∀ i, InRange (n :: c :: rest) i → v.get (proj v.shape i) = var.get [i.getD 1 0]) :
    ((Burn.zip (· - ·) x m).bind fun d => (Burn.zip (· / ·) d (v.map fun w => Real.sqrt (w + eps))).bind fun q =>
      (Burn.zip (· * ·) q s).bind fun p => Burn.zip (· + ·) p b') = some (Onnx.batchNormT eps x scale b mean var) := by
  rw [zip_channel hx hm.1 hm.2, Option.bind_some,
    zip_channel (x := Tensor.ofFn x.shape _) (u := v.map fun w => Real.sqrt (w + eps))
      (p := var.map fun w => Real.sqrt (w + eps)) hx hv.1 (map_channel hv.1 hv.2 hvs), Option.bind_some,
    zip_channel (x := Tensor.ofFn (Tensor.ofFn x.shape _).shape _) hx hs.1 hs.2, Option.bind_some,
    zip_channel (x := Tensor.ofFn (Tensor.ofFn (Tensor.ofFn x.shape _).shape _).shape _) hx hb.1 hb.2]
  congr 1
  unfold Onnx.batchNormT
  refine Tensor.ofFn_congr (s := x.shape) fun i hi => ?_
  have hc : InRange var.shape [i.getD 1 0] := by
    rw [hvs]
    rw [hx] at hi
    match i, hi with
    | _ :: b :: _, hi => exact ⟨hi.2.1, trivial⟩
  have e : ∀ {f : List Nat → ℝ}, (Tensor.ofFn x.shape f).get i = f i := fun {f} => Tensor.get_ofFn hi
  have e' : ∀ {s : List Nat} {f : List Nat → ℝ}, (Tensor.ofFn s f).shape = s := fun {s f} => rfl
  simp only [e', e, Tensor.get_map hc]
  ring

theorem insertOnes_tail (is : List Nat) : ∀ (n k : Nat), (∀ j, k ≤ j → j < k + n → j ∈ is) →
    Burn.insertOnes is k n [] = some (List.replicate n 1)
  | 0, _, _ => rfl
  | n + 1, k, h => by
    have hk : k ∈ is := h k (Nat.le_refl k) (by omega)
    simp only [Burn.insertOnes, if_pos hk, insertOnes_tail is n (k + 1) fun j h1 h2 => h j (by omega) (by omega), Option.map_some,
      List.replicate_succ]

theorem batchNorm_unsqueeze {p : Tensor ℝ} {c r : Nat} (hp : p.shape = [c]) :
    Burn.unsqueezeDims p (batchNormDims (r + 2)) (r + 2) = Burn.reshape p (Burn.channelShape (r + 2) c) := by
  unfold Burn.unsqueezeDims
  have hneg : (batchNormDims (r + 2)).filter (· < 0) = [] := by
    rw [List.filter_eq_nil_iff]
    intro a ha
    simp only [batchNormDims, List.mem_cons, List.mem_map] at ha
    rcases ha with rfl | ⟨k, _, rfl⟩ <;> simp
  rw [if_pos ⟨by rw [hp]; simp [batchNormDims]; omega, by rw [hneg]; simp⟩]
  have hm : (batchNormDims (r + 2)).mapM (Burn.dimOf (r + 2)) = some (0 :: List.range' 2 r) := by
    have : batchNormDims (r + 2) = (0 :: List.range' 2 r).map Int.ofNat := by simp [batchNormDims]
    rw [this, List.mapM_map]
    rw [mapM_some (f := Burn.dimOf (r + 2) ∘ Int.ofNat) (g := fun k => k)]
    · simp
    · intro k hk
      simp only [List.mem_cons, List.mem_range'_1] at hk
      simp only [Function.comp, Burn.dimOf, Int.ofNat_eq_natCast]
      rw [if_pos (by omega), if_pos (by omega)]
      simp
  rw [hm, Option.bind_some, hp]
  have : Burn.insertOnes (0 :: List.range' 2 r) 0 (r + 2) [c] = some (1 :: c :: List.replicate r 1) := by
    simp only [Burn.insertOnes, List.mem_cons, true_or, if_true]
    rw [if_neg (by simp [List.mem_range'_1])]
    rw [insertOnes_tail _ r 2 fun j h1 h2 => List.mem_cons_of_mem _ (by rw [List.mem_range'_1]; omega)]
    rfl
  rw [this, Option.bind_some, channelShape_eq]
  rfl

/-- BatchNormalization at inference with `epsilon` given: ONNX's value, with constant parameters and with computed ones. -/
theorem C66_batch_norm_partial {eps : ℝ} {allConstant : Bool} {x scale b mean var : Tensor ℝ} {n c : Nat} {rest : List Nat}
    (hx : x.shape = n :: c :: rest) (hs : scale.shape = [c]) (hb : b.shape = [c]) (hm : mean.shape = [c]) (hv : var.shape = [c]) :
    genBatchNorm (some eps) allConstant scale b mean var x = some (Onnx.batchNormT eps x scale b mean var) := by
  obtain ⟨s', s1, s2⟩ := channel_param (n := n) (rest := rest) hs
  obtain ⟨b', b1, b2⟩ := channel_param (n := n) (rest := rest) hb
  obtain ⟨m', m1, m2⟩ := channel_param (n := n) (rest := rest) hm
  obtain ⟨v', v1, v2⟩ := channel_param (n := n) (rest := rest) hv
  have key := batchNorm_steps (eps := eps) hx hv s2 b2 m2 v2
  have hl : x.shape.length = rest.length + 2 := by rw [hx]; rfl
  cases allConstant with
  | true =>
    simp only [genBatchNorm, if_true]
    rw [show numFeatures (.constant scale) = some c by simp [numFeatures, hs], Option.bind_some, loadParam_ok hs, Option.bind_some,
      loadParam_ok hb, Option.bind_some, loadParam_ok hm, Option.bind_some, loadParam_ok hv, Option.bind_some]
    unfold Burn.batchNorm
    rw [if_neg (by omega), hl, show x.shape.getD 1 0 = c by rw [hx]; rfl]
    simp only [m1, v1, s1, b1, Option.bind_eq_bind, Option.bind_some]
    exact key
  | false =>
    simp only [genBatchNorm, Bool.false_eq_true, if_false, batchNormRuntime]
    rw [hl, batchNorm_unsqueeze hs, s1, Option.bind_some, batchNorm_unsqueeze hb, b1, Option.bind_some, batchNorm_unsqueeze hm, m1,
      Option.bind_some, batchNorm_unsqueeze hv, v1, Option.bind_some]
    exact key

/-- A case of two channels and three dimensions. -/
example : (⟨[1, 2, 1], [3, 5], rfl⟩ : Tensor ℝ).shape = 1 :: 2 :: [1] ∧ (⟨[2], [1, 1], rfl⟩ : Tensor ℝ).shape = [2] := ⟨rfl, rfl⟩

/-- A tensor of one element with two dimensions. -/
def cell2 (a : ℝ) : Tensor ℝ := ⟨[1, 1], [a], rfl⟩

/-- A tensor of one element with one dimension. -/
def cell1 (a : ℝ) : Tensor ℝ := ⟨[1], [a], rfl⟩

theorem cell2_get (a : ℝ) : (cell2 a).get [0, 0] = a := rfl

theorem cell1_get (a : ℝ) : (cell1 a).get [0] = a := rfl

/-- Without the attribute, epsilon is 0 where ONNX has 0.00001. -/
theorem C66_batch_norm_default_epsilon_wrong : ∃ x scale b mean var y : Tensor ℝ, x.shape = [1, 1] ∧ scale.shape = [1] ∧ b.shape = [1] ∧
    mean.shape = [1] ∧ var.shape = [1] ∧ (∀ allConstant, genBatchNorm none allConstant scale b mean var x = some y) ∧
    y ≠ Onnx.batchNormT 0.00001 x scale b mean var := by
  refine ⟨cell2 1, cell1 1, cell1 0, cell1 0, cell1 1, _, rfl, rfl, rfl, rfl, rfl,
    fun k => C66_batch_norm_partial (eps := 0) (allConstant := k) (n := 1) (c := 1) (rest := []) rfl rfl rfl rfl rfl, fun h => ?_⟩
  have h1 := congrArg (fun t : Tensor ℝ => t.get [0, 0]) h
  unfold Onnx.batchNormT at h1
  rw [Tensor.get_ofFn (by simp [InRange, cell2]), Tensor.get_ofFn (by simp [InRange, cell2])] at h1
  simp only [cell2_get, show [0, 0].getD 1 0 = 0 from rfl, cell1_get] at h1
  have h2 : (1 : ℝ) < Real.sqrt (1 + 0.00001) := by
    rw [Real.lt_sqrt (by norm_num)]
    norm_num
  simp only [add_zero, Real.sqrt_one, sub_zero, one_mul, div_one] at h1
  have h3 : 1 / Real.sqrt (1 + 0.00001) < 1 := (div_lt_one (by linarith)).2 h2
  linarith

/-- With `training_mode = 1` ONNX normalises with the values of the batch; the attribute is not read, and the given mean and variance
are used. -/
theorem C66_batch_norm_training_wrong : ∃ x scale b mean var y : Tensor ℝ, (∀ allConstant, genBatchNorm (some 1) allConstant scale b mean var x =
    some y) ∧ y ≠ Onnx.batchNormTrainingT 1 x scale b := by
  refine ⟨cell2 1, cell1 1, cell1 0, cell1 0, cell1 0, _,
    fun k => C66_batch_norm_partial (eps := 1) (allConstant := k) (n := 1) (c := 1) (rest := []) rfl rfl rfl rfl rfl, fun h => ?_⟩
  have h1 := congrArg (fun t : Tensor ℝ => t.get [0, 0]) h
  unfold Onnx.batchNormT Onnx.batchNormTrainingT at h1
  rw [Tensor.get_ofFn (by simp [InRange, cell2]), Tensor.get_ofFn (by simp [InRange, cell2])] at h1
  have hl : ((indices (cell2 1).shape).filter fun j => j.getD 1 0 = [0, 0].getD 1 0) = [[0, 0]] := by decide
  rw [hl] at h1
  simp only [List.map_cons, List.map_nil, cell2_get, show [0, 0].getD 1 0 = 0 from rfl, cell1_get] at h1
  norm_num [normalized, avg] at h1

/-! ### InstanceNormalization and GroupNormalization -/

/-- The values of a group are consecutive. -/
theorem group_values {x t : Tensor ℝ} {n G k : Nat} {sp : List Nat} (hx : x.shape = n :: (G * k) :: sp)
    (ht : Burn.reshape x [n, G, k * prodShape sp] = some t) (a g : Nat) :
    (List.range (k * prodShape sp)).map (fun h => t.get [a, g, h]) = Onnx.groupValues x k a g := by
  unfold Onnx.groupValues
  have e : ∀ q (j : List Nat), x.get (a :: (g * k + q) :: j) = x.data.getD ((a * G + g) * (k * prodShape sp) + (q * prodShape sp + flatIdx sp j)) default := by
    intro q j
    unfold Tensor.get
    rw [hx]
    congr 1
    simp only [flatIdx, prodShape]
    ring
  rw [show x.shape.drop 2 = sp by rw [hx]; rfl]
  have : ∀ q, ((indices sp).map fun j => x.get (a :: (g * k + q) :: j)) =
      ((List.range (prodShape sp)).map (q * prodShape sp + ·)).map fun h => x.data.getD ((a * G + g) * (k * prodShape sp) + h) default := by
    intro q
    rw [← map_flatIdx_indices, List.map_map, List.map_map]
    exact List.map_congr_left fun j _ => e q j
  simp only [this]
  rw [← List.map_flatMap, range_mul]
  refine List.map_congr_left fun h _ => ?_
  rw [(Burn.reshape_get ht).2]
  congr 1
  simp only [flatIdx, prodShape]
  ring

theorem bcast_set (s : List Nat) (d : Nat) : bcast s (s.set d 1) = some s := by
  rw [bcast_comm]
  have := bcast_onesAt [d] s
  rwa [← onesAt_set, show onesAt [] s = s by simp [onesAt, List.mapIdx_eq_iff]] at this

theorem proj_set {s i : List Nat} {d : Nat} (hi : InRange s i) : proj (s.set d 1) i = i.set d 0 := by
  have := proj_onesAt (is := [d]) hi
  rw [← onesAt_set, show onesAt [] s = s by simp [onesAt, List.mapIdx_eq_iff]] at this
  rw [this]
  apply ext_getD
  · simp [zeroAt]
  · intro k hk
    have hk' : k < i.length := by simpa [zeroAt] using hk
    simp only [zeroAt, List.getD_eq_getElem?_getD, List.getElem?_mapIdx, List.getElem?_eq_getElem hk', Option.map_some, Option.getD_some,
      List.mem_singleton, List.getElem?_set]
    by_cases h : d = k
    · subst h; simp [hk']
    · simp only [h, if_false]
      rw [if_neg (fun e => h e.symm)]
      simp [hk']

/-- Combining a tensor with its reduction along an axis. -/
theorem zip_reduced {f : ℝ → ℝ → ℝ} {x : Tensor ℝ} {s : List Nat} {r : List Nat → ℝ} {d : Nat} (hs : x.shape = s) (h : ∀ i, r (i.set d 0) = r i) :
    Burn.zip f x (Tensor.ofFn (s.set d 1) r) = some (Tensor.ofFn s fun i => f (x.get i) (r i)) := by
  subst hs
  rw [zip_fits (by simp [Tensor.ofFn]) (bcast_set _ _)]
  congr 1
  refine Tensor.ofFn_congr fun i hi => ?_
  have hb : bcast x.shape (x.shape.set d 1) = some x.shape := bcast_set _ _
  show f (x.get i) ((Tensor.ofFn (x.shape.set d 1) r).get (proj (x.shape.set d 1) i)) = _
  rw [Tensor.get_ofFn (proj_inRange hb hi).2, proj_set hi, h]

theorem map_ofFn {s : List Nat} {f : List Nat → ℝ} {g : ℝ → ℝ} : (Tensor.ofFn s f).map g = Tensor.ofFn s fun i => g (f i) := by
  refine Tensor.ext rfl ?_
  simp [Tensor.map, Tensor.ofFn]

theorem reduceDim_ofFn {red : List ℝ → ℝ} {s : List Nat} {d : Nat} {f : List Nat → ℝ} (hd : d < s.length) :
    Burn.reduceDim red (Tensor.ofFn s f) d = some (Tensor.ofFn (s.set d 1) fun i => red ((List.range (s.getD d 0)).map fun k => f (i.set d k))) := by
  unfold Burn.reduceDim
  rw [if_pos (show d < (Tensor.ofFn s f).shape.length from hd)]
  congr 1
  refine Tensor.ofFn_congr (s := s.set d 1) fun i hi => ?_
  congr 1
  refine List.map_congr_left fun k hk => Tensor.get_ofFn ?_
  have hk' : k < s.getD d 0 := List.mem_range.1 hk
  obtain ⟨h1, h2, h3⟩ := (inRange_set hd).1 hi
  rw [inRange_iff_get]
  refine ⟨by rw [List.length_set, h1], fun m hm => ?_⟩
  rw [getD_set]
  by_cases e : d = m
  · subst e
    rw [if_pos ⟨rfl, by rw [h1]; exact hd⟩]
    exact hk'
  · rw [if_neg (fun h => e h.1)]
    exact h3 m hm fun h => e h.symm

/-- Burn's group norm, in terms of the values of a group. -/
theorem burn_groupNorm {G k n : Nat} {sp : List Nat} {eps : ℝ} {gamma beta x : Tensor ℝ} (hx : x.shape = n :: (G * k) :: sp) (hG : 0 < G)
    (h2 : 2 < prodShape x.shape) (hg : gamma.shape = [G * k]) (hb : beta.shape = [G * k]) :
    Burn.groupNorm G (G * k) eps gamma beta x = some (Tensor.ofFn x.shape fun i =>
      gamma.get [i.getD 1 0] * normalized eps (Onnx.groupValues x k (i.getD 0 0) (i.getD 1 0 / k)) (x.get i) + beta.get [i.getD 1 0]) := by
  have hl : x.shape.length = sp.length + 2 := by rw [hx]; rfl
  have hh : prodShape (x.shape.drop 2) * (G * k) / G = k * prodShape sp := by
    rw [hx]
    show prodShape sp * (G * k) / G = _
    rw [show prodShape sp * (G * k) = (k * prodShape sp) * G by ring, Nat.mul_div_cancel _ hG]
  have hp : prodShape [n, G, k * prodShape sp] = prodShape x.shape := by
    rw [hx]
    simp only [prodShape]
    ring
  obtain ⟨t, ht⟩ : ∃ t, Burn.reshape x [n, G, k * prodShape sp] = some t := ⟨_, dif_pos hp⟩
  obtain ⟨y1, y2⟩ := Burn.reshape_get ht (i := [])
  have hv := group_values hx ht
  have hlen : ∀ a g, (Onnx.groupValues x k a g).length = k * prodShape sp := fun a g => by rw [← hv]; simp
  have line : ∀ i, InRange (t.shape.set 2 1) i → ((List.range (k * prodShape sp)).map fun h => t.get (i.set 2 h)) =
      Onnx.groupValues x k (i.getD 0 0) (i.getD 1 0) := by
    intro i hi
    rw [y1] at hi
    match i, hi with
    | [a, g, z], _ => exact hv a g
  have keep : ∀ (i : List Nat) (h : Nat), (i.set 2 h).getD 0 0 = i.getD 0 0 ∧ (i.set 2 h).getD 1 0 = i.getD 1 0 := by
    intro i h
    simp [List.getD_eq_getElem?_getD, List.getElem?_set]
  -- the mean
  have r1 : (Burn.reduceDim List.sum t 2).map (fun u => u.map (· / ((k * prodShape sp : Nat) : ℝ))) =
      some (Tensor.ofFn (t.shape.set 2 1) fun i => avg (Onnx.groupValues x k (i.getD 0 0) (i.getD 1 0))) := by
    unfold Burn.reduceDim
    rw [if_pos (by rw [y1]; simp), Option.map_some, map_ofFn]
    congr 1
    refine Tensor.ofFn_congr fun i hi => ?_
    rw [show t.shape.getD 2 0 = k * prodShape sp by rw [y1]; rfl, line i hi, avg, hlen]
  obtain ⟨u1, hu1, hu1'⟩ := Option.map_eq_some_iff.1 r1
  -- the variance
  have r2 : (Burn.reduceDim List.sum (Tensor.ofFn t.shape fun i =>
        (t.get i - avg (Onnx.groupValues x k (i.getD 0 0) (i.getD 1 0))) ^ 2) 2).map (fun u => u.map (· / ((k * prodShape sp : Nat) : ℝ))) =
      some (Tensor.ofFn (t.shape.set 2 1) fun i => variance (Onnx.groupValues x k (i.getD 0 0) (i.getD 1 0))) := by
    rw [reduceDim_ofFn (by rw [y1]; simp), Option.map_some, map_ofFn]
    congr 1
    refine Tensor.ofFn_congr fun i hi => ?_
    simp only [keep]
    rw [show t.shape.getD 2 0 = k * prodShape sp by rw [y1]; rfl, variance]
    generalize avg (Onnx.groupValues x k (i.getD 0 0) (i.getD 1 0)) = μ
    rw [avg, List.length_map, hlen, ← line i hi, List.map_map]
    rfl
  obtain ⟨u2, hu2, hu2'⟩ := Option.map_eq_some_iff.1 r2
  unfold Burn.groupNorm
  rw [if_neg (by rw [hx] at h2 ⊢; simp at h2 ⊢; omega)]
  rw [hh, show x.shape.getD 0 0 = n by rw [hx]; rfl, hl]
  simp only [Option.bind_eq_bind]
  rw [ht, Option.bind_some, hu1, Option.bind_some, hu1', zip_reduced rfl (by intro i; simp only [keep]), Option.bind_some]
  rw [map_ofFn, hu2, Option.bind_some, hu2', map_ofFn]
  rw [zip_reduced (x := Tensor.ofFn t.shape _) (s := t.shape) rfl (by intro i; simp only [keep]), Option.bind_some]
  -- back to the shape of the input
  have r3 : Burn.reshape (Tensor.ofFn t.shape fun i =>
        (Tensor.ofFn t.shape fun i => t.get i - avg (Onnx.groupValues x k (i.getD 0 0) (i.getD 1 0))).get i /
          Real.sqrt (variance (Onnx.groupValues x k (i.getD 0 0) (i.getD 1 0)) + eps)) x.shape =
      some (Tensor.ofFn x.shape fun i => normalized eps (Onnx.groupValues x k (i.getD 0 0) (i.getD 1 0 / k)) (x.get i)) := by
    refine reshape_ofFn (s := t.shape) (by rw [y1, hp]) fun i hi => ?_
    rw [hx] at hi
    match i, hi with
    | a :: c :: j, hi =>
      have hk : 0 < k := by
        rcases Nat.eq_zero_or_pos k with h | h
        · have := hi.2.1
          rw [h, Nat.mul_zero] at this
          omega
        · exact h
      have hj := flatIdx_lt hi.2.2
      have hq : c / k < G := Nat.div_lt_of_lt_mul (by rw [Nat.mul_comm]; exact hi.2.1)
      have hm : c % k * prodShape sp + flatIdx sp j < k * prodShape sp := by
        have := Nat.mod_lt c hk
        calc c % k * prodShape sp + flatIdx sp j < c % k * prodShape sp + prodShape sp := by omega
          _ = (c % k + 1) * prodShape sp := by ring
          _ ≤ k * prodShape sp := Nat.mul_le_mul_right _ (by omega)
      have hr : InRange t.shape [a, c / k, c % k * prodShape sp + flatIdx sp j] := by
        rw [y1]
        exact ⟨hi.1, hq, hm, trivial⟩
      have hf : flatIdx x.shape (a :: c :: j) = flatIdx t.shape [a, c / k, c % k * prodShape sp + flatIdx sp j] := by
        rw [y1, hx]
        simp only [flatIdx, prodShape]
        have := Nat.div_add_mod c k
        conv_lhs => rw [← this]
        ring
      refine ⟨_, hr, hf, ?_⟩
      rw [Tensor.get_ofFn hr, show t.get [a, c / k, c % k * prodShape sp + flatIdx sp j] = x.get (a :: c :: j) from
        Burn.reshape_get_eq ht (by rw [← y1]; exact hf.symm)]
      rfl
  rw [r3, Option.bind_some]
  obtain ⟨g', g1, g2⟩ := channel_param (n := n) (rest := sp) hg
  obtain ⟨b', b1, b2⟩ := channel_param (n := n) (rest := sp) hb
  rw [g1, Option.bind_some, zip_channel (x := Tensor.ofFn x.shape _) hx g2.1 g2.2, Option.bind_some, b1, Option.bind_some,
    zip_channel (x := Tensor.ofFn (Tensor.ofFn x.shape _).shape _) hx b2.1 b2.2]
  congr 1
  refine Tensor.ofFn_congr (s := x.shape) fun i hi => ?_
  have e : ∀ {f : List Nat → ℝ}, (Tensor.ofFn x.shape f).get i = f i := fun {f} => Tensor.get_ofFn hi
  have e' : ∀ {s : List Nat} {f : List Nat → ℝ}, (Tensor.ofFn s f).shape = s := fun {s f} => rfl
  simp only [e', e]
  ring

/-- GroupNormalization with a constant scale and bias for each channel (operator set 21, or a group for each channel before): ONNX's
value. -/
theorem C66_group_norm_partial {eps : Option ℝ} {G k n : Nat} {sp : List Nat} {x scale b : Tensor ℝ} (hx : x.shape = n :: (G * k) :: sp)
    (h2 : 2 < prodShape x.shape) (hs : scale.shape = [G * k]) (hb : b.shape = [G * k]) {perGroup : Bool} (hp : perGroup = true → k = 1) :
    genGroupNorm eps (some G) (.constant scale) (.constant b) x = some (Onnx.groupNormT (eps.getD 0.00001) G perGroup x scale b) := by
  have hc : 0 < G * k := by
    rcases Nat.eq_zero_or_pos (G * k) with h | h
    · rw [hx, h] at h2
      simp [prodShape] at h2
    · exact h
  have hG : 0 < G := Nat.pos_of_mul_pos_right hc
  simp only [genGroupNorm, Option.bind_some]
  rw [show numFeatures (.constant scale) = some (G * k) by simp [numFeatures, hs], Option.bind_some, if_neg (by simp),
    loadParam_ok hs, Option.bind_some, loadParam_ok hb, Option.bind_some, burn_groupNorm hx hG h2 hs hb]
  congr 1
  unfold Onnx.groupNormT
  refine Tensor.ofFn_congr fun i hi => ?_
  have hk : x.shape.getD 1 0 / G = k := by
    rw [hx]
    exact Nat.mul_div_cancel_left k hG
  rw [hk]
  cases perGroup with
  | false => rfl
  | true =>
    have := hp rfl
    subst this
    simp

example : (⟨[1, 4, 1], [1, 2, 3, 4], rfl⟩ : Tensor ℝ).shape = 1 :: (2 * 2) :: [1] ∧ 2 < prodShape [1, 4, 1] := ⟨rfl, by decide⟩

/-- A scale for each group, as operator sets 18 to 20 have it, panics unless every group is one channel. -/
theorem C66_group_norm_per_group_panics {eps : Option ℝ} {G c n : Nat} {sp : List Nat} {x scale : Tensor ℝ} {b : ParamIn}
    (hx : x.shape = n :: c :: sp) (hs : scale.shape = [G]) (hc : c ≠ G) : genGroupNorm eps (some G) (.constant scale) b x = none := by
  simp only [genGroupNorm, Option.bind_some]
  rw [show numFeatures (.constant scale) = some G by simp [numFeatures, hs], Option.bind_some]
  split
  · rfl
  · rw [loadParam_ok hs, Option.bind_some]
    cases loadParam G b with
    | none => rfl
    | some beta =>
      rw [Option.bind_some]
      unfold Burn.groupNorm
      rw [if_pos (.inr (.inr (by rw [hx]; exact hc)))]

/-- InstanceNormalization with constant parameters: ONNX's value. -/
theorem C66_instance_norm_partial {eps : Option ℝ} {c n : Nat} {sp : List Nat} {x scale b : Tensor ℝ} (hx : x.shape = n :: c :: sp)
    (h2 : 2 < prodShape x.shape) (hs : scale.shape = [c]) (hb : b.shape = [c]) :
    genInstanceNorm eps (.constant scale) (.constant b) x = some (Onnx.instanceNormT (eps.getD 0.00001) x scale b) := by
  have hc : 0 < c := by
    rcases Nat.eq_zero_or_pos c with h | h
    · rw [hx, h] at h2
      simp [prodShape] at h2
    · exact h
  have e : c = c * 1 := (Nat.mul_one c).symm
  unfold genInstanceNorm
  rw [show numFeatures (.constant scale) = some c by simp [numFeatures, hs], Option.bind_some, loadParam_ok hs, Option.bind_some,
    loadParam_ok hb, Option.bind_some]
  have := burn_groupNorm (G := c) (k := 1) (eps := eps.getD 0.00001) (by rw [Nat.mul_one]; exact hx) hc h2 (by rw [Nat.mul_one]; exact hs)
    (by rw [Nat.mul_one]; exact hb)
  rw [Nat.mul_one] at this
  rw [this]
  congr 1
  unfold Onnx.instanceNormT
  refine Tensor.ofFn_congr fun i hi => ?_
  simp [Onnx.groupValues]

example : (⟨[1, 2, 2], [1, 2, 3, 4], rfl⟩ : Tensor ℝ).shape = 1 :: 2 :: [2] ∧ 2 < prodShape [1, 2, 2] := ⟨rfl, by decide⟩

/-- A scale or bias that is computed by the model panics in all three operators, as does a bias listed with an empty name. -/
theorem C66_computed_parameters_panic {eps : Option ℝ} {G : Option Nat} {axis : Option Int} {scale : ParamIn} {x : Tensor ℝ} :
    genInstanceNorm eps .other scale x = none ∧ genGroupNorm eps G .other scale x = none ∧ genLayerNorm eps axis .other scale x = none ∧
    genInstanceNorm eps scale .other x = none ∧ genGroupNorm eps G scale .other x = none ∧ genLayerNorm eps axis scale .other x = none := by
  refine ⟨rfl, ?_, rfl, ?_, ?_, ?_⟩
  · cases G <;> rfl
  · unfold genInstanceNorm
    cases numFeatures scale with
    | none => rfl
    | some n => cases h : loadParam n scale <;> simp [h, loadParam]
  · unfold genGroupNorm
    cases G with
    | none => rfl
    | some g =>
      cases numFeatures scale with
      | none => rfl
      | some n =>
        simp only [Option.bind_some]
        split
        · rfl
        · cases h : loadParam n scale <;> simp [loadParam]
  · unfold genLayerNorm
    cases scale with
    | absent => rfl
    | other => rfl
    | constant w =>
      simp only
      split
      · rfl
      · cases numFeatures (.constant w) with
        | none => rfl
        | some n => cases h : loadParam n (.constant w) <;> simp [h, show loadParam n .other = none from rfl]

/-! ### LayerNormalization -/

theorem take_append_set {i : List Nat} {d k : Nat} (h : i.length = d + 1) : i.take d ++ [k] = i.set d k := by
  apply List.ext_getElem
  · simp; omega
  · intro m h1 h2
    rw [List.getElem_append, List.getElem_set]
    simp only [List.length_take, List.length_set] at h1 h2 ⊢
    by_cases e : m = d
    · subst e
      simp
    · rw [dif_pos (by omega), if_neg (fun h => e h.symm), List.getElem_take]

/-- LayerNormalization over the last dimension with a constant scale of one element or one for each entry, and no bias or one of the same
shape: ONNX's value. -/
theorem C66_layer_norm_partial {eps : Option ℝ} {axis : Option Int} {x scale : Tensor ℝ} {b : Option (Tensor ℝ)} {pre : List Nat} {d m : Nat}
    (hx : x.shape = pre ++ [d]) (hs : scale.shape = [m]) (hm : m = d ∨ m = 1) (hb : ∀ t ∈ b, t.shape = [m])
    (ha : axis = none ∨ axis = some (-1) ∨ axis = some 0 ∧ pre = []) :
    genLayerNorm eps axis (.constant scale) (match b with | some t => .constant t | none => .absent) x =
      some (Onnx.layerNormT (eps.getD 0.00001) (Onnx.axisOf x.shape.length (axis.getD (-1))) x scale b) := by
  have hax : Onnx.axisOf x.shape.length (axis.getD (-1)) = pre.length := by
    rcases ha with rfl | rfl | ⟨rfl, rfl⟩ <;> simp [Onnx.axisOf, hx]
  have hl : x.shape.length = pre.length + 1 := by rw [hx]; simp
  have hd : x.shape.getD pre.length 0 = d := by rw [hx]; simp
  have hr : ¬ (axis.getD (-1) ≠ -1 ∧ axis.getD (-1) ≠ (scale.shape.length : Int) - 1) := by
    rcases ha with rfl | rfl | ⟨rfl, _⟩ <;> simp [hs]
  let V := fun i : List Nat => (List.range d).map fun k => x.get (i.set pre.length k)
  have hV : ∀ i, V (i.set pre.length 0) = V i := by
    intro i
    simp [V]
  have hval : ∀ i, InRange x.shape i →
      ((indices (x.shape.drop pre.length)).map fun j => x.get (i.take pre.length ++ j)) = V i := by
    intro i hi
    rw [show x.shape.drop pre.length = [d] by rw [hx]; simp]
    have hil : i.length = pre.length + 1 := by rw [hi.length, hl]
    simp only [V]
    rw [show indices [d] = (List.range d).map fun k => [k] by simp [indices, ← List.map_eq_flatMap], List.map_map]
    exact List.map_congr_left fun k _ => by simp only [Function.comp, take_append_set hil]
  -- the normalised input
  have red : ∀ r : List ℝ → ℝ, Burn.reduceDim r x (x.shape.length - 1) = some (Tensor.ofFn (x.shape.set pre.length 1) fun i => r (V i)) := by
    intro r
    unfold Burn.reduceDim
    rw [hl, Nat.add_sub_cancel, if_pos (by omega), hd]
  have norm : ∀ (gamma : Tensor ℝ) (beta : Option (Tensor ℝ)), Burn.layerNorm (eps.getD 0.00001) gamma beta x =
      ((Burn.unsqueeze gamma x.shape.length).bind fun g =>
        (Burn.zip (· * ·) (Tensor.ofFn x.shape fun i => normalized (eps.getD 0.00001) (V i) (x.get i)) g).bind fun p =>
          match beta with
          | some b => (Burn.unsqueeze b x.shape.length).bind fun b => Burn.zip (· + ·) p b
          | none => some p) := by
    intro gamma beta
    unfold Burn.layerNorm
    rw [if_neg (by rw [hx]; simp)]
    simp only [Option.bind_eq_bind]
    rw [red, Option.bind_some, red, Option.bind_some, zip_reduced rfl (by intro i; simp only [hV]), Option.bind_some, map_ofFn,
      zip_reduced (x := Tensor.ofFn x.shape _) (s := x.shape) rfl (by intro i; simp only [hV]), Option.bind_some]
    have : (Tensor.ofFn x.shape fun i => (Tensor.ofFn x.shape fun i => x.get i - avg (V i)).get i / Real.sqrt (variance (V i) + eps.getD 0.00001)) =
        Tensor.ofFn x.shape fun i => normalized (eps.getD 0.00001) (V i) (x.get i) :=
      Tensor.ofFn_congr fun i hi => by rw [Tensor.get_ofFn hi]; rfl
    rw [this]
    cases beta <;> rfl
  -- scale and bias
  have affine : ∀ {f : ℝ → ℝ → ℝ} {y p : Tensor ℝ}, y.shape = x.shape → p.shape = [m] →
      ∃ u, Burn.unsqueeze p x.shape.length = some u ∧
        Burn.zip f y u = some (Tensor.ofFn x.shape fun i => f (y.get i) (p.get (proj p.shape i))) := by
    intro f y p hy hp
    have hle : p.shape.length ≤ x.shape.length := by rw [hp, hl]; simp
    have hpr : prodShape (List.replicate (x.shape.length - p.shape.length) 1 ++ p.shape) = prodShape p.shape := by
      rw [prodShape_append, prodShape_replicate_one, Nat.one_mul]
    refine ⟨⟨List.replicate (x.shape.length - p.shape.length) 1 ++ p.shape, p.data, by rw [p.size, hpr]⟩, ?_, ?_⟩
    · unfold Burn.unsqueeze
      rw [if_pos hle]
      exact dif_pos hpr
    · have hbc : bcast x.shape p.shape = some x.shape := by
        rw [hp, hx, bcast_zip (by simp)]
        rcases hm with rfl | rfl
        · simp [zipDims]
        · by_cases h1 : d = 1 <;> simp [zipDims, h1]
      have hz : Tensor.zipBcast f y p = some (Tensor.ofFn x.shape fun i => f (y.get i) (p.get (proj p.shape i))) := by
        unfold Tensor.zipBcast
        rw [hy, hbc, Option.map_some]
        congr 1
        exact Tensor.ofFn_congr fun i hi => by rw [proj_self hi]
      obtain ⟨z, z1, z2⟩ := zip_padded (r := x.shape.length) (X := y) (Y := p) (x := y)
        (y := ⟨List.replicate (x.shape.length - p.shape.length) 1 ++ p.shape, p.data, by rw [p.size, hpr]⟩)
        (hy ▸ PadOf.refl y) ⟨hle, rfl, rfl⟩ hz
      rw [z1]
      congr 1
      refine Tensor.ext ?_ z2.data
      rw [z2.shape]
      show List.replicate (x.shape.length - x.shape.length) 1 ++ x.shape = x.shape
      simp
  simp only [genLayerNorm, if_neg hr]
  rw [show numFeatures (.constant scale) = some m by simp [numFeatures, hs], Option.bind_some, loadParam_ok hs, Option.bind_some, hax]
  obtain ⟨g, g1, g2⟩ := affine (f := (· * ·)) (y := Tensor.ofFn x.shape fun i => normalized (eps.getD 0.00001) (V i) (x.get i)) rfl hs
  cases b with
  | none =>
    simp only
    rw [norm, g1, Option.bind_some, g2, Option.bind_some]
    refine congrArg some ?_
    unfold Onnx.layerNormT
    refine Tensor.ofFn_congr fun i hi => ?_
    rw [Tensor.get_ofFn hi, hval i hi]
    ring
  | some t =>
    obtain ⟨b', b1, b2⟩ := affine (f := (· + ·)) (y := Tensor.ofFn x.shape fun i =>
      (Tensor.ofFn x.shape fun i => normalized (eps.getD 0.00001) (V i) (x.get i)).get i * scale.get (proj scale.shape i)) rfl (hb t rfl)
    simp only
    rw [loadParam_ok (hb t rfl), Option.bind_some, norm, g1, Option.bind_some, g2, Option.bind_some]
    simp only
    rw [b1, Option.bind_some, b2]
    congr 1
    unfold Onnx.layerNormT
    refine Tensor.ofFn_congr fun i hi => ?_
    rw [Tensor.get_ofFn hi, Tensor.get_ofFn hi, hval i hi]
    ring

example : (⟨[1, 2], [1, 2], rfl⟩ : Tensor ℝ).shape = [1] ++ [2] ∧ (⟨[2], [1, 1], rfl⟩ : Tensor ℝ).shape = [2] := ⟨rfl, rfl⟩

/-- An axis other than −1 is compared with the rank of the scale instead of that of the input: the last axis of an input of two
dimensions or more, written as such, is refused. -/
theorem C66_layer_norm_axis_refused {eps : Option ℝ} {x scale : Tensor ℝ} {b : ParamIn} {m : Nat} (hs : scale.shape = [m]) (hx : 2 ≤ x.shape.length) :
    genLayerNorm eps (some (x.shape.length - 1 : Int)) (.constant scale) b x = none := by
  simp only [genLayerNorm, Option.getD_some, hs]
  exact if_pos ⟨by omega, by simp; omega⟩

/-- A column of two numbers. -/
def col2 : Tensor ℝ := ⟨[2, 1], [0, 2], rfl⟩

theorem col2_get : col2.get [0, 0] = 0 := rfl

/-- Normalising over all dimensions of a matrix with a scale that is broadcast is accepted, but done over the last dimension only. -/
theorem C66_layer_norm_axis_wrong : ∃ x scale y : Tensor ℝ, x.shape = [2, 1] ∧ scale.shape = [1] ∧
    genLayerNorm (some 0) (some 0) (.constant scale) .absent x = some y ∧ y ≠ Onnx.layerNormT 0 (Onnx.axisOf 2 0) x scale none := by
  have h : genLayerNorm (some 0) (some 0) (.constant (cell1 1)) .absent col2 = some (Onnx.layerNormT 0 1 col2 (cell1 1) none) :=
    C66_layer_norm_partial (eps := some 0) (axis := none) (x := col2) (scale := cell1 1) (b := none) (pre := [2]) (d := 1)
      (m := 1) rfl rfl (.inl rfl) (by simp) (.inl rfl)
  refine ⟨col2, cell1 1, _, rfl, rfl, h, fun e => ?_⟩
  have h1 := congrArg (fun t : Tensor ℝ => t.get [0, 0]) e
  unfold Onnx.layerNormT at h1
  simp only at h1
  rw [Tensor.get_ofFn (by simp [InRange, col2]), Tensor.get_ofFn (by simp [InRange, col2])] at h1
  have v1 : ((indices (col2.shape.drop 1)).map fun j => col2.get ([0, 0].take 1 ++ j)) = [0] := rfl
  have v0 : ((indices (col2.shape.drop (Onnx.axisOf 2 0))).map fun j => col2.get ([0, 0].take (Onnx.axisOf 2 0) ++ j)) = [0, 2] := rfl
  have hp : (cell1 1).get (proj (cell1 1).shape [0, 0]) = 1 := rfl
  rw [v1, v0, hp, col2_get] at h1
  norm_num [normalized, variance, avg] at h1

/-- A scale of two dimensions, for an axis before the last, cannot be loaded into the module. -/
theorem C66_layer_norm_matrix_scale_panics {eps : Option ℝ} {axis : Option Int} {x scale : Tensor ℝ} {b : ParamIn} {m n : Nat} {rest : List Nat}
    (hs : scale.shape = m :: n :: rest) : genLayerNorm eps axis (.constant scale) b x = none := by
  simp only [genLayerNorm]
  split
  · rfl
  · rw [show numFeatures (.constant scale) = some m by simp [numFeatures, hs], Option.bind_some]
    have : loadParam m (.constant scale) = none := by
      simp only [loadParam]
      rw [show (if scale.shape = [] then [1] else scale.shape) = scale.shape from if_neg (by rw [hs]; simp),
        show Burn.reshape scale scale.shape = some scale from dif_pos rfl, Option.bind_some, if_neg (by rw [hs]; simp)]
    rw [this]
    rfl

/-- A bias for each entry with a scale of one element, both broadcast by ONNX, cannot be loaded. -/
theorem C66_layer_norm_bias_panics {eps : Option ℝ} {axis : Option Int} {x scale b : Tensor ℝ} {m n : Nat} (hs : scale.shape = [m])
    (hb : b.shape = [n]) (h : n ≠ m) : genLayerNorm eps axis (.constant scale) (.constant b) x = none := by
  simp only [genLayerNorm]
  split
  · rfl
  · rw [show numFeatures (.constant scale) = some m by simp [numFeatures, hs], Option.bind_some, loadParam_ok hs, Option.bind_some]
    have : loadParam m (.constant b) = none := by
      simp only [loadParam]
      rw [show (if b.shape = [] then [1] else b.shape) = b.shape from if_neg (by rw [hb]; simp),
        show Burn.reshape b b.shape = some b from dif_pos rfl, Option.bind_some, if_neg (by rw [hb]; simpa using h)]
    rw [this]
    rfl

end OnnxIR
