import Verif.Props.AttentionGen

/-!
# Attention: examples and the cases the generated code does not handle
-/

namespace OnnxIR

open Onnx Gen

/-! ### The assumption on Burn can be met -/

/-- A function that does what Burn's attention is taken to do. -/
noncomputable def attnRef : Burn.Attn := fun q k v mask bias scale cap causal =>
  let b := q.shape.getD 0 0
  let h := q.shape.getD 1 0
  let sq := q.shape.getD 2 0
  let sk := k.shape.getD 2 0
  let d := q.shape.getD 3 0
  let excl (i : List Nat) : Score := (mask.elim 0 fun m => if m.get (proj m.shape i) then ⊥ else 0) +
    (bias.elim 0 fun m => m.get (proj m.shape i)) + if causal ∧ i.getD 2 0 < i.getD 3 0 then ⊥ else 0
  let score (i : List Nat) : Score := cap.elim id Score.cap
    (((scale.getD (1 / √d) * ∑ e ∈ Finset.range d, q.get [i.getD 0 0, i.getD 1 0, i.getD 2 0, e] * k.get [i.getD 0 0, i.getD 1 0, i.getD 3 0, e] : ℝ) : Score)
      + excl i)
  some (Tensor.ofFn [b, h, sq, v.shape.getD 3 0] fun x => ∑ j ∈ Finset.range sk, (score [x.getD 0 0, x.getD 1 0, x.getD 2 0, j]).exp /
    (∑ l ∈ Finset.range sk, (score [x.getD 0 0, x.getD 1 0, x.getD 2 0, l]).exp) * v.get [x.getD 0 0, x.getD 1 0, j, x.getD 3 0])

theorem attnRef_attends : Burn.Attends attnRef := by
  intro q k v mask bias scale cap causal b h sq sk d dv hq hk hv _ _ _ _
  unfold attnRef
  rw [hq, hk, hv]
  refine ⟨_, rfl, rfl, ?_⟩
  intro excl score n hh i e hr _
  exact Tensor.get_ofFn hr

/-- Queries, keys and values of rank 3 with two heads of size 1. -/
noncomputable def attnSample : AttnArgs where
  q := ⟨[1, 1, 2], [1, 2], rfl⟩
  k := ⟨[1, 1, 2], [3, 4], rfl⟩
  v := ⟨[1, 1, 2], [5, 6], rfl⟩
  mask := some (.bool ⟨[1, 2], [true, false], rfl⟩)
  past := some (⟨[1, 2, 1, 1], [7, 8], rfl⟩, ⟨[1, 2, 1, 1], [9, 10], rfl⟩)
  outs := 3

theorem attnSample_cached : ∃ k' v', Cached attnSample.past (splitHeads 2 1 attnSample.k) (splitHeads 2 1 attnSample.v) k' v' ∧
    k'.shape = [1, 2, 2, 1] ∧ v'.shape = [1, 2, 2, 1] := by
  have hc : Onnx.Concat 2 [[1, 2, 1, 1], [1, 2, 1, 1]] [1, 2, 2, 1] := concat_pair (by decide) rfl rfl (by decide) rfl
  have mk : ∀ a b : Tensor ℝ, a.shape = [1, 2, 1, 1] → b.shape = [1, 2, 1, 1] → ∃ z, ConcatT 2 [a, b] z ∧ z.shape = [1, 2, 2, 1] := by
    intro a b ha hb
    have hz : ∃ z, Burn.cat [a, b] 2 = some z ∧ z.shape = [1, 2, 2, 1] := by
      refine ⟨Tensor.ofFn [1, 2, 2, 1] fun i => if i.getD 2 0 < a.shape.getD 2 0 then a.get i else b.get (i.set 2 (i.getD 2 0 - a.shape.getD 2 0)), ?_, rfl⟩
      simp [Burn.cat, Burn.cat2, ha, hb]
    obtain ⟨z, h1, h2⟩ := hz
    exact ⟨z, cat_spec (by simp) (show Onnx.Concat 2 ([a, b].map (·.shape)) [1, 2, 2, 1] by simpa [ha, hb] using hc) h1, h2⟩
  obtain ⟨k', h1, h2⟩ := mk _ (splitHeads 2 1 attnSample.k) (show (⟨[1, 2, 1, 1], [7, 8], rfl⟩ : Tensor ℝ).shape = _ from rfl) rfl
  obtain ⟨v', h3, h4⟩ := mk _ (splitHeads 2 1 attnSample.v) (show (⟨[1, 2, 1, 1], [9, 10], rfl⟩ : Tensor ℝ).shape = _ from rfl) rfl
  exact ⟨k', v', ⟨h1, h3⟩, h2, h4⟩

theorem attnSample_inputs (a : AttnAttrs) (hq : a.qHeads = some 2) (hk : a.kvHeads = some 2) (x : AttnArgs) (h1 : x.q = attnSample.q)
    (h2 : x.k = attnSample.k) (h3 : x.v = attnSample.v) :
    AttnInputs a x (splitHeads 2 1 attnSample.q) (splitHeads 2 1 attnSample.k) (splitHeads 2 1 attnSample.v) := by
  rw [← h1, ← h2, ← h3]
  exact .three (b := 1) (sq := 1) (sk := 1) hq hk (by decide) (by decide) (by decide) (by decide) (by rw [h1]; rfl) (by rw [h2]; rfl) (by rw [h3]; rfl)

theorem attnSample_fits : MaskFits attnSample.mask [1, 2, 1, 2] := by
  intro m hm
  obtain rfl := (Option.some.inj hm).symm
  decide

/-- Burn's function, with a cache and a mask. -/
example : ∃ o, genAttention attnRef { qHeads := some 2, kvHeads := some 2 } attnSample = some o ∧ o.y.shape = [1, 1, 2] ∧ o.present.isSome := by
  obtain ⟨k', v', hc, hk, hv⟩ := attnSample_cached
  obtain ⟨y, h1, h2⟩ := C72_attention_partial attnRef attnRef_attends { qHeads := some 2, kvHeads := some 2 } attnSample
    (attnSample_inputs _ rfl rfl _ rfl rfl rfl) hc (show _ = [1, 2, 1, 1] from rfl) hk hv rfl (by decide) rfl attnSample_fits
    (fun m hm => by obtain rfl := (Option.some.inj hm).symm; exact .inl rfl) (by simp) (by simp)
  refine ⟨_, h2, ?_, rfl⟩
  show (joinHeads y).shape = _
  have := h1.shape
  rw [hv] at this
  simp only [joinHeads, Tensor.ofFn, this]
  rfl

/-- The custom code, with the scores after capping as the fourth output. -/
example (f : Burn.Attn) : ∃ o, genAttention f { qHeads := some 2, kvHeads := some 2, mode := 2, softcap := 3 } { attnSample with outs := 4 } = some o ∧
    o.qk.isSome := by
  obtain ⟨k', v', hc, hk, hv⟩ := attnSample_cached
  exact ⟨_, C72_scores_partial f { qHeads := some 2, kvHeads := some 2, mode := 2, softcap := 3 } { attnSample with outs := 4 }
    (attnSample_inputs _ rfl rfl _ rfl rfl rfl) hc (show _ = [1, 2, 1, 1] from rfl) hk hv rfl (by decide) rfl rfl (by simp) attnSample_fits
    (fun t ht => by obtain rfl := AttnMask.bool.inj (Option.some.inj ht); rfl) (by simp) (by simp), rfl⟩

/-! ### Masks -/

/-- C72: with `is_causal` the mask has no effect, whatever Burn's function does, with and without scores as an output. -/
theorem C72_mask_ignored (f : Burn.Attn) (a : AttnAttrs) (x : AttnArgs) (hc : a.causal = true) (m m' : Option AttnMask) :
    genAttention f a { x with mask := m } = genAttention f a { x with mask := m' } := by
  have h1 : attnMaskBias a { x with mask := m } = attnMaskBias a { x with mask := m' } := by simp [attnMaskBias, hc]
  have h2 : ∀ s, attnAddMask a m s = attnAddMask a m' s := by intro s; simp [attnAddMask, hc]
  have h3 : attnBurn f a { x with mask := m } = attnBurn f a { x with mask := m' } := by
    unfold attnBurn
    rw [h1]
    rfl
  have h4 : attnCustom a { x with mask := m } = attnCustom a { x with mask := m' } := by
    unfold attnCustom
    simp only [h2]
    rfl
  unfold genAttention
  rw [h3, h4]
  rfl

/-- Two queries and two keys, all 0. -/
noncomputable def zeroQk : Tensor ℝ := ⟨[1, 1, 2, 1], [0, 0], rfl⟩
/-- The values 0 and 1. -/
noncomputable def zeroOne : Tensor ℝ := ⟨[1, 1, 2, 1], [0, 1], rfl⟩
/-- The second query may not see the first key. -/
def secondOnly : Tensor Bool := ⟨[2, 2], [true, true, false, true], rfl⟩

theorem score_zero : Score.exp ((0 : ℝ) : Score) = 1 := Real.exp_zero
theorem score_bot : Score.exp ⊥ = 0 := rfl

/-- ONNX's results with and without such a mask differ. -/
theorem C72_mask_matters : (attention none (some (.bool secondOnly)) true 0 zeroQk zeroQk zeroOne).get [0, 0, 1, 0] = 1 ∧
    (attention none none true 0 zeroQk zeroQk zeroOne).get [0, 0, 1, 0] = 1 / 2 := by
  have hr : InRange [1, 1, 2, 1] [0, 0, 1, 0] := by simp [InRange]
  have q1 : zeroQk.get [0, 0, 1, 0] = 0 := rfl
  have v0 : zeroOne.get [0, 0, 0, 0] = 0 := rfl
  have v1 : zeroOne.get [0, 0, 1, 0] = 1 := rfl
  have b0 : attnBias (some (.bool secondOnly)) true [0, 0, 1, 0] = ⊥ := by
    simp [attnBias, show secondOnly.get (proj secondOnly.shape [0, 0, 1, 0]) = false by decide]
  have b1 : attnBias (some (.bool secondOnly)) true [0, 0, 1, 1] = ((0 : ℝ) : Score) := by
    simp [attnBias, show secondOnly.get (proj secondOnly.shape [0, 0, 1, 1]) = true by decide]
  have c0 : attnBias none true [0, 0, 1, 0] = ((0 : ℝ) : Score) := by simp [attnBias]
  have c1 : attnBias none true [0, 0, 1, 1] = ((0 : ℝ) : Score) := by simp [attnBias]
  constructor
  · rw [attention_get (b := 1) (h := 1) (sq := 2) (sk := 2) (d := 1) (dv := 1) rfl rfl rfl hr]
    simp only [Finset.sum_range_succ, Finset.sum_range_zero, b0, b1, q1, v0, v1, if_true, id, zero_mul, zero_add, mul_zero, ← WithBot.coe_add, add_zero,
      WithBot.add_bot, score_zero, score_bot]
    norm_num
  · rw [attention_get (b := 1) (h := 1) (sq := 2) (sk := 2) (d := 1) (dv := 1) rfl rfl rfl hr]
    simp only [Finset.sum_range_succ, Finset.sum_range_zero, c0, c1, q1, v0, v1, if_true, id, zero_mul, zero_add, mul_zero, ← WithBot.coe_add, add_zero,
      score_zero]
    norm_num

/-- Two batches of two heads with one query each, and two keys. -/
noncomputable def headsArgs : AttnArgs where
  q := ⟨[2, 2, 1, 1], [0, 0, 0, 0], rfl⟩
  k := ⟨[2, 2, 2, 1], [0, 0, 0, 0, 0, 0, 0, 0], rfl⟩
  v := ⟨[2, 2, 2, 1], [0, 1, 0, 1, 0, 1, 0, 1], rfl⟩
  mask := some (.bool ⟨[2, 1, 2], [true, false, false, true], rfl⟩)

/-- C72: the first dimension of a mask of rank 3 belongs to the heads; the generated code takes it for the batch. Head 1 may see key 1 only, whose
value is 1; in batch 0 the result is the value of key 0. -/
theorem C72_rank3_mask_wrong (f : Burn.Attn) (hf : Burn.Attends f) : MaskFits headsArgs.mask [2, 2, 1, 2] ∧
    (attention none headsArgs.mask false 0 headsArgs.q headsArgs.k headsArgs.v).get [0, 1, 0, 0] = 1 ∧
    ∃ o, genAttention f {} headsArgs = some o ∧ o.y.get [0, 1, 0, 0] = 0 := by
  have hr : InRange [2, 2, 1, 1] [0, 1, 0, 0] := by simp [InRange]
  have q1 : headsArgs.q.get [0, 1, 0, 0] = 0 := rfl
  have v0 : headsArgs.v.get [0, 1, 0, 0] = 0 := rfl
  have v1 : headsArgs.v.get [0, 1, 1, 0] = 1 := rfl
  refine ⟨fun m hm => by obtain rfl := (Option.some.inj hm).symm; decide, ?_, ?_⟩
  · have b0 : attnBias headsArgs.mask false [0, 1, 0, 0] = ⊥ := by
      simp [attnBias, headsArgs, show (⟨[2, 1, 2], [true, false, false, true], rfl⟩ : Tensor Bool).get (proj [2, 1, 2] [0, 1, 0, 0]) = false by decide]
    have b1 : attnBias headsArgs.mask false [0, 1, 0, 1] = ((0 : ℝ) : Score) := by
      simp [attnBias, headsArgs, show (⟨[2, 1, 2], [true, false, false, true], rfl⟩ : Tensor Bool).get (proj [2, 1, 2] [0, 1, 0, 1]) = true by decide]
    rw [attention_get (b := 2) (h := 2) (sq := 1) (sk := 2) (d := 1) (dv := 1) rfl rfl rfl hr]
    simp only [Finset.sum_range_succ, Finset.sum_range_zero, b0, b1, q1, v0, v1, if_true, id, zero_mul, zero_add, mul_zero, ← WithBot.coe_add, add_zero,
      WithBot.add_bot, score_zero, score_bot]
    norm_num
  · let m : Tensor Bool := ⟨[2, 1, 1, 2], [false, true, true, false], rfl⟩
    have hm : attnMaskBias {} headsArgs = some (some m, none) := by
      have e : attnRank4 ((⟨[2, 1, 2], [true, false, false, true], rfl⟩ : Tensor Bool).map (!·)) = some m := by decide
      simp only [attnMaskBias, headsArgs, Bool.false_eq_true, if_false, e, Option.map_some]
    obtain ⟨y, hy, hys, hyv⟩ := hf headsArgs.q headsArgs.k headsArgs.v (some m) none none none false 2 2 1 2 1 1 rfl rfl rfl
      (fun m' h => by obtain rfl := (Option.some.inj h).symm; exact ⟨rfl, by decide⟩) (by simp) (.inl rfl) (by simp)
    have m0 : m.get (proj m.shape [0, 1, 0, 0]) = false := by decide
    have m1 : m.get (proj m.shape [0, 1, 0, 1]) = true := by decide
    refine ⟨{ y := y }, ?_, ?_⟩
    · have hacc : attnAccepts {} headsArgs = true := by simp [attnAccepts, headsArgs]
      have hb : attnBurn f {} headsArgs = some { y := y } := by
        unfold attnBurn
        rw [show attnHeads {} headsArgs = some (headsArgs.q, headsArgs.k, headsArgs.v) from rfl]
        simp only [Option.bind_some, hm]
        rw [show attnCache headsArgs.past headsArgs.k headsArgs.v = some (headsArgs.k, headsArgs.v) from rfl]
        simp only [Option.bind_some, ne_eq, not_true_eq_false, if_false, hy]
        rfl
      unfold genAttention
      rw [hacc, hb]
      simp [headsArgs]
    · show y.get [0, 1, 0, 0] = 0
      rw [hyv 0 1 0 0 hr ⟨0, by decide, by simp [m0]⟩]
      simp only [Finset.sum_range_succ, Finset.sum_range_zero, Option.elim, m0, m1, q1, v0, v1, if_true, id, zero_mul, zero_add, mul_zero, add_zero,
        Bool.false_eq_true, false_and, if_false, WithBot.add_bot, WithBot.bot_add, score_bot, zero_div]

/-! ### Scores as an output -/

/-- C72: the scores after capping cannot be returned when there is no cap. -/
theorem C72_uncapped_scores_fail (f : Burn.Attn) (a : AttnAttrs) (x : AttnArgs) (hout : 4 ≤ x.outs) (hm : a.mode = 2) (hc : a.softcap = 0) :
    genAttention f a x = none := by
  have h : attnCustom a x = none := by
    unfold attnCustom attnQkOut
    simp [hm, hc]
  unfold genAttention
  rw [h, if_neg (show ¬ x.outs ≤ 3 by omega)]
  simp

/-- C72: with scores as an output a Boolean mask must be a matrix. -/
theorem C72_bool_mask_fails (f : Burn.Attn) (a : AttnAttrs) (x : AttnArgs) (hout : 4 ≤ x.outs) (hc : a.causal = false) {t : Tensor Bool}
    (ht : x.mask = some (.bool t)) (hr : t.shape.length ≠ 2) : genAttention f a x = none := by
  have h : attnCustom a x = none := by
    unfold attnCustom attnAddMask
    have h1 : ∀ r c, t.shape ≠ [r, c] := fun r c e => hr (by rw [e]; rfl)
    simp [ht, hc, h1]
  unfold genAttention
  rw [h, if_neg (show ¬ x.outs ≤ 3 by omega)]
  simp

/-- C72: the scores are refused without a cache. -/
theorem C72_scores_without_cache_refused (f : Burn.Attn) (a : AttnAttrs) (x : AttnArgs) (hout : 3 ≤ x.outs) (hp : x.past = none) :
    genAttention f a x = none := by
  have h : attnAccepts a x = false := by simp [attnAccepts, hp, hout]
  unfold genAttention
  rw [if_pos h]

/-- C72: so is a precision for softmax. -/
theorem C72_precision_refused (f : Burn.Attn) (a : AttnAttrs) (x : AttnArgs) (h : a.precision.isSome) : genAttention f a x = none := by
  unfold genAttention
  simp [h]

/-- C72: with scores as an output the keys must have as many heads as the queries, or one; heads shared by groups of queries panic. -/
theorem C72_grouped_heads_panic (f : Burn.Attn) (a : AttnAttrs) (x : AttnArgs) {b h sq d b' h' s d' : Nat} (hout : 4 ≤ x.outs)
    (hq : x.q.shape = [b, h, sq, d]) (hk : x.k.shape = [b', h', s, d']) (hne : h ≠ h') (h1 : h ≠ 1) (h2 : h' ≠ 1) : genAttention f a x = none := by
  have hcust : attnCustom a x = none := by
    unfold attnCustom
    rw [show attnHeads a x = some (x.q, x.k, x.v) by unfold attnHeads; rw [hq]]
    simp only [Option.bind_some]
    cases hc : attnCache x.past x.k x.v with
    | none => rfl
    | some kv =>
      obtain ⟨k', v'⟩ := kv
      have hk' : ∃ b2 s2 d2, k'.shape = [b2, h', s2, d2] := by
        unfold attnCache at hc
        match hp : x.past, hc with
        | none, hc =>
          simp only [Option.some.injEq, Prod.mk.injEq] at hc
          exact ⟨b', s, d', hc.1 ▸ hk⟩
        | some (pk, pv), hc =>
          obtain ⟨k2, hk2, hc⟩ := Option.bind_eq_some_iff.1 hc
          obtain ⟨v2, _, hc⟩ := Option.map_eq_some_iff.1 hc
          simp only [Prod.mk.injEq] at hc
          obtain rfl := hc.1
          simp only [Burn.cat, hk, List.length_cons, List.length_nil, Nat.reduceAdd, Nat.reduceLT, if_true, Option.bind_some, Burn.cat2] at hk2
          split at hk2
          · rename_i hh
            obtain rfl := (Option.some.inj hk2).symm
            match hs : pk.shape, hh.2 with
            | [p0, p1, p2, p3], e =>
              simp at e
              exact ⟨p0, p2 + s, p3, by simp [Tensor.ofFn, e]⟩
            | [], e | [_], e | [_, _], e | [_, _, _], e | _ :: _ :: _ :: _ :: _ :: _, e => simp at e
          · cases hk2
      obtain ⟨b2, s2, d2, hk'⟩ := hk'
      have hmm : ∀ r : ℝ, Burn.matmul dotR (x.q.map (· * r)) (Burn.permute (k'.map (· * r)) [0, 1, 3, 2]) = none := by
        intro r
        rw [permute_0132 (show (k'.map (· * r)).shape = [b2, h', s2, d2] from hk')]
        have e1 : (x.q.map (· * r)).shape = [b, h, sq, d] := hq
        unfold Burn.matmul
        rw [e1]
        simp [Tensor.ofFn, bcast, bcastRev, hne, h1, h2]
      simp only [Option.bind_some, hmm, Option.bind_none]
  unfold genAttention
  rw [hcust, if_neg (show ¬ x.outs ≤ 3 by omega)]
  simp

end OnnxIR
