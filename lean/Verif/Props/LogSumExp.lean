import Verif.Props.Reduce
import Verif.Props.Elementwise
import Mathlib.Analysis.SpecialFunctions.Log.Basic

/-!
# C32: ReduceLogSumExp, and reductions at the inferred type
-/

namespace OnnxIR

open Gen

section

variable {α : Type} [Inhabited α]

theorem reduceT_shape {red : List α → α} {as : List Int} {keep : Bool} {X Z : Tensor α}
    (h : Onnx.reduceT red as keep X = some Z) : Onnx.reduce as keep X.shape = some Z.shape := by
  unfold Onnx.reduceT at h
  obtain ⟨is, h1, h2⟩ := Option.map_eq_some_iff.1 h
  unfold Onnx.reduce
  rw [h1, Option.map_some, ← h2]
  cases keep <;> rfl

theorem inferred_fits {as : List Int} {keep : Bool} {t : TensorType} {outTy : ArgType} {X Z : Tensor α}
    {red : List α → α} (hx : (ArgType.tensor t).Admits X.shape) (hr : 1 ≤ t.rank)
    (ht : Infer.reduce as keep (.tensor t) = some outTy) (hZ : Onnx.reduceT red as keep X = some Z)
    (hall : as = [] ∨ keep = true ∨ as.length < t.rank) : OutFits outTy Z := by
  have hs := reduceT_shape hZ
  by_cases has : as = []
  · subst has
    cases keep with
    | false =>
      obtain ⟨h1, h2⟩ := C32_reduce_all_drop_type hx ht
      rw [h1] at hs
      have h0 : Z.shape = [] := (Option.some.inj hs).symm
      have hd : Infer.reduceDims t.rank [] = some [] := by simp [Infer.reduceDims, Infer.normAxes, Infer.sortNat]
      simp [Infer.reduce, hd] at ht
      subst ht
      exact h0
    | true =>
      have hd : Infer.reduceDims t.rank [] = some [] := by simp [Infer.reduceDims, Infer.normAxes, Infer.sortNat]
      have hl : Z.shape.length = t.rank := by
        simp only [Onnx.reduce, if_true, Option.map_some, Option.some.injEq] at hs
        rw [← hs, ← hx.1]; simp
      have : ∃ p, outTy = .tensor ⟨t.dtype, t.rank, p⟩ := by
        simp only [Infer.reduce, hd] at ht
        rw [if_neg (by simp), if_neg (by simp)] at ht
        split at ht
        · exact ⟨_, (Option.some.inj ht).symm⟩
        · split at ht
          · exact ⟨_, (Option.some.inj ht).symm⟩
          · simp only [if_true, Infer.setOnes, Option.map_some, Option.some.injEq] at ht
            exact ⟨_, ht.symm⟩
      obtain ⟨p, rfl⟩ := this
      exact ⟨hl, hr⟩
  · have had := C32_reduce_axes_type hx ht has hs
    unfold Onnx.reduce at hs
    rw [if_neg has] at hs
    obtain ⟨is, his, hZs⟩ := Option.map_eq_some_iff.1 hs
    rw [hx.1] at his
    simp only [Infer.reduce] at ht
    split at ht
    · cases ht
    · rename_i dims hdims
      obtain ⟨hperm, _⟩ := reduceDims_spec his hdims
      have hal : as.length = is.length := by
        clear hdims hperm hZs hs ht hall has hZ had
        induction as generalizing is with
        | nil => simp [Onnx.axes] at his; simp [his]
        | cons a as ih =>
          simp only [Onnx.axes] at his
          split at his
          · split at his
            · cases his
            · rename_i i js h1 h2 h3
              cases his
              simp [ih js h2]
          · cases his
      have hdl : dims.length = as.length := by rw [hperm.length_eq, hal]
      have hne : dims ≠ [] := by
        intro h; rw [h] at hdl; exact has (List.eq_nil_of_length_eq_zero hdl.symm)
      have hk : keep = true ∨ dims.length < t.rank := by
        rcases hall with h | h | h
        · exact absurd h has
        · exact .inl h
        · exact .inr (by omega)
      rw [if_neg (by
        rcases hk with h | h
        · simp [h]
        · have : dims.isEmpty = false := by cases dims with
            | nil => exact absurd rfl hne
            | cons => rfl
          simp [this]; intro _; omega)] at ht
      split at ht
      · cases ht
      · have hrank : ∃ p, outTy = .tensor ⟨t.dtype, if keep then t.rank else t.rank - dims.length, p⟩ := by
          split at ht
          · exact ⟨_, (Option.some.inj ht).symm⟩
          · split at ht
            · exact ⟨_, (Option.some.inj ht).symm⟩
            · split at ht
              · rename_i hkk
                obtain ⟨q, _, hq⟩ := Option.map_eq_some_iff.1 ht
                exact ⟨some q, by rw [← hq, if_pos hkk]⟩
              · rename_i hkk
                obtain ⟨q, _, hq⟩ := Option.map_eq_some_iff.1 ht
                exact ⟨some q, by rw [← hq, if_neg hkk]⟩
        obtain ⟨p, rfl⟩ := hrank
        refine ⟨had.1, ?_⟩
        show 1 ≤ if keep then t.rank else t.rank - dims.length
        rcases hk with h | h
        · rw [if_pos h]; exact hr
        · split <;> omega

/-- **C32, from inference to value.** Whatever type inference announces for a reduction with constant axes, the generated
code returns ONNX's result at that type; excluded is only the dropping of axes that are all listed. -/
theorem C32_reduce_node_partial {red : List α → α} {e : Bool} (hr : Reduction red e) {pre post : α → α} {ofInt : Int → α}
    {as : List Int} {dims : List Nat} {keep : Bool} {t : TensorType} {outTy : ArgType} {X Z : Tensor α}
    (hx : (ArgType.tensor t).Admits X.shape) (hrank : 1 ≤ t.rank) (ht : Infer.reduce as keep (.tensor t) = some outTy)
    (hd : Infer.reduceDims t.rank as = some dims) (hZ : Onnx.reduceT red as keep (X.map pre) = some Z)
    (he : e = true ∨ ∀ k ∈ dims, 0 < X.shape.getD k 0) (hall : as = [] ∨ keep = true ∨ as.length < t.rank) :
    ∃ z, genReduce red pre post dims keep outTy X = some z ∧ Reps ofInt outTy z (Z.map post) := by
  have hfit := inferred_fits (X := X.map pre) hx hrank ht hZ hall
  have hl := hx.1
  refine C32_reduce_values_partial hr (by rw [hl]; exact hd) hZ he (by omega) hfit ?_
  rcases hall with h | h
  · left
    subst h
    have h0 : Infer.reduceDims t.rank [] = some [] := by simp [Infer.reduceDims, Infer.normAxes, Infer.sortNat]
    rw [h0] at hd
    exact (Option.some.inj hd).symm
  · by_cases hne : dims = []
    · exact .inl hne
    · right
      rintro d rfl
      have hZ0 : Z.shape = [] := hfit
      have hs := reduceT_shape hZ
      simp only [Infer.reduce, hd] at ht
      by_cases hc : (!keep && (dims.isEmpty || dims.length == t.rank)) = true
      · have hdl : dims.length = t.rank := by
          have : dims.isEmpty = false := by cases dims with
            | nil => exact absurd rfl hne
            | cons => rfl
          simp [this] at hc
          exact hc.2
        rcases h with h | h
        · simp [h] at hc
        · have : dims.length = as.length := by
            unfold Infer.reduceDims at hd
            obtain ⟨l, hl1, rfl⟩ := Option.map_eq_some_iff.1 hd
            rw [(sortNat_perm l).length_eq]
            have : ∀ (m : List Int) (l : List Nat), (m.mapM fun a => if a < 0 then none else some a.toNat) = some l → l.length = m.length := by
              intro m
              induction m with
              | nil => intro l h; cases h; rfl
              | cons a m ih =>
                intro l h
                simp only [List.mapM_cons, bind, Option.bind_eq_some_iff, pure, Option.some.injEq] at h
                obtain ⟨b, _, bs, hbs, rfl⟩ := h
                simp [ih bs hbs]
            rw [this _ _ hl1]
            simp [Infer.normAxes]
          omega
      · rw [if_neg hc] at ht
        split at ht
        · cases ht
        · split at ht
          · cases ht
          · split at ht
            · cases ht
            · split at ht
              · obtain ⟨q, _, hq⟩ := Option.map_eq_some_iff.1 ht; cases hq
              · obtain ⟨q, _, hq⟩ := Option.map_eq_some_iff.1 ht; cases hq

end

/-- Sums over the last axis of a matrix, dropped. -/
example : ∃ z, genReduce (fun l : List Int => l.foldr (· + ·) 0) id id [1] false (.tensor ⟨.i64, 1, none⟩)
    ⟨[2, 3], [1, 2, 3, 4, 5, 6], rfl⟩ = some z ∧
    Reps id (.tensor ⟨.i64, 1, none⟩) z ((⟨[2], [6, 15], rfl⟩ : Tensor Int).map id) :=
  C32_reduce_node_partial .sumInt (as := [-1]) (t := ⟨.i64, 2, none⟩) ⟨rfl, by simp⟩ (by decide)
    (by decide +kernel) (by decide +kernel) (by decide +kernel) (.inl rfl) (.inr (.inr (by decide)))

/-! ### Booleans -/

/-- **C32, ReduceMin and ReduceMax of booleans.** The generated code returns ONNX's result for all axes, all shapes and both
settings of `keepdims`, including the case excluded for numbers. -/
theorem C32_reduce_bool {red : List Bool → Bool} {e : Bool} (hr : Reduction red e) {ofInt : Int → Bool}
    {as : List Int} {dims : List Nat} {keep : Bool} {outTy : ArgType} {X Z : Tensor Bool}
    (hd : Infer.reduceDims X.shape.length as = some dims) (hZ : Onnx.reduceT red as keep X = some Z)
    (he : e = true ∨ ∀ k ∈ dims, 0 < X.shape.getD k 0) (hrank : 1 ≤ X.shape.length) (hfit : OutFits outTy Z) :
    ∃ z, genReduceBool red dims keep outTy X = some z ∧ Reps ofInt outTy z Z := by
  have idm : ∀ t : Tensor Bool, t.map id = t := fun t => Tensor.ext rfl (by show t.data.map id = t.data; simp)
  by_cases hall : dims = [] ∨ ∀ d, outTy ≠ .scalarTensor d
  · have h := C32_reduce_values_partial hr (pre := id) (post := id) (ofInt := ofInt) hd (by rw [idm]; exact hZ) he hrank hfit hall
    rw [idm] at h
    obtain ⟨z, hz, hz'⟩ := h
    refine ⟨z, ?_, hz'⟩
    simp only [genReduce, idm] at hz
    unfold genReduceBool
    cases outTy with
    | shape n => exact hfit.elim
    | tensor t =>
      have hr1 := hfit.2
      simp only [reduceOutRank, Option.bind_some, forwardReduce, reduceByDims, reduceHand] at hz ⊢
      by_cases h0 : dims = []
      · subst h0
        cases keep with
        | true => simpa using hz
        | false =>
          -- the result would have rank zero
          exfalso
          unfold Onnx.reduceT at hZ
          by_cases has : as = []
          · subst has
            rw [if_pos rfl, Option.map_some, if_neg (by simp), Option.some.injEq, reduceAll_drop] at hZ
            have h1 := hfit.1
            rw [← hZ] at h1
            have h1 : 0 = t.rank := h1
            omega
          · rw [if_neg has] at hZ
            obtain ⟨is, his, _⟩ := Option.map_eq_some_iff.1 hZ
            obtain ⟨hp, _⟩ := reduceDims_spec his hd
            have : is = [] := hp.symm.eq_nil
            subst this
            cases as with
            | nil => exact has rfl
            | cons a as =>
              simp only [Onnx.axes] at his
              split at his
              · split at his <;> cases his
              · cases his
      · simp only [if_neg h0] at hz ⊢
        cases hf : reduceFold red dims X with
        | none => rw [hf] at hz; cases hz
        | some u =>
          rw [hf] at hz
          simpa using hz
    | scalarNative d =>
      simp only [reduceOutRank, Option.bind_some, forwardReduce, reduceByDims, reduceHand] at hz ⊢
      by_cases h0 : dims = []
      · subst h0
        cases keep <;> simpa using hz
      · simp only [if_neg h0] at hz ⊢
        cases hf : reduceFold red dims X with
        | none => rw [hf] at hz; cases hz
        | some u =>
          rw [hf] at hz
          cases keep <;> simpa using hz
    | scalarTensor d =>
      have h0 : dims = [] := hall.resolve_right fun h => h d rfl
      subst h0
      simp only [reduceOutRank, Option.bind_some, forwardReduce, reduceHand, if_true] at hz ⊢
      cases keep with
      | false => simpa [Option.map_eq_bind] using hz
      | true =>
        exfalso
        have hs := reduceT_shape hZ
        unfold Onnx.reduce at hs
        obtain ⟨is, _, h1⟩ := Option.map_eq_some_iff.1 hs
        have h2 : Z.shape = [] := hfit
        rw [h2] at h1
        have := congrArg List.length h1
        simp at this
        rw [this] at hrank
        simp at hrank
  · have h0 : dims ≠ [] := fun h => hall (.inl h)
    obtain ⟨d, rfl⟩ : ∃ d, outTy = .scalarTensor d := by
      cases outTy <;> first | exact ⟨_, rfl⟩ | exact absurd (.inr fun d h => by cases h) hall
    have hZ0 : Z.shape = [] := hfit
    have hk : keep = false := by
      cases keep with
      | false => rfl
      | true =>
        exfalso
        have hs := reduceT_shape hZ
        unfold Onnx.reduce at hs
        obtain ⟨is, _, h1⟩ := Option.map_eq_some_iff.1 hs
        rw [hZ0] at h1
        have := congrArg List.length h1
        simp at this
        rw [this] at hrank
        simp at hrank
    subst hk
    have has : as ≠ [] := by
      rintro rfl
      have h1 : Infer.reduceDims X.shape.length [] = some [] := by simp [Infer.reduceDims, Infer.normAxes, Infer.sortNat]
      rw [h1] at hd
      exact h0 (Option.some.inj hd).symm
    unfold Onnx.reduceT at hZ
    rw [if_neg has] at hZ
    obtain ⟨is, his, hZ'⟩ := Option.map_eq_some_iff.1 hZ
    rw [if_neg (by simp)] at hZ'
    obtain ⟨hp, _⟩ := reduceDims_spec his hd
    have hax := axes_nodup his
    obtain ⟨u, hu1, hu2⟩ := reduceFold_ok hr (hp.nodup_iff.2 hax.1) (fun k hk => hax.2 k (hp.mem_iff.1 hk)) he
    have hu3 := hu2.congr fun k => hp.mem_iff
    have hprod : prodShape (Onnx.dropAt is X.shape) = prodShape u.shape := by
      rw [hu3.shape, onesAt_put]; exact put_prod is _ 0
    obtain ⟨v, hv⟩ : ∃ v, Burn.reshape u (Onnx.dropAt is X.shape) = some v := ⟨_, dif_pos hprod⟩
    have hvZ : v = Z := by rw [← hZ']; exact hu3.drop hv
    have hdrop : Onnx.dropAt is X.shape = [] := by
      rw [← hZ0, ← hZ']; rfl
    have hud : u.data = v.data := by
      unfold Burn.reshape at hv
      rw [dif_pos hprod] at hv
      cases hv; rfl
    have h1 : prodShape [1] = prodShape u.shape := by rw [← hprod, hdrop]; rfl
    refine ⟨.dev ⟨[1], u.data, by rw [u.size, h1]⟩, ?_, rfl, hfit, by rw [← hvZ]; exact hud⟩
    simp only [genReduceBool, reduceOutRank, Option.bind_some, if_neg h0, hu1, Burn.reshape, dif_pos h1]
    rfl

theorem Reduction.all : Reduction (fun l : List Bool => l.foldr (· && ·) true) true :=
  .monoid Bool.and_assoc Bool.and_comm (by simp)

theorem Reduction.any : Reduction (fun l : List Bool => l.foldr (· || ·) false) true :=
  .monoid Bool.or_assoc Bool.or_comm (by simp)

/-- A matrix whose two axes are both listed, on which the numeric code panics. -/
example : ∃ z, genReduceBool (fun l => l.foldr (· || ·) false) [0, 1] false (.scalarTensor .bool)
    ⟨[2, 2], [false, true, false, false], rfl⟩ = some z ∧
    Reps (fun _ => false) (.scalarTensor .bool) z ⟨[], [true], rfl⟩ :=
  C32_reduce_bool .any (as := [0, 1]) (by decide +kernel) (by decide +kernel) (.inl rfl) (by decide) rfl

/-! ### ReduceLogSumExp -/

section

variable {α : Type} [Inhabited α]

/-- With `keepdims`, `forward_reduce` reduces the listed axes, or all of them if none are listed. -/
theorem forwardReduce_keep {red : List α → α} {e : Bool} (hr : Reduction red e) {x : Tensor α} {dims : List Nat}
    (hn : dims.Nodup) (hd : ∀ k ∈ dims, k < x.shape.length) (he : e = true ∨ ∀ k ∈ dims, 0 < x.shape.getD k 0)
    (hrank : 1 ≤ x.shape.length) :
    ∃ u, forwardReduce red dims true x.shape.length x = some u ∧
      Reduced red x (if dims = [] then List.range x.shape.length else dims) u := by
  by_cases h0 : dims = []
  · subst h0
    refine ⟨⟨List.replicate x.shape.length 1, [red x.data], by simp [prodShape_replicate_one]⟩, ?_, ?_⟩
    · simp only [forwardReduce, if_true, Burn.reduceAll]
      exact expand_ones hrank
    · rw [if_pos rfl, ← reduceAll_keep]
      exact ⟨rfl, fun i hi => Tensor.get_ofFn hi⟩
  · obtain ⟨u, h1, h2⟩ := reduceFold_ok hr hn hd he
    refine ⟨u, ?_, by rw [if_neg h0]; exact h2⟩
    simp only [forwardReduce, if_neg h0, reduceByDims, h1, Option.bind_some, if_true]

theorem bcast_onesAt (is s : List Nat) : bcast (onesAt is s) s = some s := by
  have h := bcast_zip (p := []) (onesAt_length is s)
  rw [List.nil_append] at h
  rw [h]
  have : ∀ (s : List Nat) (k : Nat), zipDims (putFrom 1 k is s) s = some s := by
    intro s
    induction s with
    | nil => intro k; rfl
    | cons d s ih =>
      intro k
      simp only [putFrom, zipDims, ih]
      by_cases hk : k ∈ is
      · by_cases hd : d = 1
        · simp [hk, hd]
        · have : ¬ 1 = d := fun h => hd h.symm
          simp [hk, this]
      · simp [hk]
  rw [onesAt_put, this]
  simp

theorem projRev_zip : ∀ (s i : List Nat), projRev s i = List.zipWith (fun d v => if d = 1 then 0 else v) s i
  | [], _ => by simp [projRev]
  | _ :: _, [] => by simp [projRev]
  | d :: s, v :: i => by simp [projRev, projRev_zip s i]

theorem proj_onesAt {is s i : List Nat} (hi : InRange s i) : proj (onesAt is s) i = zeroAt is i := by
  unfold proj
  rw [projRev_zip, ← List.reverse_zipWith (by rw [onesAt_length, hi.length]), List.reverse_reverse, onesAt_put, zeroAt_put]
  have : ∀ (s i : List Nat) (k : Nat), InRange s i →
      List.zipWith (fun d v => if d = 1 then 0 else v) (putFrom 1 k is s) i = putFrom 0 k is i := by
    intro s
    induction s with
    | nil => intro i k h; cases i with
      | nil => rfl
      | cons a i => exact h.elim
    | cons d s ih =>
      intro i k h
      cases i with
      | nil => exact h.elim
      | cons a i =>
        simp only [putFrom, List.zipWith_cons_cons, ih i (k + 1) h.2]
        congr 1
        have := h.1
        by_cases hk : k ∈ is
        · simp [hk]
        · simp only [if_neg hk]
          split
          · omega
          · rfl
  exact this s i 0 hi

theorem zip_same_get {β : Type} [Inhabited β] {f : α → α → β} {x y : Tensor α} (h : x.shape = y.shape) :
    Burn.zip f x y = some (Tensor.ofFn x.shape fun i => f (x.get i) (y.get i)) := by
  have hb : bcast x.shape x.shape = some x.shape := by simp [bcast, bcastRev_self]
  unfold Burn.zip Tensor.zipBcast
  rw [if_pos (by rw [h]), ← h, hb, Option.map_some]
  congr 1
  refine Tensor.eq_of_get (by rfl) ?_
  intro i hi
  have hi' : InRange x.shape i := hi
  rw [Tensor.get_ofFn hi', Tensor.get_ofFn hi', proj_self hi']

end

/-- The logarithm of the sum of the exponentials. -/
noncomputable def lse (l : List ℝ) : ℝ := Real.log (l.map Real.exp).sum

theorem lse_shift (m : ℝ) (l : List ℝ) (h : l ≠ []) :
    m + Real.log (l.map fun a => Real.exp (a - m)).sum = lse l := by
  have h1 : (l.map fun a => Real.exp (a - m)).sum = Real.exp (-m) * (l.map Real.exp).sum := by
    rw [← List.sum_map_mul_left]
    congr 1
    apply List.map_congr_left
    intro a _
    rw [← Real.exp_add]; ring_nf
  have h2 : 0 < (l.map Real.exp).sum := by
    cases l with
    | nil => exact absurd rfl h
    | cons a l =>
      rw [List.map_cons, List.sum_cons]
      have : 0 ≤ (l.map Real.exp).sum := List.sum_nonneg fun x hx => by
        obtain ⟨y, _, rfl⟩ := List.mem_map.1 hx
        exact (Real.exp_pos y).le
      have := Real.exp_pos a
      linarith
  rw [h1, Real.log_mul (Real.exp_pos _).ne' h2.ne', Real.log_exp]
  unfold lse
  ring

theorem Reduction.sumReal : Reduction (List.sum : List ℝ → ℝ) true := by
  have := Reduction.monoid (α := ℝ) (op := (· + ·)) (z := 0) add_assoc add_comm add_zero
  have e : (fun l : List ℝ => l.foldr (· + ·) 0) = List.sum := by funext l; rfl
  rwa [e] at this

theorem Reduction.maxReal : Reduction (pickList (max : ℝ → ℝ → ℝ)) false :=
  Reduction.order (le := (· ≤ ·)) le_refl (fun _ _ _ => le_trans) (fun _ _ => le_antisymm)
    (fun a b => max_choice a b) le_max_left le_max_right

/-- The code generated for ReduceLogSumExp on real numbers. -/
noncomputable def genLse (dims : List Nat) (keep : Bool) (outTy : ArgType) (x : Tensor ℝ) : Option (GVal ℝ) :=
  genLogSumExp (pickList max) List.sum (· + ·) (· - ·) Real.exp Real.log dims keep outTy x

theorem reduceDims_nodup {r : Nat} {as : List Int} {dims is : List Nat} (h : Infer.reduceDims r as = some dims)
    (his : Onnx.axes r as = some is) : dims.Nodup ∧ ∀ k ∈ dims, k < r := by
  obtain ⟨hp, _⟩ := reduceDims_spec his h
  obtain ⟨h1, h2⟩ := axes_nodup his
  exact ⟨hp.nodup_iff.2 h1, fun k hk => h2 k (hp.mem_iff.1 hk)⟩

/-- **C32, ReduceLogSumExp.** With `keepdims`, or over all axes by default, the generated code returns the logarithm of the
sum of the exponentials, over the real numbers and without empty dimensions. Missing: the dropping of listed axes, which
is wrong (`C32_logsumexp_drop_panics`, `C32_logsumexp_drop_wrong`). -/
theorem C32_logsumexp_partial {ofInt : Int → ℝ} {as : List Int} {dims : List Nat} {keep : Bool} {outTy : ArgType}
    {X Z : Tensor ℝ} (hd : Infer.reduceDims X.shape.length as = some dims) (hZ : Onnx.reduceT lse as keep X = some Z)
    (hpos : ∀ d ∈ X.shape, 0 < d) (hrank : 1 ≤ X.shape.length) (hfit : OutFits outTy Z)
    (hk : keep = true ∨ as = []) : ∃ z, genLse dims keep outTy X = some z ∧ Reps ofInt outTy z Z := by
  obtain ⟨r, hro⟩ : ∃ r, reduceOutRank outTy = some r := by
    cases outTy <;> first | exact hfit.elim | exact ⟨_, rfl⟩
  have hgetD : ∀ k, k < X.shape.length → 0 < X.shape.getD k 0 := by
    intro k hk
    rw [List.getD_eq_getElem?_getD, List.getElem?_eq_getElem hk, Option.getD_some]
    exact hpos _ (List.getElem_mem hk)
  have hd0 : as = [] → dims = [] := by
    rintro rfl
    have h0 : Infer.reduceDims X.shape.length [] = some [] := by simp [Infer.reduceDims, Infer.normAxes, Infer.sortNat]
    rw [h0] at hd
    exact (Option.some.inj hd).symm
  have hand : ∀ {u : Tensor ℝ}, u.data = Z.data → (∀ t, outTy = .tensor t → u = Z) →
      (∀ d, outTy = .scalarTensor d → prodShape u.shape = 1) →
      ∃ z, reduceHand outTy u = some z ∧ Reps ofInt outTy z Z := by
    intro u h1 h2 h3
    have := handReps (ofInt := ofInt) (post := id) hfit h1 h2 h3
    have e : ∀ t : Tensor ℝ, t.map id = t := fun t => Tensor.ext rfl (by show t.data.map id = t.data; simp)
    rwa [e, e] at this
  cases keep with
  | true =>
    obtain ⟨is, his, hZ'⟩ := Option.map_eq_some_iff.1 hZ
    rw [if_pos rfl] at hZ'
    have hdims : dims.Nodup ∧ (∀ k ∈ dims, k < X.shape.length) ∧
        ∀ k, k ∈ (if dims = [] then List.range X.shape.length else dims) ↔ k ∈ is := by
      by_cases has : as = []
      · rw [if_pos has] at his
        cases his
        rw [hd0 has]
        exact ⟨List.nodup_nil, by simp, by simp⟩
      · rw [if_neg has] at his
        obtain ⟨h1, h2⟩ := reduceDims_nodup hd his
        obtain ⟨hp, _⟩ := reduceDims_spec his hd
        refine ⟨h1, h2, fun k => ?_⟩
        rw [if_neg, hp.mem_iff]
        rintro rfl
        have : is = [] := hp.symm.eq_nil
        subst this
        cases as with
        | nil => exact has rfl
        | cons a as =>
          simp only [Onnx.axes] at his
          split at his
          · split at his <;> cases his
          · cases his
    obtain ⟨hdn, hdl, hmem⟩ := hdims
    have hZl : Z.shape.length = X.shape.length := by rw [← hZ']; simp [Tensor.ofFn]
    have hr : r = X.shape.length := by
      cases outTy with
      | tensor t => have h1 := hfit.1; have : t.rank = r := Option.some.inj hro; omega
      | scalarTensor d => have h : Z.shape = [] := hfit; rw [h] at hZl; simp at hZl; omega
      | scalarNative d => have h : Z.shape = [] := hfit; rw [h] at hZl; simp at hZl; omega
      | shape n => exact hfit.elim
    subst hr
    obtain ⟨m, hm1, hm2⟩ := forwardReduce_keep .maxReal hdn hdl (.inr fun k hk => hgetD k (hdl k hk)) hrank
    generalize hIs : (if dims = [] then List.range X.shape.length else dims) = Is at hm2 hmem
    have hIn : Is.Nodup ∧ ∀ k ∈ Is, k < X.shape.length := by
      rw [← hIs]
      split
      · exact ⟨List.nodup_range, fun k hk => List.mem_range.1 hk⟩
      · exact ⟨hdn, hdl⟩
    have hme : Burn.expand m X.shape = some (Tensor.ofFn X.shape fun i => m.get (proj m.shape i)) := by
      unfold Burn.expand
      rw [if_pos (by rw [hm2.shape]; exact bcast_onesAt _ _)]
    have hdd := zip_same_get (f := fun a b : ℝ => a - b) (x := X)
      (y := Tensor.ofFn X.shape fun i => m.get (proj m.shape i)) rfl
    generalize hD : (Tensor.ofFn X.shape fun i => X.get i -
      (Tensor.ofFn X.shape fun i => m.get (proj m.shape i)).get i : Tensor ℝ) = D at hdd
    have hDs : D.shape = X.shape := by rw [← hD]; rfl
    have hDv : ∀ j, InRange X.shape j → (D.map Real.exp).get j = Real.exp (X.get j - m.get (zeroAt Is j)) := by
      intro j hj
      rw [Tensor.get_map (by rw [hDs]; exact hj), ← hD, Tensor.get_ofFn hj, Tensor.get_ofFn hj, hm2.shape, proj_onesAt hj]
    have hEs : (D.map Real.exp).shape = X.shape := hDs
    obtain ⟨s, hs1, hs2⟩ := forwardReduce_keep .sumReal (x := D.map Real.exp) hdn (by rw [hEs]; exact hdl) (.inl rfl)
      (by rw [hEs]; exact hrank)
    rw [hEs] at hs1
    rw [hEs, hIs] at hs2
    have hsh : m.shape = (s.map Real.log).shape := by
      rw [hm2.shape, show (s.map Real.log).shape = s.shape from rfl, hs2.shape, hEs]
    have hu := zip_same_get (f := fun a b : ℝ => a + b) hsh
    generalize hU : (Tensor.ofFn m.shape fun i => m.get i + (s.map Real.log).get i : Tensor ℝ) = U at hu
    have hred : Reduced lse X Is U := by
      refine ⟨by rw [← hU]; exact hm2.shape, ?_⟩
      intro i hi
      have him : InRange m.shape i := by rw [hm2.shape]; exact hi
      have his' : InRange s.shape i := by rw [hs2.shape, hEs]; exact hi
      rw [← hU, Tensor.get_ofFn him, Tensor.get_map his', hs2.value i (by rw [hEs]; exact hi), hEs]
      have hlen := sel_length hIn.1 hIn.2 hi
      have hmeet : 0 < meet X.shape Is := by
        have : ∀ l : List Nat, (∀ k ∈ l, k < X.shape.length) → 0 < meet X.shape l := by
          intro l hl
          induction l with
          | nil => simp [meet]
          | cons a l ih =>
            have := ih fun k hk => hl k (by simp [hk])
            simp only [meet, List.map_cons, List.prod_cons] at this ⊢
            exact Nat.mul_pos (hgetD a (hl a (by simp))) this
        exact this Is hIn.2
      have hne : (sel X.shape Is i).map X.get ≠ [] := by
        intro h
        have := congrArg List.length h
        rw [List.length_map, hlen] at this
        simp at this
        omega
      rw [← lse_shift (m.get i) _ hne, List.map_map]
      congr 2
      congr 1
      apply List.map_congr_left
      intro j hj
      have hj' := List.mem_filter.1 hj
      have hz : zeroAt Is j = i := by simpa using hj'.2
      rw [hDv j (mem_indices.1 hj'.1), hz]
      rfl
    have hUZ : U = Z := by
      rw [← hZ']
      exact (hred.congr hmem).keep
    obtain ⟨z, hz1, hz2⟩ := hand (u := U) (by rw [hUZ]) (fun _ _ => hUZ) (by
      rintro d rfl
      have h0 : Z.shape = [] := hfit
      rw [hUZ, h0]; rfl)
    refine ⟨z, ?_, hz2⟩
    simp only [genLse, genLogSumExp, hro, hm1, hme, hdd, hs1, hu, Option.bind_some]
    exact hz1
  | false =>
    have has : as = [] := hk.resolve_left (by simp)
    subst has
    rw [hd0 rfl]
    unfold Onnx.reduceT at hZ
    rw [if_pos rfl, Option.map_some, if_neg (by simp), Option.some.injEq, reduceAll_drop] at hZ
    subst hZ
    have hm1 : ∀ (red : List ℝ → ℝ) (x : Tensor ℝ), forwardReduce red [] false r x = some ⟨[1], [red x.data], rfl⟩ := by
      intro red x; simp [forwardReduce, Burn.reduceAll]
    generalize hM : pickList max X.data = M
    have hb : bcast [1] X.shape = some X.shape := by
      have hne : X.shape.reverse ≠ [] := by
        intro h; simp at h; rw [h] at hrank; simp at hrank
      unfold bcast
      generalize hrev : X.shape.reverse = l at hne
      have hX : X.shape = l.reverse := by rw [← hrev, List.reverse_reverse]
      cases l with
      | nil => exact absurd rfl hne
      | cons d l =>
        rw [hX]
        by_cases h1 : d = 1
        · simp [bcastRev, h1]
        · have : ¬ 1 = d := fun h => h1 h.symm
          simp [bcastRev, this]
    have hc : ∀ i, InRange X.shape i → (⟨[1], [M], rfl⟩ : Tensor ℝ).get (proj [1] i) = M := by
      intro i hi
      have h := (proj_inRange hb hi).1
      generalize proj [1] i = k at h
      cases k with
      | nil => exact h.elim
      | cons a k =>
        cases k with
        | cons b k => exact h.2.elim
        | nil =>
          have : a = 0 := by have := h.1; omega
          subst this
          rfl
    have hme : Burn.expand (⟨[1], [M], rfl⟩ : Tensor ℝ) X.shape = some (Tensor.ofFn X.shape fun _ => M) := by
      unfold Burn.expand
      rw [if_pos hb]
      congr 1
      refine Tensor.eq_of_get (by rfl) ?_
      intro i hi
      have hi' : InRange X.shape i := hi
      rw [Tensor.get_ofFn hi', Tensor.get_ofFn hi']
      exact hc i hi'
    have hdd := zip_same_get (f := fun a b : ℝ => a - b) (x := X) (y := Tensor.ofFn X.shape fun _ => M) rfl
    have hD : (Tensor.ofFn X.shape fun i => X.get i - (Tensor.ofFn X.shape fun _ => M).get i : Tensor ℝ) = X.map (· - M) := by
      refine Tensor.eq_of_get (by rfl) ?_
      intro i hi
      have hi' : InRange X.shape i := hi
      rw [Tensor.get_ofFn hi', Tensor.get_ofFn hi', Tensor.get_map hi']
    rw [hD] at hdd
    have hne : X.data ≠ [] := by
      intro h
      have hs := X.size
      rw [h] at hs
      have : 0 < prodShape X.shape := by
        generalize X.shape = s at hpos
        induction s with
        | nil => simp [prodShape]
        | cons d s ih =>
          simp only [prodShape]
          exact Nat.mul_pos (hpos d (by simp)) (ih fun k hk => hpos k (by simp [hk]))
      simp at hs
      omega
    have hu := zip_same_get (f := fun a b : ℝ => a + b) (x := ⟨[1], [M], rfl⟩)
      (y := (⟨[1], [(((X.map (· - M)).map Real.exp).data).sum], rfl⟩ : Tensor ℝ).map Real.log) rfl
    have hL : M + Real.log (((X.map (· - M)).map Real.exp).data).sum = lse X.data := by
      rw [← lse_shift M X.data hne]
      show M + Real.log ((X.data.map (· - M)).map Real.exp).sum = _
      rw [List.map_map]
      rfl
    generalize hU : (Tensor.ofFn [1] fun i => (⟨[1], [M], rfl⟩ : Tensor ℝ).get i +
      ((⟨[1], [(((X.map (· - M)).map Real.exp).data).sum], rfl⟩ : Tensor ℝ).map Real.log).get i : Tensor ℝ) = U at hu
    have hUd : U.data = [lse X.data] := by
      rw [← hL, ← hU]
      rfl
    obtain ⟨z, hz1, hz2⟩ := hand (u := U) hUd (by
      rintro t rfl
      have h1 : 0 = t.rank := hfit.1
      have h2 := hfit.2
      omega) (by rintro d rfl; rw [← hU]; rfl)
    refine ⟨z, ?_, hz2⟩
    simp only [genLse, genLogSumExp, hro, hm1, Option.bind_some, hM, hme, hdd, hu]
    exact hz1

/-- Rows of a matrix. -/
example : ∃ z, genLse [1] true (.tensor ⟨.f32, 2, none⟩) ⟨[2, 2], [0, 0, 0, 1], rfl⟩ = some z ∧
    Reps (fun n => (n : ℝ)) (.tensor ⟨.f32, 2, none⟩) z ⟨[2, 1], [lse [0, 0], lse [0, 1]], rfl⟩ :=
  C32_logsumexp_partial (as := [-1]) (by decide +kernel) rfl (by decide) (by decide) ⟨rfl, by decide⟩ (.inl rfl)

/-- Dropping a listed axis: the maximum lost that axis and is expanded to the input's shape as if it were the last one. For
a 2 by 3 tensor and axis 1 the generated code panics, whatever the elements. -/
theorem C32_logsumexp_drop_panics {α : Type} [Inhabited α] (mx sum : List α → α) (add sub : α → α → α) (exp log : α → α)
    (d : DType) (a b c p q r : α) :
    genLogSumExp mx sum add sub exp log [1] false (.tensor ⟨d, 1, none⟩) ⟨[2, 3], [a, b, c, p, q, r], rfl⟩ = none := rfl

theorem C32_logsumexp_drop_square {α : Type} [Inhabited α] (mx sum : List α → α) (add sub : α → α → α) (exp log : α → α)
    (d : DType) (a b p q : α) :
    genLogSumExp mx sum add sub exp log [1] false (.tensor ⟨d, 1, none⟩) ⟨[2, 2], [a, b, p, q], rfl⟩ =
      some (.dev ⟨[2], [add (mx [a, b]) (log (sum [exp (sub a (mx [a, b])), exp (sub b (mx [p, q]))])),
        add (mx [p, q]) (log (sum [exp (sub p (mx [a, b])), exp (sub q (mx [p, q]))]))], rfl⟩) := rfl

/-- On a square matrix the maxima of the wrong rows are subtracted, silently: for `[[0, 0], [0, 1]]` the first result should
be `log 2`. -/
theorem C32_logsumexp_drop_wrong (d : DType) :
    ∃ (X Z : Tensor ℝ) (z : GVal ℝ), Infer.reduce [1] false (.tensor ⟨d, 2, none⟩) = some (.tensor ⟨d, 1, none⟩) ∧
      Onnx.reduceT lse [1] false X = some Z ∧ genLse [1] false (.tensor ⟨d, 1, none⟩) X = some z ∧
      ∀ ofInt, ¬ Reps ofInt (.tensor ⟨d, 1, none⟩) z Z := by
  refine ⟨⟨[2, 2], [0, 0, 0, 1], rfl⟩, ⟨[2], [lse [0, 0], lse [0, 1]], rfl⟩, _, by cases d <;> rfl, rfl,
    C32_logsumexp_drop_square _ _ _ _ _ _ d 0 0 0 1, ?_⟩
  intro ofInt h
  have h1 := congrArg Tensor.data h.1
  have h2 := (List.cons.inj h1).1
  have m0 : pickList max [(0 : ℝ), 0] = 0 := by simp [pickList]
  have m1 : pickList max [(0 : ℝ), 1] = 1 := by simp [pickList]
  rw [m0, m1] at h2
  simp only [lse, List.map_cons, List.map_nil, List.sum_cons, List.sum_nil, sub_zero, Real.exp_zero, zero_add, add_zero,
    zero_sub] at h2
  have h3 : (0 : ℝ) < 1 + Real.exp (-1) := by have := Real.exp_pos (-1); linarith
  have h4 := Real.log_injOn_pos (Set.mem_Ioi.2 h3) (Set.mem_Ioi.2 (by norm_num : (0 : ℝ) < 1 + 1)) h2
  have h5 : Real.exp (-1) < 1 := by rw [Real.exp_lt_one_iff]; norm_num
  linarith

end OnnxIR
