import Verif.Model.Linear
import Verif.Props.MatMul

/-!
# C13, C53: the values of Linear layers and of Gemm
-/

namespace OnnxIR

open Onnx (line)

variable {α : Type} [Inhabited α]

theorem inRange_snoc {s i : List Nat} {n : Nat} (h : InRange (s ++ [n]) i) :
    ∃ ib j, i = ib ++ [j] ∧ InRange s ib ∧ j < n := by
  have hl := h.length
  simp at hl
  have hne : i ≠ [] := by rintro rfl; simp at hl
  refine ⟨i.dropLast, i.getLast hne, (List.dropLast_concat_getLast hne).symm, ?_⟩
  rw [← List.dropLast_concat_getLast hne] at h
  have := (inRange_append (by simp [hl])).1 h
  exact ⟨this.1, by simpa [InRange] using this.2⟩

theorem inRange_snoc_iff {s ib : List Nat} {n j : Nat} : InRange s ib → j < n → InRange (s ++ [n]) (ib ++ [j]) := by
  intro h1 h2
  exact (inRange_append h1.length.symm).2 ⟨h1, by simpa [InRange] using h2⟩

/-- Elements of Burn's Linear. -/
theorem linear_spec {dot : List α → List α → α} {add : α → α → α} {x w : Tensor α} {b : Option (Tensor α)}
    {bs : List Nat} {k n : Nat} (hx : x.shape = bs ++ [k]) (hw : w.shape = [k, n]) (hb : ∀ c ∈ b, c.shape = [n]) :
    ∃ z, Burn.linear dot add x w b = some z ∧ z.shape = bs ++ [n] ∧ ∀ ib j, InRange bs ib → j < n →
      z.get (ib ++ [j]) =
        Burn.addBias add b j (dot (line k fun l => x.get (ib ++ [l])) (line k fun l => w.get [l, j])) := by
  have e1 : x.shape.reverse = k :: bs.reverse := by simp [hx]
  unfold Burn.linear
  rw [e1, hw]
  have hc : k = k ∧ ∀ c ∈ b, c.shape = [n] := ⟨rfl, hb⟩
  refine ⟨_, if_pos hc, by simp [Tensor.ofFn], ?_⟩
  intro ib j hi hj
  rw [Tensor.get_ofFn (by simpa using inRange_snoc_iff hi hj)]
  have hl := hi.length
  simp [← hl]
  rfl

/-- **C13**, without a bias: by a matrix, the layer computes ONNX's product. -/
theorem C13_linear_is_product {dot : List α → List α → α} {add : α → α → α} {x w z : Tensor α}
    (hw : w.shape.length = 2) (h : Onnx.MatMul dot x w z) : Gen.linear dot add false x w none = some z := by
  simp only [Gen.linear, Bool.false_eq_true, if_false]
  rcases h with ⟨ba, bb, s, m, k, n, hx, hy, hb, hz, hg⟩ | ⟨bb, k, n, hx, hy, hz, hg⟩ | ⟨ba, m, k, hx, hy, -⟩ | ⟨k, hx, hy, -⟩
  · have hbb : bb = [] := by
      rw [hy] at hw; simpa using hw
    subst hbb
    rw [bcast_nil_right] at hb
    cases hb
    obtain ⟨z', h1, h2, h3⟩ := linear_spec (dot := dot) (add := add) (b := none) (x := x) (w := w) (bs := ba ++ [m]) (k := k) (n := n)
      (by simp [hx]) (by simpa using hy) (by simp)
    rw [h1]
    refine congrArg some (Tensor.eq_of_get (by rw [h2, hz]; simp) ?_)
    intro i hi
    rw [h2] at hi
    obtain ⟨ib', j, rfl, hib', hj⟩ := inRange_snoc hi
    obtain ⟨ib, i', rfl, hib, hi'⟩ := inRange_snoc hib'
    rw [h3 _ _ hib' hj]
    have := hg ib i' j hib hi' hj
    rw [List.append_assoc]
    simp only [List.cons_append, List.nil_append] at this ⊢
    rw [this, proj_self hib]
    simp [proj, projRev, Burn.addBias]
  · have hbb : bb = [] := by
      rw [hy] at hw; simpa using hw
    subst hbb
    obtain ⟨z', h1, h2, h3⟩ := linear_spec (dot := dot) (add := add) (b := none) (x := x) (w := w) (bs := []) (k := k) (n := n)
      (by simp [hx]) (by simpa using hy) (by simp)
    rw [h1]
    refine congrArg some (Tensor.eq_of_get (by rw [h2, hz]) ?_)
    intro i hi
    rw [h2] at hi
    obtain ⟨ib, j, rfl, hib, hj⟩ := inRange_snoc hi
    rw [h3 _ _ hib hj]
    rw [hg ib j hib hj]
    obtain rfl : ib = [] := by simpa using hib.length
    rfl
  · rw [hy] at hw; simp at hw
  · rw [hy] at hw; simp at hw

theorem bcast_vector (bs : List Nat) (n : Nat) : bcast (bs ++ [n]) [n] = some (bs ++ [n]) := by
  rw [bcast_zip (a := [n]) (b := [n]) rfl]
  by_cases h : n = 1 <;> simp [zipDims, h]

theorem proj_vector {n j : Nat} (ib : List Nat) (hj : j < n) : proj [n] (ib ++ [j]) = [j] := by
  simp only [proj, List.reverse_append, List.reverse_cons, List.reverse_nil, List.nil_append, List.cons_append,
    projRev]
  split
  · next h => subst h; simp; omega
  · simp

/-- **C13**, with a bias: a product by a matrix followed by the sum with a vector that has one entry for each column. -/
theorem C13_linear_is_biased_product {dot : List α → List α → α} {add : α → α → α} {x w p b z : Tensor α} {k n : Nat}
    (hw : w.shape = [k, n]) (hb : b.shape = [n]) (h : Onnx.MatMul dot x w p)
    (hz : Tensor.zipBcast add p b = some z) : Gen.linear dot add false x w (some b) = some z := by
  have h0 := C13_linear_is_product (add := add) (by rw [hw]; rfl) h
  simp only [Gen.linear, Bool.false_eq_true, if_false] at h0 ⊢
  obtain ⟨bs, hx⟩ : ∃ bs, x.shape = bs ++ [k] := by
    unfold Burn.linear at h0
    split at h0
    · next k1 bs k2 n2 hx hw2 =>
      split at h0
      · next hc =>
        rw [hw] at hw2
        obtain ⟨rfl, rfl⟩ : k = k2 ∧ n = n2 := by simpa using hw2
        refine ⟨bs.reverse, ?_⟩
        have := congrArg List.reverse hx
        simpa [hc.1] using this
      · cases h0
    · cases h0
  obtain ⟨p', h1, h2, h3⟩ := linear_spec (dot := dot) (add := add) (b := none) hx hw (by simp)
  rw [h0] at h1
  cases h1
  obtain ⟨z', h4, h5, h6⟩ := linear_spec (dot := dot) (add := add) (b := some b) hx hw (by simpa using hb)
  rw [h4]
  unfold Tensor.zipBcast at hz
  rw [h2, hb, bcast_vector] at hz
  simp only [Option.map_some, Option.some.injEq] at hz
  subst hz
  refine congrArg some (Tensor.eq_of_get (by rw [h5]; rfl) ?_)
  intro i hi
  rw [h5] at hi
  obtain ⟨ib, j, rfl, hib, hj⟩ := inRange_snoc hi
  rw [h6 _ _ hib hj, Tensor.get_ofFn hi, proj_self hi, h3 _ _ hib hj, proj_vector ib hj]
  rfl

theorem transpose2_spec {t : Tensor α} {m n : Nat} (h : t.shape = [m, n]) :
    ∃ u, Burn.transpose2 t = some u ∧ u.shape = [n, m] ∧ ∀ i j, i < n → j < m → u.get [i, j] = t.get [j, i] := by
  unfold Burn.transpose2
  rw [h]
  refine ⟨_, rfl, rfl, fun i j hi hj => ?_⟩
  rw [Tensor.get_ofFn (by simp [InRange, hi, hj])]
  rfl

/-- **C13**, from a `Gemm` with `alpha = beta = 1`, `transA = 0` and `transB = 1` and a vector `C` with one entry for
each row of the stored weight, or no `C`: the layer that multiplies by the transpose computes it. -/
theorem C13_linear_is_gemm {dot : List α → List α → α} {mul add : α → α → α} {one : α} (hone : ∀ v, mul one v = v)
    {x w y : Tensor α} {c : Option (Tensor α)} (hc : ∀ v ∈ c, v.shape = [w.shape.getD 0 0])
    (h : Onnx.gemmVal dot mul add one one false true x w c = some y) : Gen.linear dot add true x w c = some y := by
  unfold Onnx.gemmVal at h
  split at h
  · next m k n k' hx hw =>
    simp only [Bool.false_eq_true, if_false, if_true] at h
    split at h
    · next hk =>
      subst hk
      rw [hw] at hc
      simp only [List.getD_cons_zero] at hc
      obtain ⟨u, hu, hus, hug⟩ := transpose2_spec hw
      simp only [Gen.linear, if_true, hu, Option.bind_some]
      obtain ⟨z, h1, h2, h3⟩ := linear_spec (dot := dot) (add := add) (b := c) (bs := [m]) (k := k) (n := n)
        (by rw [hx]; rfl) hus hc
      rw [h1]
      have hu' : ∀ j, j < n → ((List.range k).map fun l => u.get [l, j]) = (List.range k).map fun l => w.get [j, l] := by
        intro j hj
        exact List.map_congr_left fun l hl => hug l j (List.mem_range.1 hl) hj
      cases c with
      | none =>
        simp only [Option.some.injEq] at h
        subst h
        refine congrArg some (Tensor.eq_of_get (by rw [h2]; rfl) ?_)
        intro i hi
        rw [h2] at hi
        rw [Tensor.get_ofFn (s := [m, n]) hi]
        obtain ⟨ib, j, rfl, hib, hj⟩ := inRange_snoc hi
        rw [h3 _ _ hib hj]
        obtain ⟨i', rfl⟩ : ∃ i', ib = [i'] := by
          match ib, hib.length with
          | [i'], _ => exact ⟨i', rfl⟩
        simp only [List.cons_append, List.nil_append, List.getD_cons_zero, List.getD_cons_succ, Burn.addBias, hone, hu' j hj,
          Onnx.elem, if_true, Bool.false_eq_true, if_false, line]
      | some c =>
        simp only at h
        have hcs := hc c rfl
        split at h
        · simp only [Option.some.injEq] at h
          subst h
          refine congrArg some (Tensor.eq_of_get (by rw [h2]; rfl) ?_)
          intro i hi
          rw [h2] at hi
          rw [Tensor.get_ofFn (s := [m, n]) hi]
          obtain ⟨ib, j, rfl, hib, hj⟩ := inRange_snoc hi
          rw [h3 _ _ hib hj, hcs, proj_vector ib hj]
          obtain ⟨i', rfl⟩ : ∃ i', ib = [i'] := by
            match ib, hib.length with
            | [i'], _ => exact ⟨i', rfl⟩
          simp only [List.cons_append, List.nil_append, List.getD_cons_zero, List.getD_cons_succ, Burn.addBias, hone, hu' j hj,
            Onnx.elem, if_true, Bool.false_eq_true, if_false, line]
        · cases h
    · cases h
  · cases h

/-! ## C53: Gemm -/

theorem burn_matmul_2d {dot : List α → List α → α} {x y : Tensor α} {m k n : Nat} (hx : x.shape = [m, k])
    (hy : y.shape = [k, n]) : ∃ z, Burn.matmul dot x y = some z ∧ z.shape = [m, n] ∧ ∀ i j, i < m → j < n →
      z.get [i, j] = dot (line k fun l => x.get [i, l]) (line k fun l => y.get [l, j]) := by
  obtain ⟨z, h1, h2, h3⟩ := burn_matmul_some (dot := dot) (x := x) (y := y) (ba := []) (bb := []) (s := [])
    (by simpa using hx) (by simpa using hy) rfl rfl
  exact ⟨z, h1, by simpa using h2, fun i j hi hj => by simpa [proj, projRev] using h3 [] i j (by simp [InRange]) hi hj⟩

theorem get_map_tensor {t : Tensor α} {f : α → α} {i : List Nat} (hi : InRange t.shape i) :
    (t.map f).get i = f (t.get i) := by
  have := flatIdx_lt hi
  rw [← t.size] at this
  simp only [Tensor.get, Tensor.map]
  simp [this]

/-- **C53.** For all shapes, scale factors and flags, with or without `C`: if ONNX's Gemm is defined, the generated code
runs and computes it. `mul` commutes and `one` is its unit. -/
theorem C53_gemm_value [DecidableEq α] {one : α} {dot : List α → List α → α} {mul add : α → α → α}
    (hone : ∀ v, mul one v = v) (hmul : ∀ u v, mul u v = mul v u) {alpha beta : α} {ta tb : Bool} {a b y : Tensor α}
    {c : Option (Tensor α)} (h : Onnx.gemmVal dot mul add alpha beta ta tb a b c = some y) :
    Gen.gemm one dot mul add alpha beta ta tb a b c = some y := by
  unfold Onnx.gemmVal at h
  split at h
  · next a0 a1 b0 b1 ha hb =>
    simp only at h
    -- the transposed operands
    have tr : ∀ (t : Bool) (x : Tensor α) (d0 d1 : Nat), x.shape = [d0, d1] → ∃ u,
        (if t then Burn.transpose2 x else some x) = some u ∧
        u.shape = [if t then d1 else d0, if t then d0 else d1] ∧
        ∀ i j, i < (if t then d1 else d0) → j < (if t then d0 else d1) → u.get [i, j] = Onnx.elem t x i j := by
      intro t x d0 d1 hx
      cases t with
      | false => exact ⟨x, rfl, hx, fun i j _ _ => rfl⟩
      | true =>
        obtain ⟨u, h1, h2, h3⟩ := transpose2_spec hx
        exact ⟨u, h1, h2, h3⟩
    obtain ⟨u, hu, hus, hug⟩ := tr ta a a0 a1 ha
    obtain ⟨v, hv, hvs, hvg⟩ := tr tb b b0 b1 hb
    generalize (if ta then a1 else a0) = m at *
    generalize (if ta then a0 else a1) = k at *
    generalize (if tb then b0 else b1) = n at *
    generalize (if tb then b1 else b0) = k' at *
    split at h
    · next hk =>
      subst hk
      obtain ⟨p, hp, hps, hpg⟩ := burn_matmul_2d (dot := dot) hus hvs
      -- the scaled product
      obtain ⟨q, hq, hqs, hqg⟩ : ∃ q, (if alpha = one then p else Burn.mulScalar mul p alpha) = q ∧ q.shape = [m, n] ∧
          ∀ i j, i < m → j < n → q.get [i, j] = mul alpha (dot ((List.range k).map fun l => Onnx.elem ta a i l)
            ((List.range k).map fun l => Onnx.elem tb b l j)) := by
        have e1 : ∀ i, i < m → (line k fun l => u.get [i, l]) = (List.range k).map fun l => Onnx.elem ta a i l :=
          fun i hi => List.map_congr_left fun l hl => hug i l hi (List.mem_range.1 hl)
        have e2 : ∀ j, j < n → (line k fun l => v.get [l, j]) = (List.range k).map fun l => Onnx.elem tb b l j :=
          fun j hj => List.map_congr_left fun l hl => hvg l j (List.mem_range.1 hl) hj
        split
        · next ha1 =>
          refine ⟨p, rfl, hps, fun i j hi hj => ?_⟩
          rw [hpg i j hi hj, e1 i hi, e2 j hj, ha1, hone]
        · refine ⟨_, rfl, hps, fun i j hi hj => ?_⟩
          rw [Burn.mulScalar, get_map_tensor (by rw [hps]; simp [InRange, hi, hj]), hpg i j hi hj, e1 i hi, e2 j hj,
            hmul]
      unfold Gen.gemm
      rw [hu, Option.bind_some, hv, Option.bind_some, hp, Option.bind_some]
      simp only [hq]
      have ixs : ∀ i, InRange [m, n] i → ∃ i0 i1, i = [i0, i1] ∧ i0 < m ∧ i1 < n := by
        intro i hi
        match i, hi.length with
        | [i0, i1], _ => exact ⟨i0, i1, rfl, by simpa [InRange] using hi⟩
      cases c with
      | none =>
        simp only [Option.some.injEq] at h ⊢
        subst h
        refine Tensor.eq_of_get hqs fun i hi => ?_
        rw [hqs] at hi
        rw [Tensor.get_ofFn hi]
        obtain ⟨i0, i1, rfl, h0, h1⟩ := ixs i hi
        exact hqg i0 i1 h0 h1
      | some c =>
        simp only at h ⊢
        split at h
        · next hbc =>
          simp only [Option.some.injEq] at h
          have hcl : c.shape.length ≤ 2 := by
            have := bcast_length hbc
            simp at this
            omega
          obtain ⟨c', hc', hcs, hcg⟩ := unsqueeze_some (t := c) (r := 2) hcl
          rw [hqs]
          simp only [List.length_cons, List.length_nil]
          rw [hc', Option.bind_some]
          have hcl' : c.shape.length + (2 - c.shape.length) = 2 := by omega
          -- the scaled `C`
          obtain ⟨d, hd, hds, hdg⟩ : ∃ d, (if beta = one then c' else Burn.mulScalar mul c' beta) = d ∧
              d.shape = c'.shape ∧ ∀ i, InRange c'.shape i → d.get i = mul beta (c'.get i) := by
            split
            · next hb1 => exact ⟨c', rfl, rfl, fun i _ => by rw [hb1, hone]⟩
            · exact ⟨_, rfl, rfl, fun i hi => by rw [Burn.mulScalar, get_map_tensor hi, hmul]⟩
          simp only [hd]
          have hbc' : bcast c'.shape [m, n] = some [m, n] := by
            rw [hcs]; exact bcast_ones hbc (by simp; omega)
          unfold Burn.binary Tensor.zipBcast
          rw [hqs, hds, if_pos (by rw [hcs]; simp; omega), bcast_comm, hbc', Option.map_some, ← h]
          refine congrArg some (Tensor.eq_of_get rfl fun i hi => ?_)
          have hi : InRange [m, n] i := hi
          rw [Tensor.get_ofFn hi, Tensor.get_ofFn hi, proj_self hi, hdg _ (proj_inRange hbc' hi).1]
          have hpr : proj c'.shape i = List.replicate (2 - c.shape.length) 0 ++ proj c.shape i := by
            rw [hcs, proj_ones]
            rw [hi.length]; simp; omega
          rw [hpr, hcg]
          obtain ⟨i0, i1, rfl, h0, h1⟩ := ixs i hi
          rw [hqg i0 i1 h0 h1]
          rfl
        · cases h
    · cases h
  · cases h

/-- `2 * A'B + 3 * C` with `A' = [[1, 3], [2, 4]]` (the transpose of what is given), `B = [[1, 0], [0, 1]]` and `C` the
vector `[10, 20]`. -/
example : Onnx.gemmVal (fun u v => ((u.zip v).map fun p => p.1 * p.2).sum) (· * ·) (· + ·) (2 : Int) 3 true false
    ⟨[2, 2], [1, 2, 3, 4], rfl⟩ ⟨[2, 2], [1, 0, 0, 1], rfl⟩ (some ⟨[2], [10, 20], rfl⟩) =
    some ⟨[2, 2], [32, 66, 34, 68], rfl⟩ := by decide

end OnnxIR
