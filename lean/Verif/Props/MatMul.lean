import Verif.Model.MatMul
import Verif.Spec.MatMul
import Verif.Spec.OpShapes
import Verif.Lemmas.Shapes
import Verif.Lemmas.Flat
import Verif.Props.GatherND

/-!
# C30: generated MatMul code aligns ranks as ONNX does
-/

namespace OnnxIR

open Onnx

variable {α : Type} [Inhabited α]

theorem flatIdx_pad (n : Nat) (s i : List Nat) :
    flatIdx (List.replicate n 1 ++ s) (List.replicate n 0 ++ i) = flatIdx s i := by
  rw [flatIdx_append (by simp)]
  have : ∀ n, flatIdx (List.replicate n 1) (List.replicate n 0) = 0 := by
    intro n
    induction n with
    | zero => rfl
    | succ n ih => simp [List.replicate_succ, flatIdx, ih]
  simp [this]

theorem projRev_ones : ∀ {s i : List Nat} {n : Nat}, i.length = s.length + n →
    projRev (s ++ List.replicate n 1) i = projRev s i ++ List.replicate n 0
  | [], i, 0, h => by cases i <;> simp_all [projRev]
  | [], [], n + 1, h => by simp at h
  | [], x :: i, n + 1, h => by
    have := projRev_ones (s := []) (i := i) (n := n) (by simpa using h)
    simp only [List.nil_append] at this
    simp [List.replicate_succ, projRev, this]
  | d :: s, [], n, h => by simp at h; omega
  | d :: s, x :: i, n, h => by
    have := projRev_ones (s := s) (i := i) (n := n) (by simp at h; omega)
    simp [projRev, this]

theorem proj_ones {s i : List Nat} {n : Nat} (h : i.length = s.length + n) :
    proj (List.replicate n 1 ++ s) i = List.replicate n 0 ++ proj s i := by
  unfold proj
  rw [List.reverse_append, List.reverse_replicate, projRev_ones (by simpa using h),
    List.reverse_append, List.reverse_replicate]

theorem bcast_ones {a b s : List Nat} {n : Nat} (h : bcast a b = some s)
    (hl : b.length = a.length + n) : bcast (List.replicate n 1 ++ a) b = some s := by
  rw [bcast_pad h n (by omega), bcast_length h]
  have : a.length + n - max a.length b.length = 0 := by omega
  rw [this]; rfl

/-- Elements of Burn's product. -/
theorem burn_matmul_some {dot : List α → List α → α} {x y : Tensor α} {ba bb s : List Nat}
    {m k n : Nat} (hx : x.shape = ba ++ [m, k]) (hy : y.shape = bb ++ [k, n])
    (hl : ba.length = bb.length) (hb : bcast ba bb = some s) :
    ∃ z, Burn.matmul dot x y = some z ∧ z.shape = s ++ [m, n] ∧
      ∀ ib i j, InRange s ib → i < m → j < n →
        z.get (ib ++ [i, j]) = dot (line k fun l => x.get (proj ba ib ++ [i, l]))
          (line k fun l => y.get (proj bb ib ++ [l, j])) := by
  have e1 : x.shape.reverse = k :: m :: ba.reverse := by simp [hx]
  have e2 : y.shape.reverse = n :: k :: bb.reverse := by simp [hy]
  unfold Burn.matmul
  rw [e1, e2]
  simp only [List.length_reverse, List.reverse_reverse, hl, and_self, if_true, hb, Option.map_some]
  refine ⟨_, rfl, rfl, ?_⟩
  intro ib i j h1 h2 h3
  rw [Tensor.get_ofFn]
  · have hil := h1.length
    rw [← hil, List.take_left' rfl]
    have g1 : (ib ++ [i, j]).getD ib.length 0 = i := by simp [List.getD_eq_getElem?_getD]
    have g2 : (ib ++ [i, j]).getD (ib.length + 1) 0 = j := by
      simp [List.getD_eq_getElem?_getD]
    simp only [g1, g2]
    rfl
  · rw [inRange_append h1.length.symm]
    exact ⟨h1, by simp [InRange, h2, h3]⟩

theorem unsqueeze_some {t : Tensor α} {r : Nat} (h : t.shape.length ≤ r) :
    ∃ u, Burn.unsqueeze t r = some u ∧
      u.shape = List.replicate (r - t.shape.length) 1 ++ t.shape ∧
      ∀ i, u.get (List.replicate (r - t.shape.length) 0 ++ i) = t.get i := by
  unfold Burn.unsqueeze
  rw [if_pos h]
  obtain ⟨u, hu⟩ := Option.isSome_iff_exists.1 ((Burn.reshape_isSome (t := t)
    (s := List.replicate (r - t.shape.length) 1 ++ t.shape)).2
    (by rw [prodShape_append, prodShape_replicate_one, Nat.one_mul]))
  refine ⟨u, hu, (Burn.reshape_get (i := []) hu).1, ?_⟩
  intro i
  exact Burn.reshape_get_eq hu (flatIdx_pad _ _ _)

theorem replicate_length_sub {ba bb : List Nat} {p q : Nat} :
    (ba ++ [p, q]).length - (bb ++ [p, q]).length = ba.length - bb.length := by
  simp

/-- The two operands have the ranks ONNX allows: the generated code runs and computes ONNX's product,
for every shape, element type and arithmetic. The vector-vector case is excluded: there the inferred
type is wrong (`C30_vector_vector_wrong`). -/
theorem C30_matmul_value_partial {dot : List α → List α → α} {x y : Tensor α}
    (hs : (Onnx.matmul x.shape y.shape).isSome)
    (hv : ¬ (x.shape.length = 1 ∧ y.shape.length = 1)) :
    ∃ z, Gen.matmul dot x y = some z ∧ MatMul dot x y z := by
  obtain ⟨so, hs⟩ := Option.isSome_iff_exists.1 hs
  unfold Onnx.matmul at hs
  split at hs
  · -- vector, vector
    rename_i k k' h1 h2
    have h1 := congrArg List.length h1
    have h2 := congrArg List.length h2
    simp at h1 h2
    exact absurd ⟨h1, h2⟩ hv
  · -- vector on the left
    rename_i k n k' bb h1 h2
    split at hs
    · rename_i hk
      subst hk
      have hx : x.shape = [k] := by simpa using congrArg List.reverse h1
      have hy : y.shape = bb.reverse ++ [k, n] := by simpa using congrArg List.reverse h2
      generalize bb.reverse = bb at hy
      have hlx : x.shape.length = 1 := by simp [hx]
      have hly : y.shape.length = bb.length + 2 := by simp [hy]
      obtain ⟨u, hu, hus, hug⟩ := unsqueeze_some (t := x) (r := bb.length + 2) (by omega)
      have hsub : bb.length + 2 - x.shape.length = bb.length + 1 := by omega
      rw [hsub] at hus hug
      have hus' : u.shape = List.replicate bb.length 1 ++ [1, k] := by
        rw [hus, hx, List.replicate_succ', List.append_assoc]; rfl
      have hb : bcast (List.replicate bb.length 1) bb = some bb := by
        have := bcast_ones (n := bb.length) (bcast_nil_left bb) (by simp)
        simpa using this
      obtain ⟨z, hz, hzs, hzg⟩ := burn_matmul_some (dot := dot) hus' hy (by simp) hb
      have hd : z.shape[bb.length]? = some 1 := by simp [hzs]
      have he : z.shape.eraseIdx bb.length = bb ++ [n] := by
        rw [hzs, List.eraseIdx_append_of_length_le (Nat.le_refl _)]; simp
      obtain ⟨w, hw⟩ := Option.isSome_iff_exists.1 ((Burn.reshape_isSome (t := z)
        (s := bb ++ [n])).2 (by rw [hzs]; simp [prodShape_append, prodShape]))
      refine ⟨w, ?_, ?_⟩
      · simp only [Gen.matmul, hlx, hly]
        rw [if_neg (by omega), if_pos (by omega), if_pos trivial, hu, Option.bind_some, hz,
          Option.bind_some]
        unfold Burn.squeezeDim
        simp only [Nat.add_sub_cancel, hd, if_true, he, hw]
      · right; left
        refine ⟨bb, k, n, hx, hy, (Burn.reshape_get (i := []) hw).1, ?_⟩
        intro ib j r1 hj
        rw [Burn.reshape_get_eq hw (j := ib ++ [0, j]) (by
          rw [hzs, flatIdx_append r1.length, flatIdx_append r1.length]
          simp [flatIdx, prodShape])]
        rw [hzg ib 0 j r1 (by omega) hj, proj_self r1]
        have hp : proj (List.replicate bb.length 1) ib = List.replicate bb.length 0 := by
          have := proj_ones (s := []) (i := ib) (n := bb.length) (by simp [r1.length])
          have hn : proj [] ib = [] := by
            unfold proj
            cases ib.reverse <;> rfl
          simpa [hn] using this
        rw [hp]
        have : ∀ l, u.get (List.replicate bb.length 0 ++ [0, l]) = x.get [l] := by
          intro l
          rw [← hug [l], List.replicate_succ', List.append_assoc]; rfl
        simp only [this]
    · cases hs
  · -- vector on the right
    rename_i k m ba k' h1 h2
    split at hs
    · rename_i hk
      subst hk
      have hx : x.shape = ba.reverse ++ [m, k] := by simpa using congrArg List.reverse h1
      have hy : y.shape = [k] := by simpa using congrArg List.reverse h2
      generalize ba.reverse = ba at hx
      have hly : y.shape.length = 1 := by simp [hy]
      have hlx : x.shape.length = ba.length + 2 := by simp [hx]
      obtain ⟨u, hu⟩ := Option.isSome_iff_exists.1 ((Burn.reshape_isSome (t := y)
        (s := List.replicate ba.length 1 ++ y.shape ++ [1])).2
        (by simp [prodShape_append, prodShape_replicate_one, prodShape]))
      have hus : u.shape = List.replicate ba.length 1 ++ [k, 1] := by
        rw [(Burn.reshape_get (i := []) hu).1, hy]; simp
      have hb : bcast ba (List.replicate ba.length 1) = some ba := by
        rw [bcast_comm]
        have := bcast_ones (n := ba.length) (bcast_nil_left ba) (by simp)
        simpa using this
      obtain ⟨z, hz, hzs, hzg⟩ := burn_matmul_some (dot := dot) hx hus (by simp) hb
      have hd : z.shape[ba.length + 1]? = some 1 := by simp [hzs]
      have he : z.shape.eraseIdx (ba.length + 1) = ba ++ [m] := by
        rw [hzs, List.eraseIdx_append_of_length_le (by omega)]; simp
      obtain ⟨w, hw⟩ := Option.isSome_iff_exists.1 ((Burn.reshape_isSome (t := z)
        (s := ba ++ [m])).2 (by rw [hzs]; simp [prodShape_append, prodShape]))
      refine ⟨w, ?_, ?_⟩
      · simp only [Gen.matmul, hlx, hly]
        rw [if_pos (by omega), if_pos trivial]
        have : ba.length + 2 - 1 - 1 = ba.length := by omega
        unfold Burn.unsqueezeBackFront
        rw [this, hu, Option.bind_some, hz, Option.bind_some]
        have : ba.length + 2 - 1 = ba.length + 1 := by omega
        unfold Burn.squeezeDim
        simp only [this, hd, if_true, he, hw]
      · right; right; left
        refine ⟨ba, m, k, hx, hy, (Burn.reshape_get (i := []) hw).1, ?_⟩
        intro ib i r1 hi
        rw [Burn.reshape_get_eq hw (j := ib ++ [i, 0]) (by
          rw [hzs, flatIdx_append r1.length, flatIdx_append r1.length]
          simp [flatIdx, prodShape])]
        rw [hzg ib i 0 r1 hi (by omega), proj_self r1]
        have hp : proj (List.replicate ba.length 1) ib = List.replicate ba.length 0 := by
          have := proj_ones (s := []) (i := ib) (n := ba.length) (by simp [r1.length])
          have hn : proj [] ib = [] := by
            unfold proj
            cases ib.reverse <;> rfl
          simpa [hn] using this
        rw [hp]
        have : ∀ l, u.get (List.replicate ba.length 0 ++ [l, 0]) = y.get [l] := by
          intro l
          refine Burn.reshape_get_eq hu ?_
          rw [List.append_assoc, flatIdx_pad, hy]
          simp [flatIdx, prodShape]
        simp only [this]
    · cases hs
  · -- matrices
    rename_i k m ba n k' bb h1 h2
    split at hs
    · rename_i hk
      subst hk
      have hx : x.shape = ba.reverse ++ [m, k] := by simpa using congrArg List.reverse h1
      have hy : y.shape = bb.reverse ++ [k, n] := by simpa using congrArg List.reverse h2
      generalize ba.reverse = ba at hx hs
      generalize bb.reverse = bb at hy hs
      have hlx : x.shape.length = ba.length + 2 := by simp [hx]
      have hly : y.shape.length = bb.length + 2 := by simp [hy]
      obtain ⟨s, hb, -⟩ := Option.map_eq_some_iff.1 hs
      have hsl := bcast_length hb
      rcases Nat.lt_trichotomy ba.length bb.length with hlt | heq | hgt
      · obtain ⟨u, hu, hus, hug⟩ := unsqueeze_some (t := x) (r := bb.length + 2) (by omega)
        have hsub : bb.length + 2 - x.shape.length = bb.length - ba.length := by omega
        rw [hsub] at hus hug
        rw [hx, ← List.append_assoc] at hus
        have hb' := bcast_ones (n := bb.length - ba.length) hb (by omega)
        obtain ⟨z, hz, hzs, hzg⟩ := burn_matmul_some (dot := dot) hus hy (by simp; omega) hb'
        refine ⟨z, ?_, ?_⟩
        · simp only [Gen.matmul, hlx, hly]
          rw [if_neg (by omega), if_pos (by omega), if_neg (by omega), hu, Option.bind_some, hz]
        · left
          refine ⟨ba, bb, s, m, k, n, hx, hy, hb, hzs, ?_⟩
          intro ib i j r1 hi hj
          rw [hzg ib i j r1 hi hj, proj_ones (by rw [r1.length, hsl]; omega)]
          simp only [List.append_assoc, hug]
      · obtain ⟨z, hz, hzs, hzg⟩ := burn_matmul_some (dot := dot) hx hy heq hb
        refine ⟨z, ?_, ?_⟩
        · simp only [Gen.matmul, hlx, hly]
          rw [if_neg (by omega), if_neg (by omega), hz]
        · left
          exact ⟨ba, bb, s, m, k, n, hx, hy, hb, hzs, hzg⟩
      · obtain ⟨u, hu, hus, hug⟩ := unsqueeze_some (t := y) (r := ba.length + 2) (by omega)
        have hsub : ba.length + 2 - y.shape.length = ba.length - bb.length := by omega
        rw [hsub] at hus hug
        rw [hy, ← List.append_assoc] at hus
        have hb' : bcast ba (List.replicate (ba.length - bb.length) 1 ++ bb) = some s := by
          rw [bcast_comm] at hb ⊢
          exact bcast_ones hb (by omega)
        obtain ⟨z, hz, hzs, hzg⟩ := burn_matmul_some (dot := dot) hx hus (by simp; omega) hb'
        refine ⟨z, ?_, ?_⟩
        · simp only [Gen.matmul, hlx, hly]
          rw [if_pos (by omega), if_neg (by omega), hu, Option.bind_some, hz]
        · left
          refine ⟨ba, bb, s, m, k, n, hx, hy, hb, hzs, ?_⟩
          intro ib i j r1 hi hj
          rw [hzg ib i j r1 hi hj, proj_ones (by rw [r1.length, hsl]; omega)]
          simp only [List.append_assoc, hug]
    · cases hs
  · cases hs

/-- The hypotheses are met: a batch of matrices times a vector, and a vector times a batch. -/
example : (Gen.matmul (fun a b => (a.zipWith (· * ·) b).sum)
    (⟨[2, 1, 2], [1, 2, 3, 4], rfl⟩ : Tensor Nat) ⟨[2], [5, 6], rfl⟩).map
    (fun z => (z.shape, z.data)) = some ([2, 1], [17, 39]) := by decide
example : (Gen.matmul (fun a b => (a.zipWith (· * ·) b).sum)
    (⟨[2], [5, 6], rfl⟩ : Tensor Nat) ⟨[2, 2, 1], [1, 2, 3, 4], rfl⟩).map
    (fun z => (z.shape, z.data)) = some ([2, 1], [17, 39]) := by decide
example : (Gen.matmul (fun a b => (a.zipWith (· * ·) b).sum)
    (⟨[1, 2], [5, 6], rfl⟩ : Tensor Nat) ⟨[2, 2, 1], [1, 2, 3, 4], rfl⟩).map
    (fun z => (z.shape, z.data)) = some ([2, 1, 1], [17, 39]) := by decide

end OnnxIR
