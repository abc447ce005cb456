import Verif.Model.Col2Im
import Verif.Spec.Col2Im
import Verif.Lemmas.Box
import Verif.Props.Scatter
import Mathlib.Algebra.BigOperators.Group.List.Lemmas

/-!
# C73: Col2Im
-/

namespace OnnxIR

open Onnx Gen

/-! ### Numbers of windows -/

theorem colCount_of {a : ColAxis} {n : Nat} (h : Windows a n) (hb : 0 < a.block) : colCount a.img a.before a.after a.block a.dil a.stride = some n := by
  obtain ⟨hn, hw⟩ := h
  have h0 := (hw 0).1 hn
  have hs : a.stride ≠ 0 := by
    intro e
    have h1 := (hw n).2 (by rw [e]; omega)
    omega
  unfold colCount
  rw [if_neg (by omega)]
  congr 1
  generalize a.dil * (a.block - 1) = D at *
  generalize a.img + a.before + a.after = P at *
  have key : ∀ w, w < (P - (D + 1)) / a.stride + 1 ↔ w < n := by
    intro w
    rw [hw w, Nat.lt_succ_iff, Nat.le_div_iff_mul_le (by omega)]
    omega
  have k1 := key n
  have k2 := key ((P - (D + 1)) / a.stride + 1)
  omega

/-- Attributes and inputs say what is known about the axes; attributes may be left out where they have their default value. -/
structure Describes (axes : List ColAxis) (image block dilations pads strides : Option (List Nat)) : Prop where
  image : image = some (axes.map (·.img))
  block : block = some (axes.map (·.block))
  dilations : dilations = some (axes.map (·.dil)) ∨ dilations = none ∧ ∀ a ∈ axes, a.dil = 1
  pads : pads = some (axes.map (·.before) ++ axes.map (·.after)) ∨ pads = none ∧ ∀ a ∈ axes, a.before = 0 ∧ a.after = 0
  strides : strides = some (axes.map (·.stride)) ∨ strides = none ∧ ∀ a ∈ axes, a.stride = 1

theorem map_const_of {axes : List ColAxis} {f : ColAxis → Nat} {d : Nat} (h : ∀ a ∈ axes, f a = d) : List.replicate axes.length d = axes.map f := by
  induction axes with
  | nil => rfl
  | cons a as ih =>
    rw [List.length_cons, List.replicate_succ, ih fun b hb => h b (List.mem_cons_of_mem _ hb), List.map_cons, h a List.mem_cons_self]

theorem Describes.config {axes : List ColAxis} {im bl di pa st : Option (List Nat)} (h : Describes axes im bl di pa st) :
    col2imConfig im bl di pa st = some ⟨axes.map (·.img), axes.map (·.block), axes.map (·.dil), axes.map (·.before) ++ axes.map (·.after), axes.map (·.stride)⟩ := by
  obtain ⟨rfl, rfl, h1, h2, h3⟩ := h
  have e1 : di.getD (List.replicate axes.length 1) = axes.map (·.dil) := by
    rcases h1 with rfl | ⟨rfl, h⟩
    · rfl
    · exact map_const_of h
  have e2 : pa.getD (List.replicate (axes.length * 2) 0) = axes.map (·.before) ++ axes.map (·.after) := by
    rcases h2 with rfl | ⟨rfl, h⟩
    · rfl
    · rw [Nat.mul_two, ← List.replicate_append_replicate, ← map_const_of fun a ha => (h a ha).1, ← map_const_of fun a ha => (h a ha).2]
      rfl
  have e3 : st.getD (List.replicate axes.length 1) = axes.map (·.stride) := by
    rcases h3 with rfl | ⟨rfl, h⟩
    · rfl
    · exact map_const_of h
  simp only [col2imConfig, Option.bind_some, Option.map_some, List.length_map, e1, e2, e3]

/-! ### The indices -/

/-- The place of element `k` of window `w` in the padded image. -/
def landing : List ColAxis → List Nat → List Nat → List Nat
  | a :: as, k :: ks, w :: ws => (w * a.stride + k * a.dil) :: landing as ks ws
  | _, _, _ => []

theorem colSum_one {p s f : Nat} : colSum (colTerms [p] [s] [f]) = some (Tensor.ofFn [s] fun i => ((i.getD 0 0 * f : Nat) : Int)) := by
  show colTerm 1 0 s (f * 1) = _
  unfold colTerm
  refine reshape_ofFn rfl fun i hi => ?_
  obtain ⟨x, rfl, hx⟩ := inRange1 hi
  exact ⟨[x], hi, rfl, by simp⟩

theorem colSum_two {p q s t f g : Nat} :
    colSum (colTerms [p, q] [s, t] [f, g]) = some (Tensor.ofFn [s, t] fun i => ((i.getD 0 0 * f * q + i.getD 1 0 * g : Nat) : Int)) := by
  show (colTerm 2 1 t (g * 1)).bind (fun a => (colTerm 2 0 s (f * (1 * q))).bind fun b => Burn.zip (· + ·) a b) = _
  have h1 : colTerm 2 1 t (g * 1) = some (Tensor.ofFn [1, t] fun i => ((i.getD 1 0 * g : Nat) : Int)) := by
    unfold colTerm
    refine reshape_ofFn (by simp [prodShape]) fun i hi => ?_
    obtain ⟨x, y, rfl, hx, hy⟩ := inRange2 (show InRange [1, t] i from hi)
    exact ⟨[y], by simpa [InRange] using hy, by simp [flatIdx, prodShape]; omega, by simp⟩
  have h2 : colTerm 2 0 s (f * (1 * q)) = some (Tensor.ofFn [s, 1] fun i => ((i.getD 0 0 * f * q : Nat) : Int)) := by
    unfold colTerm
    refine reshape_ofFn (by simp [prodShape]) fun i hi => ?_
    obtain ⟨x, y, rfl, hx, hy⟩ := inRange2 (show InRange [s, 1] i from hi)
    exact ⟨[x], by simpa [InRange] using hx, by simp [flatIdx, prodShape]; omega, by simp [mul_assoc]⟩
  rw [h1, h2]
  simp only [Option.bind_some, Burn.zip]
  refine (if_pos (by rfl)).trans ?_
  unfold Tensor.zipBcast
  have hb : bcast [1, t] [s, 1] = some [s, t] := by
    by_cases ht : t = 1 <;> by_cases hs : s = 1 <;> simp [bcast, bcastRev, ht, hs, eq_comm]
  show Option.map _ (bcast [1, t] [s, 1]) = _
  rw [hb]
  refine congrArg some (Tensor.ofFn_congr fun i hi => ?_)
  have r1 := proj_inRange hb hi
  obtain ⟨x, y, rfl, hx, hy⟩ := inRange2 hi
  show (Tensor.ofFn [1, t] _).get (proj [1, t] [x, y]) + (Tensor.ofFn [s, 1] _).get (proj [s, 1] [x, y]) = _
  have e1 : proj [1, t] [x, y] = [0, y] := by
    by_cases ht : t = 1 <;> simp [proj, projRev, ht]; omega
  have e2 : proj [s, 1] [x, y] = [x, 0] := by
    by_cases hs : s = 1 <;> simp [proj, projRev, hs]; omega
  rw [e1, e2, Tensor.get_ofFn (by simpa [InRange] using hy), Tensor.get_ofFn (by simpa [InRange] using hx)]
  simp [add_comm]

/-- From the two sums to the list of indices. -/
theorem colIndices_of {padded block dil counts st : List Nat} {b w : Tensor Int} (hb : colSum (colTerms padded block dil) = some b) (hbs : b.shape = block)
    (hw : colSum (colTerms padded counts st) = some w) (hws : w.shape = counts) :
    ∃ ix, colIndices padded block dil counts st = some ix ∧ ix.shape = [prodShape block * prodShape counts] ∧
      ∀ k l, InRange block k → InRange counts l → ix.get [flatIdx block k * prodShape counts + flatIdx counts l] = b.get k + w.get l := by
  unfold colIndices
  obtain ⟨b', hb'⟩ := Option.isSome_iff_exists.1 (Burn.reshape_isSome (t := b) (s := [prodShape block, 1]) |>.2 (by simp [prodShape, hbs]))
  obtain ⟨w', hw'⟩ := Option.isSome_iff_exists.1 (Burn.reshape_isSome (t := w) (s := [1, prodShape counts]) |>.2 (by simp [prodShape, hws]))
  have sb := (Burn.reshape_get (i := []) hb').1
  have sw := (Burn.reshape_get (i := []) hw').1
  have hbc : bcast [prodShape block, 1] [1, prodShape counts] = some [prodShape block, prodShape counts] := by
    generalize prodShape block = s
    generalize prodShape counts = t
    by_cases ht : t = 1 <;> by_cases hs : s = 1 <;> simp [bcast, bcastRev, ht, hs, eq_comm]
  have hz : Burn.zip (· + ·) b' w' = some (Tensor.ofFn [prodShape block, prodShape counts] fun i =>
      b'.get (proj b'.shape i) + w'.get (proj w'.shape i)) := by
    unfold Burn.zip Tensor.zipBcast
    rw [if_pos (by rw [sb, sw]; rfl), sb, sw, hbc]
    rfl
  rw [hb, Option.bind_some, hb', Option.bind_some, hw, Option.bind_some, hw', Option.bind_some, hz, Option.bind_some]
  obtain ⟨ix, hix⟩ := Option.isSome_iff_exists.1 (Burn.reshape_isSome
    (t := Tensor.ofFn [prodShape block, prodShape counts] fun i => b'.get (proj b'.shape i) + w'.get (proj w'.shape i))
    (s := [prodShape [prodShape block, prodShape counts]]) |>.2 (by simp [prodShape, Tensor.ofFn]))
  refine ⟨ix, hix, by rw [(Burn.reshape_get (i := []) hix).1]; simp [prodShape], ?_⟩
  intro k l hk hl
  have lk := flatIdx_lt hk
  have ll := flatIdx_lt hl
  have hr : InRange [prodShape block, prodShape counts] [flatIdx block k, flatIdx counts l] := by simp [InRange, lk, ll]
  rw [Burn.reshape_get_eq hix (j := [flatIdx block k, flatIdx counts l]) (by simp [flatIdx, prodShape, Tensor.ofFn]), Tensor.get_ofFn hr, sb, sw]
  have e1 : proj [prodShape block, 1] [flatIdx block k, flatIdx counts l] = [flatIdx block k, 0] := by
    by_cases hs : prodShape block = 1 <;> simp [proj, projRev, hs]; omega
  have e2 : proj [1, prodShape counts] [flatIdx block k, flatIdx counts l] = [0, flatIdx counts l] := by
    by_cases hs : prodShape counts = 1 <;> simp [proj, projRev, hs]; omega
  rw [e1, e2, Burn.reshape_get_eq hb' (j := k) (by simp [flatIdx, prodShape, hbs]), Burn.reshape_get_eq hw' (j := l) (by simp [flatIdx, prodShape, hws])]

/-! ### Sums -/

section

variable {α : Type} [Inhabited α] [AddCommMonoid α]

omit [Inhabited α] in
theorem sum_filter_map {β : Type} (l : List β) (P : β → Bool) (f : β → α) :
    ((l.filter P).map f).sum = (l.map fun x => if P x then f x else 0).sum := by
  induction l with
  | nil => rfl
  | cons x xs ih =>
    rw [List.filter_cons]
    by_cases h : P x <;> simp [h, ih]

omit [Inhabited α] in
theorem sum_map_flatMap {β γ : Type} (l : List β) (g : β → List γ) (f : γ → α) :
    ((l.flatMap g).map f).sum = (l.map fun x => ((g x).map f).sum).sum := by
  induction l with
  | nil => rfl
  | cons x xs ih => simp [ih]

omit [Inhabited α] in
theorem sum_range_single {N n : Nat} (hn : n < N) {f : Nat → α} (h : ∀ m, m ≠ n → f m = 0) : ((List.range N).map f).sum = f n := by
  induction N with
  | zero => omega
  | succ N ih =>
    rw [List.range_succ, List.map_append, List.sum_append]
    by_cases e : n = N
    · subst e
      have : ((List.range n).map f).sum = 0 := by
        refine List.sum_eq_zero fun x hx => ?_
        obtain ⟨m, hm, rfl⟩ := List.mem_map.1 hx
        exact h m (by have := List.mem_range.1 hm; omega)
      simp [this]
    · rw [ih (by omega)]
      simp [h N (Ne.symm e)]

omit [Inhabited α] in
theorem sum_range_mul (B L : Nat) (f : Nat → α) :
    ((List.range (B * L)).map f).sum = ((List.range B).map fun k => ((List.range L).map fun l => f (k * L + l)).sum).sum := by
  rw [← range_mul, sum_map_flatMap]
  simp only [List.map_map, Function.comp_def]

omit [Inhabited α] in
theorem sum_indices (s : List Nat) (f : Nat → α) : ((List.range (prodShape s)).map f).sum = ((indices s).map fun i => f (flatIdx s i)).sum := by
  rw [← map_flatIdx_indices, List.map_map]
  rfl

/-- What the scatter makes of the canvas. -/
theorem colCanvas {n c P : Nat} {block counts : List Nat} {X flat : Tensor α} {ix ixe : Tensor Int} {q : List Nat → List Nat → Nat}
    (hX : X.shape = [n, c * prodShape block, prodShape counts]) (hflat : Burn.reshape X [n, c, prodShape block * prodShape counts] = some flat)
    (hix : ix.shape = [prodShape block * prodShape counts])
    (hq : ∀ k l, InRange block k → InRange counts l → q k l < P ∧ ix.get [flatIdx block k * prodShape counts + flatIdx counts l] = (q k l : Nat))
    (he : ixe.shape = [n, c, prodShape block * prodShape counts])
    (hixe : ∀ a b t, InRange [n, c, prodShape block * prodShape counts] [a, b, t] → ixe.get [a, b, t] = ix.get [t]) :
    ∃ canvas, Burn.scatterAdd (Tensor.ofFn [n, c, P] fun _ => (0 : α)) 2 ixe flat = some canvas ∧ canvas.shape = [n, c, P] ∧
      ∀ a b p, InRange [n, c, P] [a, b, p] → canvas.get [a, b, p] =
        ((indices block).map fun k => ((indices counts).map fun w =>
          if q k w = p then X.get [a, b * prodShape block + flatIdx block k, flatIdx counts w] else 0).sum).sum := by
  have split : ∀ t < prodShape block * prodShape counts, ∃ k l, InRange block k ∧ InRange counts l ∧
      t = flatIdx block k * prodShape counts + flatIdx counts l := by
    intro t ht
    have hpos : 0 < prodShape counts := Nat.pos_of_ne_zero fun e => by rw [e] at ht; omega
    have h1 : t / prodShape counts < prodShape block := (Nat.div_lt_iff_lt_mul hpos).2 ht
    have h2 : t % prodShape counts < prodShape counts := Nat.mod_lt _ hpos
    rw [← List.mem_range, ← map_flatIdx_indices] at h1 h2
    obtain ⟨k, hk, ek⟩ := List.mem_map.1 h1
    obtain ⟨l, hl, el⟩ := List.mem_map.1 h2
    exact ⟨k, l, mem_indices.1 hk, mem_indices.1 hl, by rw [ek, el]; exact (Nat.div_add_mod' t _).symm⟩
  have sf := (Burn.reshape_get (i := []) hflat).1
  unfold Burn.scatterAdd
  rw [if_pos]
  swap
  · refine ⟨by simp [Tensor.ofFn], by rw [he, sf], ?_⟩
    intro j hj
    rw [he] at hj
    have hr := mem_indices.1 hj
    match j, hr with
    | [a, b, t], hr =>
      obtain ⟨r0, r1, r2, -⟩ := hr
      obtain ⟨k, l, hk, hl, rfl⟩ := split t r2
      obtain ⟨h1, h2⟩ := hq k l hk hl
      rw [hixe a b _ ⟨r0, r1, r2, trivial⟩, h2]
      refine ⟨by omega, mem_indices.2 ?_⟩
      show InRange [n, c, P] [a, b, _]
      exact ⟨r0, r1, by simpa using h1, trivial⟩
  refine ⟨_, rfl, rfl, ?_⟩
  intro a b p hr
  obtain ⟨r0, r1, r2, -⟩ := hr
  refine (Tensor.get_ofFn (show InRange [n, c, P] [a, b, p] from ⟨r0, r1, r2, trivial⟩)).trans ?_
  rw [Tensor.get_ofFn (show InRange [n, c, P] [a, b, p] from ⟨r0, r1, r2, trivial⟩), ← List.sum_eq_foldl, sum_filter_map, he]
  show (((List.range n).flatMap _).map _).sum = _
  rw [sum_map_flatMap, sum_range_single r0]
  swap
  · intro m hm
    rw [List.map_map]
    refine List.sum_eq_zero fun x hx => ?_
    obtain ⟨j, hj, rfl⟩ := List.mem_map.1 hx
    simp [hm]
  rw [List.map_map]
  show (((List.range c).flatMap _).map _).sum = _
  rw [sum_map_flatMap, sum_range_single r1]
  swap
  · intro m hm
    rw [List.map_map]
    refine List.sum_eq_zero fun x hx => ?_
    obtain ⟨j, hj, rfl⟩ := List.mem_map.1 hx
    simp [hm]
  rw [List.map_map]
  show (((List.range (prodShape block * prodShape counts)).flatMap fun t => [[t]]).map _).sum = _
  rw [sum_map_flatMap, sum_range_mul, sum_indices]
  refine congrArg List.sum (List.map_congr_left fun k hk => ?_)
  rw [sum_indices]
  refine congrArg List.sum (List.map_congr_left fun l hl => ?_)
  have hk := mem_indices.1 hk
  have hl := mem_indices.1 hl
  obtain ⟨h1, h2⟩ := hq k l hk hl
  have lk := flatIdx_lt hk
  have ll := flatIdx_lt hl
  have rt : flatIdx block k * prodShape counts + flatIdx counts l < prodShape block * prodShape counts := by
    have : (flatIdx block k + 1) * prodShape counts ≤ prodShape block * prodShape counts := Nat.mul_le_mul_right _ lk
    rw [Nat.succ_mul] at this
    omega
  have e := hixe a b _ (show InRange [n, c, _] [a, b, flatIdx block k * prodShape counts + flatIdx counts l] from ⟨r0, r1, rt, trivial⟩)
  rw [h2] at e
  have ef : flat.get [a, b, flatIdx block k * prodShape counts + flatIdx counts l] = X.get [a, b * prodShape block + flatIdx block k, flatIdx counts l] := by
    refine Burn.reshape_get_eq hflat ?_
    rw [hX]
    simp only [flatIdx, prodShape]
    ring
  simp [e, ef]

end

/-! ### Places -/

/-- The place in the padded image. -/
def shifted : List ColAxis → List Nat → List Nat
  | a :: as, p :: ps => (p + a.before) :: shifted as ps
  | _, _ => []

/-- The padded image. -/
def paddedDims (axes : List ColAxis) : List Nat := axes.map fun a => a.img + a.before + a.after

theorem landing_inRange : ∀ {axes : List ColAxis} {counts k w : List Nat}, List.Forall₂ Windows axes counts →
    InRange (axes.map (·.block)) k → InRange counts w → InRange (paddedDims axes) (landing axes k w)
  | [], _, k, w, .nil, hk, hw => by
    match k, w, hk, hw with
    | [], [], _, _ => trivial
  | a :: as, n :: ns, k, w, .cons h hs, hk, hw => by
    match k, w, hk, hw with
    | k :: ks, w :: ws, ⟨hk, hks⟩, ⟨hw, hws⟩ =>
      refine ⟨?_, landing_inRange hs hks hws⟩
      have h1 := (h.2 w).1 hw
      have hk : k < a.block := hk
      have h2 : k * a.dil ≤ a.dil * (a.block - 1) := by
        rw [Nat.mul_comm a.dil]
        exact Nat.mul_le_mul_right _ (by omega)
      show w * a.stride + k * a.dil < a.img + a.before + a.after
      omega

theorem shifted_inRange : ∀ {axes : List ColAxis} {p : List Nat}, InRange (axes.map (·.img)) p → InRange (paddedDims axes) (shifted axes p)
  | [], p, h => by
    match p, h with
    | [], _ => trivial
  | a :: as, p, h => by
    match p, h with
    | p :: ps, ⟨h1, h2⟩ =>
      refine ⟨?_, shifted_inRange h2⟩
      have h1 : p < a.img := h1
      show p + a.before < a.img + a.before + a.after
      omega

theorem landsOn_iff : ∀ {axes : List ColAxis} {counts k w p : List Nat}, List.Forall₂ Windows axes counts →
    InRange (axes.map (·.block)) k → InRange counts w → InRange (axes.map (·.img)) p → (LandsOn axes k w p = true ↔ landing axes k w = shifted axes p)
  | [], _, k, w, p, .nil, hk, hw, hp => by
    match k, w, p, hk, hw, hp with
    | [], [], [], _, _, _ => simp [LandsOn, landing, shifted]
  | a :: as, n :: ns, k, w, p, .cons h hs, hk, hw, hp => by
    match k, w, p, hk, hw, hp with
    | k :: ks, w :: ws, p :: ps, ⟨_, hks⟩, ⟨_, hws⟩, ⟨_, hps⟩ =>
      have ih := landsOn_iff hs hks hws hps
      simp only [LandsOn, landing, shifted, Bool.and_eq_true, beq_iff_eq, List.cons.injEq, ih]

section

variable {α : Type} [Inhabited α] [AddCommMonoid α]

/-- The code after the indices have been computed. -/
theorem col2im_of {dt : DType} {axes : List ColAxis} {counts : List Nat} {X : Tensor α} {n c : Nat} {ix : Tensor Int} (hf : dt.kind = .float)
    (hr : axes.length = 1 ∨ axes.length = 2) (hb : ∀ a ∈ axes, 0 < a.block) (hw : List.Forall₂ Windows axes counts)
    (hX : X.shape = [n, c * prodShape (axes.map (·.block)), prodShape counts])
    (hcounts : colCounts ⟨axes.map (·.img), axes.map (·.block), axes.map (·.dil), axes.map (·.before) ++ axes.map (·.after), axes.map (·.stride)⟩ = some counts)
    (hp : ((List.range (axes.map (·.img)).length).map fun i => (axes.map (·.img)).getD i 0 + (axes.map (·.before) ++ axes.map (·.after)).getD i 0 +
      (axes.map (·.before) ++ axes.map (·.after)).getD ((axes.map (·.img)).length + i) 0) = paddedDims axes)
    (hs : ((List.range (axes.map (·.img)).length).map fun i => ((axes.map (·.before) ++ axes.map (·.after)).getD i 0,
      (axes.map (·.before) ++ axes.map (·.after)).getD i 0 + (axes.map (·.img)).getD i 0)) = axes.map fun a => (a.before, a.before + a.img))
    (hix : colIndices (paddedDims axes) (axes.map (·.block)) (axes.map (·.dil)) counts (axes.map (·.stride)) = some ix)
    (hixs : ix.shape = [prodShape (axes.map (·.block)) * prodShape counts])
    (hixv : ∀ k l, InRange (axes.map (·.block)) k → InRange counts l →
      ix.get [flatIdx (axes.map (·.block)) k * prodShape counts + flatIdx counts l] = (flatIdx (paddedDims axes) (landing axes k l) : Nat)) :
    ∃ Y, col2im dt ⟨axes.map (·.img), axes.map (·.block), axes.map (·.dil), axes.map (·.before) ++ axes.map (·.after), axes.map (·.stride)⟩ X = some Y ∧
      Col2ImT axes counts X Y := by
  have hbp : 0 < prodShape (axes.map (·.block)) := by
    clear hr hX hcounts hp hs hix hixs hixv hw
    induction axes with
    | nil => simp [prodShape]
    | cons a as ih =>
      exact Nat.mul_pos (hb a List.mem_cons_self) (ih fun b h => hb b (List.mem_cons_of_mem _ h))
  obtain ⟨flat, hflat⟩ := Option.isSome_iff_exists.1 (Burn.reshape_isSome (t := X) (s := [n, c, prodShape (axes.map (·.block)) * prodShape counts]) |>.2
    (by rw [hX]; simp [prodShape, Nat.mul_assoc]))
  obtain ⟨ix1, hix1⟩ := Option.isSome_iff_exists.1 (Burn.reshape_isSome (t := ix) (s := [1, 1, prodShape ix.shape]) |>.2 (by simp [prodShape]))
  have s1 := (Burn.reshape_get (i := []) hix1).1
  generalize hT : prodShape (axes.map (·.block)) * prodShape counts = T at *
  have sT : ix1.shape = [1, 1, T] := by rw [s1, hixs]; simp [prodShape]
  have hbc : bcast [1, 1, T] [n, c, T] = some [n, c, T] := by
    by_cases h1 : n = 1
    · subst h1
      by_cases h2 : c = 1
      · subst h2; simp [bcast, bcastRev]
      · simp [bcast, bcastRev, Ne.symm h2]
    · by_cases h2 : c = 1
      · subst h2; simp [bcast, bcastRev, Ne.symm h1]
      · simp [bcast, bcastRev, Ne.symm h1, Ne.symm h2]
  have hexp : Burn.expand ix1 [n, c, T] = some (Tensor.ofFn [n, c, T] fun i => ix1.get (proj ix1.shape i)) := by
    unfold Burn.expand
    rw [sT, if_pos hbc]
  obtain ⟨canvas, hcanvas, cs, cv⟩ := colCanvas (n := n) (c := c) (P := prodShape (paddedDims axes)) (block := axes.map (·.block)) (counts := counts)
    (X := X) (flat := flat) (ix := ix) (ixe := Tensor.ofFn [n, c, T] fun i => ix1.get (proj ix1.shape i))
    (q := fun k l => flatIdx (paddedDims axes) (landing axes k l)) hX (by rw [hT]; exact hflat) (by rw [hT]; exact hixs)
    (fun k l hk hl => ⟨flatIdx_lt (landing_inRange hw hk hl), hixv k l hk hl⟩) (by rw [hT]; rfl)
    (by
      intro a b t hr
      rw [hT] at hr
      rw [Tensor.get_ofFn hr, sT]
      refine Burn.reshape_get_eq hix1 ?_
      obtain ⟨_, _, h2, -⟩ := hr
      have e : proj [1, 1, T] [a, b, t] = [0, 0, t] := by
        by_cases h1 : T = 1
        · subst h1
          obtain rfl : t = 0 := by omega
          rfl
        · simp [proj, projRev, h1]
      rw [e, hixs]
      simp [flatIdx, prodShape])
  obtain ⟨pic, hpic⟩ := Option.isSome_iff_exists.1 (Burn.reshape_isSome (t := canvas) (s := n :: c :: paddedDims axes) |>.2
    (by rw [cs]; simp [prodShape]))
  have ps := (Burn.reshape_get (i := []) hpic).1
  have pv : ∀ a b p, a < n → b < c → InRange (axes.map (·.img)) p → pic.get (a :: b :: shifted axes p) =
      ((indices (axes.map (·.block))).map fun k => ((indices counts).map fun w =>
        if LandsOn axes k w p then X.get [a, b * prodShape (axes.map (·.block)) + flatIdx (axes.map (·.block)) k, flatIdx counts w] else 0).sum).sum := by
    intro a b p ha hb' hpr
    have hsr := shifted_inRange hpr
    rw [Burn.reshape_get_eq hpic (j := [a, b, flatIdx (paddedDims axes) (shifted axes p)]) (by rw [cs]; simp [flatIdx, prodShape]),
      cv a b _ ⟨ha, hb', flatIdx_lt hsr, trivial⟩]
    refine congrArg List.sum (List.map_congr_left fun k hk => congrArg List.sum (List.map_congr_left fun w hw' => ?_))
    have hk := mem_indices.1 hk
    have hw' := mem_indices.1 hw'
    have e : flatIdx (paddedDims axes) (landing axes k w) = flatIdx (paddedDims axes) (shifted axes p) ↔ LandsOn axes k w p = true := by
      rw [landsOn_iff hw hk hw' hpr]
      exact ⟨fun h => flatIdx_inj (landing_inRange hw hk hw') hsr h, fun h => by rw [h]⟩
    by_cases hl : LandsOn axes k w p = true
    · rw [if_pos (e.2 hl), if_pos hl]
    · rw [if_neg (fun h => hl (e.1 h)), if_neg hl]
  have main : col2im dt ⟨axes.map (·.img), axes.map (·.block), axes.map (·.dil), axes.map (·.before) ++ axes.map (·.after), axes.map (·.stride)⟩ X =
      if (axes.map (·.before) ++ axes.map (·.after)).any (· ≠ 0) then
        Burn.sliceBox pic ((0, n) :: (0, c) :: axes.map fun a => (a.before, a.before + a.img)) else some pic := by
    unfold col2im
    rw [if_neg (by
      rintro (h | h | h)
      · exact h hf
      · simp only [List.length_map] at h; omega
      · simp only [List.length_map] at h; omega), hX]
    simp only [hcounts, Option.bind_some, Nat.mul_div_cancel _ hbp, hT, hp, hs, hflat, hix, hix1, hexp, hcanvas, hpic]
  rw [main]
  by_cases hany : (axes.map (·.before) ++ axes.map (·.after)).any (· ≠ 0) = true
  · rw [if_pos hany, sliceBox_ofFn (by rw [ps]; simp [paddedDims])]
    swap
    · intro k hk hks
      rw [ps] at hks
      simp only [ps]
      match k, hk, hks with
      | 0, _, _ => simp
      | 1, _, _ => simp
      | k + 2, hk, hks =>
        simp only [List.getElem_cons_succ, paddedDims, List.getElem_map]
        omega
    refine ⟨_, rfl, hw, ⟨n, c, hX, ?_⟩, ?_⟩
    · simp [Tensor.ofFn, Function.comp_def]
    · intro a b p hrr
      have hrr' : InRange (n :: c :: axes.map (·.img)) (a :: b :: p) := by
        simpa [Tensor.ofFn, Function.comp_def] using hrr
      obtain ⟨h1, h2, h3⟩ := hrr'
      refine (Tensor.get_ofFn hrr).trans ?_
      have e : List.zipWith (fun (r : Nat × Nat) k => r.1 + k) ((0, n) :: (0, c) :: axes.map fun a => (a.before, a.before + a.img)) (a :: b :: p) =
          a :: b :: shifted axes p := by
        have : ∀ (axes : List ColAxis) (p : List Nat), InRange (axes.map (·.img)) p →
            List.zipWith (fun (r : Nat × Nat) k => r.1 + k) (axes.map fun a => (a.before, a.before + a.img)) p = shifted axes p := by
          intro axes
          induction axes with
          | nil => intro p hp; cases p <;> simp [shifted]
          | cons x xs ih =>
            intro p hp
            match p, hp with
            | p :: ps, ⟨_, h⟩ =>
              show (x.before + p) :: List.zipWith _ (xs.map _) ps = (p + x.before) :: shifted xs ps
              rw [ih ps h, Nat.add_comm]
        simp [this axes p h3]
      rw [e]
      exact pv a b p h1 h2 h3
  · rw [if_neg hany]
    have hz : ∀ a ∈ axes, a.before = 0 ∧ a.after = 0 := by
      intro a ha
      simp only [List.any_eq_true, not_exists, not_and, List.mem_append, List.mem_map] at hany
      have h1 := hany a.before (.inl ⟨a, ha, rfl⟩)
      have h2 := hany a.after (.inr ⟨a, ha, rfl⟩)
      simpa using And.intro h1 h2
    have hpd : paddedDims axes = axes.map (·.img) := by
      unfold paddedDims
      refine List.map_congr_left fun a ha => ?_
      rw [(hz a ha).1, (hz a ha).2]
      rfl
    refine ⟨pic, rfl, hw, ⟨n, c, hX, by rw [ps, hpd]⟩, ?_⟩
    intro a b p hrr
    rw [ps, hpd] at hrr
    obtain ⟨h1, h2, h3⟩ := hrr
    have hsh : shifted axes p = p := by
      have : ∀ (axes : List ColAxis) (p : List Nat), (∀ a ∈ axes, a.before = 0 ∧ a.after = 0) → InRange (axes.map (·.img)) p → shifted axes p = p := by
        intro axes
        induction axes with
        | nil =>
          intro p _ hp
          match p, hp with
          | [], _ => rfl
        | cons x xs ih =>
          intro p hz hp
          match p, hp with
          | p :: ps, ⟨_, h⟩ =>
            show (p + x.before) :: shifted xs ps = p :: ps
            rw [ih ps (fun a ha => hz a (List.mem_cons_of_mem _ ha)) h, (hz x List.mem_cons_self).1, Nat.add_zero]
      exact this axes p hz h3
    have := pv a b p h1 h2 h3
    rwa [hsh] at this

/-- C73: Col2Im for one and two spatial dimensions. -/
theorem C73_col2im_partial {dt : DType} (hf : dt.kind = .float) {axes : List ColAxis} (hr : axes.length = 1 ∨ axes.length = 2) (hb : ∀ a ∈ axes, 0 < a.block)
    {image block dilations pads strides : Option (List Nat)} (hd : Describes axes image block dilations pads strides) {counts : List Nat}
    (hw : List.Forall₂ Windows axes counts) {X : Tensor α} {n c : Nat} (hX : X.shape = [n, c * prodShape (axes.map (·.block)), prodShape counts]) :
    ∃ Y, genCol2Im dt image block dilations pads strides X = some Y ∧ Col2ImT axes counts X Y := by
  unfold genCol2Im
  rw [hd.config, Option.bind_some]
  clear hd
  match axes, counts, hr, hw with
  | [a], [m], hr, .cons h1 .nil =>
    have q1 := colCount_of h1 (hb a (by simp))
    obtain ⟨ix, i1, i2, i3⟩ := colIndices_of (padded := [a.img + a.before + a.after]) (block := [a.block]) (dil := [a.dil]) (counts := [m]) (st := [a.stride])
      colSum_one rfl colSum_one rfl
    refine col2im_of hf hr hb (.cons h1 .nil) hX ?_ rfl rfl i1 i2 ?_
    · simp [colCounts, q1, List.range_succ]
    · intro k l hk hl
      have hk : InRange [a.block] k := hk
      rw [show [a].map (·.block) = [a.block] from rfl, i3 k l hk hl, Tensor.get_ofFn hk, Tensor.get_ofFn hl]
      obtain ⟨k, rfl, _⟩ := inRange1 hk
      obtain ⟨l, rfl, _⟩ := inRange1 hl
      simp [landing, flatIdx, prodShape, paddedDims]
      ring
  | [a, b], [m, m'], hr, .cons h1 (.cons h2 .nil) =>
    have q1 := colCount_of h1 (hb a (by simp))
    have q2 := colCount_of h2 (hb b (by simp))
    obtain ⟨ix, i1, i2, i3⟩ := colIndices_of (padded := [a.img + a.before + a.after, b.img + b.before + b.after]) (block := [a.block, b.block])
      (dil := [a.dil, b.dil]) (counts := [m, m']) (st := [a.stride, b.stride]) colSum_two rfl colSum_two rfl
    refine col2im_of hf hr hb (.cons h1 (.cons h2 .nil)) hX ?_ rfl rfl i1 i2 ?_
    · simp [colCounts, q1, q2, List.range_succ]
    · intro k l hk hl
      have hk : InRange [a.block, b.block] k := hk
      rw [show [a, b].map (·.block) = [a.block, b.block] from rfl, i3 k l hk hl, Tensor.get_ofFn hk, Tensor.get_ofFn hl]
      obtain ⟨k, k', rfl, _, _⟩ := inRange2 hk
      obtain ⟨l, l', rfl, _, _⟩ := inRange2 hl
      simp [landing, flatIdx, prodShape, paddedDims]
      ring

end

/-- A 3 × 3 image from blocks of 2 × 2 at four positions, with a row of padding above: the code's result. -/
example : genCol2Im (α := Int) .f32 (some [2, 3]) (some [2, 2]) none (some [1, 0, 0, 0]) none
    ⟨[1, 4, 4], [1, 2, 3, 4, 5, 6, 7, 8, 9, 10, 11, 12, 13, 14, 15, 16], rfl⟩ = some ⟨[1, 1, 2, 3], [12, 34, 22, 11, 27, 16], rfl⟩ := by decide +kernel

/-- The hypotheses of `C73_col2im_partial` hold for it. -/
example : Describes [{ img := 2, block := 2, before := 1 }, { img := 3, block := 2 }] (some [2, 3]) (some [2, 2]) none (some [1, 0, 0, 0]) none ∧
    List.Forall₂ Windows [{ img := 2, block := 2, before := 1 }, { img := 3, block := 2 }] [2, 2] := by
  refine ⟨⟨rfl, rfl, .inr ⟨rfl, by simp⟩, .inl rfl, .inr ⟨rfl, by simp⟩⟩, .cons ⟨by decide, fun w => ?_⟩ (.cons ⟨by decide, fun w => ?_⟩ .nil)⟩ <;> simp <;> omega

/-! ### What is refused or fails -/

variable {α : Type} [Inhabited α] [AddCommMonoid α]

/-- C73: tensors of integers and Booleans are accepted, but the code does not compile. -/
theorem C73_int_fails {dt : DType} (h : dt.kind ≠ .float) (image block dilations pads strides : Option (List Nat)) (x : Tensor α) :
    genCol2Im dt image block dilations pads strides x = none := by
  unfold genCol2Im col2im
  simp [h]

/-- C73: three and more spatial dimensions are refused. -/
theorem C73_three_dims_refused (dt : DType) {im : List Nat} (h : 2 < im.length) (block dilations pads strides : Option (List Nat)) (x : Tensor α) :
    genCol2Im dt (some im) block dilations pads strides x = none := by
  unfold genCol2Im col2imConfig
  cases block with
  | none => rfl
  | some bl => simp only [Option.bind_some, Option.map_some, col2im]; rw [if_pos (.inr (.inr h))]

/-- C73: image and block shapes computed at run time are refused. -/
theorem C73_dynamic_refused (dt : DType) (image block dilations pads strides : Option (List Nat)) (x : Tensor α) (h : image = none ∨ block = none) :
    genCol2Im dt image block dilations pads strides x = none := by
  unfold genCol2Im col2imConfig
  rcases h with rfl | rfl <;> simp

end OnnxIR
