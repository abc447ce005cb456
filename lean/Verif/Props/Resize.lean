import Verif.Model.Resize
import Verif.Lemmas.Box
import Mathlib.Tactic.Linarith
import Mathlib.Tactic.FieldSimp
import Mathlib.Tactic.Ring
import Mathlib.Tactic.NormNum
import Mathlib.Algebra.Order.Floor.Semiring

/-!
# C70: Resize
-/

namespace OnnxIR

open Gen

/-- The attributes that are accepted. -/
structure ResizeAttrs.Accepted (a : ResizeAttrs) : Prop where
  antialias : a.antialias.getD 0 = 0
  axes : a.axes = none
  excludeOutside : a.excludeOutside.getD 0 = 0
  extrapolation : a.extrapolation.getD 0 = 0
  stretch : a.stretch = true

/-- An input left out, or given as a constant without elements (as exporters do for the one that is not used). -/
def NotGiven {β : Type} (u : Option (ResizeInput β)) : Prop := u = none ∨ u = some (.const [])

/-- What the inputs of the node ask for: a scale and a length for each axis, in one of the forms the node accepts for the rank of its
input. -/
inductive ResizeTarget (ds : List Nat) : Option (ResizeInput ℚ) → Option (ResizeInput Int) → List ℚ → List Nat → Prop
  | scales {u} (ss : List ℚ) (hl : ss.length = ds.length) (hu : NotGiven u) : ResizeTarget ds (some (.const ss)) u ss (Onnx.resizeDims ss ds)
  | sizes {u} (es : List Nat) (hl : es.length = ds.length) (hu : NotGiven u) :
      ResizeTarget ds u (some (.const (es.map Int.ofNat))) (Onnx.resizeScales es ds) es
  | scalesT {u} (ss : List ℚ) (hl : ss.length = ds.length) (h4 : ds.length = 4) (hu : NotGiven u) :
      ResizeTarget ds (some (.tensor ss)) u ss (Onnx.resizeDims ss ds)
  | sizesT {u} (es : List Nat) (hl : es.length = ds.length) (h4 : ds.length = 4) (hu : NotGiven u) :
      ResizeTarget ds u (some (.tensor (es.map Int.ofNat))) (Onnx.resizeScales es ds) es
  | sizesS {u} (es : List Nat) (hl : es.length = ds.length) (h4 : ds.length = 4) (hu : NotGiven u) :
      ResizeTarget ds u (some (.shape (es.map Int.ofNat))) (Onnx.resizeScales es ds) es

theorem NotGiven.extract {β : Type} {ofInt : Int → β} {rank : Nat} {u : Option (ResizeInput β)} (h : NotGiven u) :
    ResizeInput.extract ofInt rank u = some none := by
  rcases h with rfl | rfl <;> rfl

theorem resizeConfig_eq {a : ResizeAttrs} {rank : Nat} {sc : Option (ResizeInput ℚ)} {sz : Option (ResizeInput Int)} {m : ResizeMode}
    {x : Option (ResizeArg ℚ)} {y : Option (ResizeArg Int)} (ha : a.Accepted) (hm : a.mode = some m)
    (hx : ResizeInput.extract (fun n => (n : ℚ)) rank sc = some x) (hy : ResizeInput.extract id rank sz = some y) (h : ¬(x.isNone ∧ y.isNone)) :
    resizeConfig a rank [] sc sz = some ⟨m, a.coord.getD .halfPixel = .alignCorners, x, y⟩ := by
  unfold resizeConfig
  rw [if_neg (by simp [ha.antialias, ha.axes, ha.excludeOutside, ha.extrapolation, ha.stretch]), hx, Option.bind_some, hy, Option.bind_some, hm,
    Option.bind_some, if_neg h]

theorem resize4 {f : Burn.Interp} {a : ResizeAttrs} {m : ResizeMode} {x : Tensor ℚ} {n c h w : Nat} {sc : Option (ResizeInput ℚ)}
    {sz : Option (ResizeInput Int)} {ss : List ℚ} {es : List Nat} (hx : x.shape = [n, c, h, w]) (ha : a.Accepted) (hm : a.mode = some m)
    (ht : ResizeTarget x.shape sc sz ss es) :
    ∃ n' c' oh ow, es = [n', c', oh, ow] ∧ genResize f a [] sc sz x = f m (a.coord.getD .halfPixel = .alignCorners) oh ow x := by
  rw [hx] at ht
  unfold genResize
  rw [hx]
  have four : ∀ {β : Type} (l : List β), l.length = [n, c, h, w].length → ∃ p q r s, l = [p, q, r, s] := by
    intro β l hl
    match l, hl with
    | [p, q, r, s], _ => exact ⟨p, q, r, s, rfl⟩
  cases ht with
  | scales ss hl hu =>
    obtain ⟨p, q, r, s, rfl⟩ := four ss hl
    refine ⟨_, _, _, _, rfl, ?_⟩
    rw [resizeConfig_eq (x := some (.static [r, s])) (y := none) ha hm rfl hu.extract (by simp), Option.bind_some]
    simp only [resize, hx, Option.bind_some]
    rfl
  | sizes es hl hu =>
    obtain ⟨p, q, r, s, rfl⟩ := four es hl
    refine ⟨_, _, _, _, rfl, ?_⟩
    rw [resizeConfig_eq (x := none) (y := some (.static [Int.ofNat r, Int.ofNat s])) ha hm hu.extract rfl (by simp), Option.bind_some]
    simp only [resize, hx, Option.bind_some]
    rfl
  | scalesT ss hl h4 hu =>
    obtain ⟨p, q, r, s, rfl⟩ := four ss hl
    refine ⟨_, _, _, _, rfl, ?_⟩
    rw [resizeConfig_eq (x := some (.runtime [p, q, r, s])) (y := none) ha hm rfl hu.extract (by simp), Option.bind_some]
    simp only [resize, hx]
    rfl
  | sizesT es hl h4 hu =>
    obtain ⟨p, q, r, s, rfl⟩ := four es hl
    refine ⟨_, _, _, _, rfl, ?_⟩
    rw [resizeConfig_eq (x := none) (y := some (.runtime [Int.ofNat p, Int.ofNat q, Int.ofNat r, Int.ofNat s])) ha hm hu.extract rfl (by simp),
      Option.bind_some]
    simp only [resize, hx]
    rfl
  | sizesS es hl h4 hu =>
    obtain ⟨p, q, r, s, rfl⟩ := four es hl
    refine ⟨_, _, _, _, rfl, ?_⟩
    rw [resizeConfig_eq (x := none) (y := some (.runtime [Int.ofNat p, Int.ofNat q, Int.ofNat r, Int.ofNat s])) ha hm hu.extract rfl (by simp),
      Option.bind_some]
    simp only [resize, hx]
    rfl

/-- The input of rank 3 with a dimension of length 1 before the last. -/
def withRow (x : Tensor ℚ) (n c l : Nat) (hx : x.shape = [n, c, l]) : Tensor ℚ :=
  ⟨[n, c, 1, l], x.data, by rw [x.size, hx]; simp [prodShape]⟩

theorem resize3 {f : Burn.Interp} {a : ResizeAttrs} {m : ResizeMode} {x : Tensor ℚ} {n c l : Nat} {sc : Option (ResizeInput ℚ)}
    {sz : Option (ResizeInput Int)} {ss : List ℚ} {es : List Nat} (hx : x.shape = [n, c, l]) (ha : a.Accepted) (hm : a.mode = some m)
    (ht : ResizeTarget x.shape sc sz ss es) :
    ∃ n' c' ol, es = [n', c', ol] ∧ genResize f a [] sc sz x =
      (f m (a.coord.getD .halfPixel = .alignCorners) 1 ol (withRow x n c l hx)).bind fun v =>
        if v.shape.getD 2 0 = 1 then Burn.reshape v (v.shape.eraseIdx 2) else none := by
  have hr : Burn.reshape x [n, c, 1, l] = some (withRow x n c l hx) := dif_pos (by rw [hx]; simp [prodShape])
  rw [hx] at ht
  unfold genResize
  rw [hx]
  have three : ∀ {β : Type} (k : List β), k.length = [n, c, l].length → ∃ p q r, k = [p, q, r] := by
    intro β k hl
    match k, hl with
    | [p, q, r], _ => exact ⟨p, q, r, rfl⟩
  cases ht with
  | scales ss hl hu =>
    obtain ⟨p, q, r, rfl⟩ := three ss hl
    refine ⟨_, _, _, rfl, ?_⟩
    rw [resizeConfig_eq (x := some (.static [r])) (y := none) ha hm rfl hu.extract (by simp), Option.bind_some]
    simp only [resize, hx, Option.bind_some, hr]
    rfl
  | sizes es hl hu =>
    obtain ⟨p, q, r, rfl⟩ := three es hl
    refine ⟨_, _, _, rfl, ?_⟩
    rw [resizeConfig_eq (x := none) (y := some (.static [Int.ofNat r])) ha hm hu.extract rfl (by simp), Option.bind_some]
    simp only [resize, hx, Option.bind_some, hr]
    rfl
  | scalesT ss hl h4 hu => cases h4
  | sizesT es hl h4 hu => cases h4
  | sizesS es hl h4 hu => cases h4

/-- The axes on which nearest neighbours are right: the length of the output is the length of the input times the scale, and either
coordinates are asymmetric and rounded down, or coordinates are those of pixel centres, rounded to the nearest, and the scale is
an integer. -/
structure NearestAxis (c : CoordMode) (n : NearestMode) (s : ℚ) (d e : Nat) : Prop where
  pos : 0 < e
  exact : s * d = e
  modes : c = .asymmetric ∧ n = .floor ∨
    (c = .halfPixel ∨ c = .pytorchHalfPixel) ∧ (n = .roundPreferFloor ∨ n = .roundPreferCeil) ∧ ∃ k, e = k * d

theorem NearestAxis.pos' {c : CoordMode} {n : NearestMode} {s : ℚ} {d e : Nat} (h : NearestAxis c n s d e) : 0 < d := by
  rcases Nat.eq_zero_or_pos d with rfl | hd
  · have := h.exact
    have hp := h.pos
    have he : (e : ℚ) = 0 := by rw [← h.exact]; simp
    have : e = 0 := by exact_mod_cast he
    omega
  · exact hd

theorem floor_div (a b : Nat) : ⌊(a : ℚ) / b⌋ = ((a / b : Nat) : Int) := by
  rw [Rat.floor_natCast_div_natCast]
  rfl

theorem NearestAxis.idx {c : CoordMode} {n : NearestMode} {s : ℚ} {d e : Nat} (h : NearestAxis c n s d e) {o : Nat} (ho : o < e) :
    Onnx.border d (Onnx.nearestInt n (Onnx.coord c s d e o)) = o * d / e := by
  have hd := h.pos'
  have hd0 : (d : ℚ) ≠ 0 := by positivity
  have he0 : (e : ℚ) ≠ 0 := by have := h.pos; positivity
  have hs : s = e / d := by rw [← h.exact]; field_simp
  have hlt : o * d / e < d := by
    rw [Nat.div_lt_iff_lt_mul h.pos, Nat.mul_comm]
    exact Nat.mul_lt_mul_of_pos_left ho hd
  suffices hh : Onnx.nearestInt n (Onnx.coord c s d e o) = ((o * d / e : Nat) : Int) by
    rw [hh]
    unfold Onnx.border
    simp only [Int.toNat_natCast]
    omega
  rcases h.modes with ⟨rfl, rfl⟩ | ⟨hc, hn, k, rfl⟩
  · show ⌊(o : ℚ) / s⌋ = _
    rw [← floor_div, hs]
    congr 1
    push_cast
    field_simp
  · have hk : 0 < k := Nat.pos_of_mul_pos_right h.pos
    have hk0 : (k : ℚ) ≠ 0 := by positivity
    have hs' : s = k := by rw [hs]; push_cast; field_simp
    have hq : o * d / (k * d) = o / k := Nat.mul_div_mul_right _ _ hd
    rw [hq]
    have hc' : Onnx.coord c s d (k * d) o = (o + 1 / 2) / k - 1 / 2 := by
      rcases hc with rfl | rfl
      · show ((o : ℚ) + 1 / 2) / s - 1 / 2 = _
        rw [hs']
      · show (if 1 < k * d then ((o : ℚ) + 1 / 2) / s - 1 / 2 else 0) = _
        split
        · rw [hs']
        · have h1 : k * d = 1 := by have := h.pos; omega
          have h2 : k = 1 := Nat.eq_one_of_mul_eq_one_right h1
          subst h2
          have : o = 0 := by omega
          subst this
          norm_num
    have hdm := Nat.div_add_mod o k
    have hmod := Nat.mod_lt o hk
    have e1 : ((o : ℚ) + 1 / 2) / k = (o / k : Nat) + ((o % k : Nat) + 1 / 2) / k := by
      field_simp
      have : (o : ℚ) = k * (o / k : Nat) + (o % k : Nat) := by exact_mod_cast hdm.symm
      rw [this]
      ring
    have p1 : (0 : ℚ) < ((o % k : Nat) + 1 / 2) / k := by positivity
    have p2 : ((o % k : Nat) + 1 / 2 : ℚ) / k < 1 := by
      rw [div_lt_one (by positivity)]
      have : ((o % k : Nat) : ℚ) + 1 ≤ k := by exact_mod_cast hmod
      linarith
    rw [hc', e1]
    generalize o / k = q at *
    generalize ((o % k : Nat) + 1 / 2 : ℚ) / k = r at *
    rcases hn with rfl | rfl
    · show ⌈_⌉ = _
      rw [Int.ceil_eq_iff]
      push_cast
      constructor <;> linarith
    · show ⌊_⌋ = _
      rw [Int.floor_eq_iff]
      push_cast
      constructor <;> linarith

/-- A condition on the scale and the lengths of every axis. -/
inductive Axes (P : ℚ → Nat → Nat → Prop) : List ℚ → List Nat → List Nat → Prop
  | nil : Axes P [] [] []
  | cons {s : ℚ} {ss : List ℚ} {d e : Nat} {ds es : List Nat} : P s d e → Axes P ss ds es → Axes P (s :: ss) (d :: ds) (e :: es)

theorem withRow_get {x : Tensor ℚ} {n c l : Nat} (hx : x.shape = [n, c, l]) (i j k : Nat) :
    (withRow x n c l hx).get [i, j, 0, k] = x.get [i, j, k] := by
  unfold Tensor.get withRow
  simp only [hx]
  congr 1
  simp [flatIdx, prodShape]

theorem dropRow {n c ol : Nat} {g : List Nat → ℚ} :
    Burn.reshape (Tensor.ofFn [n, c, 1, ol] g) [n, c, ol] = some (Tensor.ofFn [n, c, ol] fun i => g [i.getD 0 0, i.getD 1 0, 0, i.getD 2 0]) := by
  have hp : prodShape [n, c, ol] = prodShape (Tensor.ofFn [n, c, 1, ol] g).shape := by simp [Tensor.ofFn, prodShape]
  rw [show Burn.reshape (Tensor.ofFn [n, c, 1, ol] g) [n, c, ol] = some ⟨[n, c, ol], (Tensor.ofFn [n, c, 1, ol] g).data, by
    rw [(Tensor.ofFn [n, c, 1, ol] g).size, hp]⟩ from dif_pos hp]
  congr 1
  refine Tensor.eq_of_get (by rfl) ?_
  intro i hi
  rw [Tensor.get_ofFn hi]
  match i, hi with
  | [p, q, r], hi =>
    have h4 : InRange [n, c, 1, ol] [p, q, 0, r] := ⟨hi.1, hi.2.1, by omega, hi.2.2⟩
    have := Tensor.get_ofFn (f := g) h4
    rw [show g [[p, q, r].getD 0 0, [p, q, r].getD 1 0, 0, [p, q, r].getD 2 0] = g [p, q, 0, r] from rfl, ← this]
    unfold Tensor.get
    congr 1
    simp [flatIdx, prodShape, Tensor.ofFn]

/-- Resize in mode `nearest` for inputs of rank 3 and 4 whose batch and channels are kept, when Burn picks the neighbour of the coordinate
`o · d / e` rounded down: ONNX's value, for coordinates that are asymmetric and rounded down, or for the default coordinates and
an integer scale. -/
theorem C70_nearest_partial {f : Burn.Interp} (hf : f.NearestFloor) {a : ResizeAttrs} {x : Tensor ℚ} {sc : Option (ResizeInput ℚ)}
    {sz : Option (ResizeInput Int)} {ss : List ℚ} {es : List Nat} (ha : a.Accepted) (hm : a.mode = some .nearest)
    (hr : x.shape.length = 3 ∨ x.shape.length = 4) (ht : ResizeTarget x.shape sc sz ss es) (hk : es.take 2 = x.shape.take 2)
    (hax : Axes (NearestAxis (a.coord.getD .halfPixel) (a.nearest.getD .roundPreferFloor)) ss x.shape es) :
    genResize f a [] sc sz x = some (Onnx.resizeNearest (a.coord.getD .halfPixel) (a.nearest.getD .roundPreferFloor) ss es x) := by
  generalize hc : a.coord.getD .halfPixel = c at *
  generalize a.nearest.getD .roundPreferFloor = nm at *
  have hal : ∀ {s : ℚ} {d e : Nat}, NearestAxis c nm s d e → (decide (c = .alignCorners)) = false := by
    intro s d e h
    rcases h.modes with ⟨rfl, _⟩ | ⟨rfl | rfl, _⟩ <;> rfl
  rcases hr with h3 | h4
  · obtain ⟨n, ch, l, hx⟩ : ∃ n ch l, x.shape = [n, ch, l] := by
      match hs : x.shape, h3 with
      | [p, q, r], _ => exact ⟨p, q, r, rfl⟩
    obtain ⟨n', c', ol, rfl, hg⟩ := resize3 (f := f) hx ha hm ht
    rw [hg, hc]
    rw [hx] at hk hax
    obtain ⟨rfl, rfl⟩ : n' = n ∧ c' = ch := by simpa using hk
    obtain _ | @⟨s1, _, _, _, _, _, a1, _ | @⟨s2, _, _, _, _, _, a2, _ | @⟨s3, _, _, _, _, _, a3, hnil⟩⟩⟩ := hax
    cases hnil
    rw [hal a3, hf _ n' c' 1 l 1 ol rfl (by omega) a3.pos, Option.bind_some,
      if_pos (show (Tensor.ofFn [n', c', 1, ol] _).shape.getD 2 0 = 1 from rfl)]
    show Burn.reshape _ [n', c', ol] = _
    rw [dropRow]
    congr 1
    unfold Onnx.resizeNearest
    refine Tensor.ofFn_congr fun i hi => ?_
    match i, hi with
    | [p, q, r], hi =>
      obtain ⟨i1, i2, i3, _⟩ := hi
      rw [hx]
      simp only [List.getD_cons_zero, List.getD_cons_succ, Nat.zero_mul, Nat.zero_div, Onnx.nearestIdx, a1.idx i1, a2.idx i2, a3.idx i3, withRow_get]
      rw [Nat.mul_div_cancel _ a1.pos, Nat.mul_div_cancel _ a2.pos]
  · obtain ⟨n, ch, h, w, hx⟩ : ∃ n ch h w, x.shape = [n, ch, h, w] := by
      match hs : x.shape, h4 with
      | [p, q, r, t], _ => exact ⟨p, q, r, t, rfl⟩
    obtain ⟨n', c', oh, ow, rfl, hg⟩ := resize4 (f := f) hx ha hm ht
    rw [hg, hc]
    rw [hx] at hk hax
    obtain ⟨rfl, rfl⟩ : n' = n ∧ c' = ch := by simpa using hk
    obtain _ | @⟨s1, _, _, _, _, _, a1, _ | @⟨s2, _, _, _, _, _, a2, _ | @⟨s3, _, _, _, _, _, a3, _ | @⟨s4, _, _, _, _, _, a4, hnil⟩⟩⟩⟩ := hax
    cases hnil
    rw [hal a3, hf _ n' c' h w oh ow hx a3.pos a4.pos]
    congr 1
    unfold Onnx.resizeNearest
    refine Tensor.ofFn_congr fun i hi => ?_
    match i, hi with
    | [p, q, r, t], hi =>
      obtain ⟨i1, i2, i3, i4, _⟩ := hi
      rw [hx]
      simp only [List.getD_cons_zero, List.getD_cons_succ, Onnx.nearestIdx, a1.idx i1, a2.idx i2, a3.idx i3, a4.idx i4]
      rw [Nat.mul_div_cancel _ a1.pos, Nat.mul_div_cancel _ a2.pos]

/-- The default attributes, and twice the height and the width. -/
example : (({ mode := some .nearest } : ResizeAttrs)).Accepted ∧ ResizeTarget [1, 3, 5, 5] (some (.const [1, 1, 2, 2])) (some (.const [])) [1, 1, 2, 2] [1, 3, 10, 10] ∧
    Axes (NearestAxis .halfPixel .roundPreferFloor) [1, 1, 2, 2] [1, 3, 5, 5] [1, 3, 10, 10] := by
  refine ⟨⟨rfl, rfl, rfl, rfl, rfl⟩, ?_, ?_⟩
  · have := ResizeTarget.scales (ds := [1, 3, 5, 5]) (u := some (.const [])) [1, 1, 2, 2] rfl (.inr rfl)
    rwa [show Onnx.resizeDims [1, 1, 2, 2] [1, 3, 5, 5] = [1, 3, 10, 10] by decide +kernel] at this
  · refine .cons ⟨by omega, by norm_num, .inr ⟨.inl rfl, .inl rfl, 1, rfl⟩⟩ (.cons ⟨by omega, by norm_num, .inr ⟨.inl rfl, .inl rfl, 1, rfl⟩⟩
      (.cons ⟨by omega, by norm_num, .inr ⟨.inl rfl, .inl rfl, 2, rfl⟩⟩ (.cons ⟨by omega, by norm_num, .inr ⟨.inl rfl, .inl rfl, 2, rfl⟩⟩ .nil)))

/-- The function that Burn's backends compute satisfies the supposition. -/
example : ∃ f : Burn.Interp, f.NearestFloor :=
  ⟨fun _ _ oh ow x => match x.shape with
    | [n, c, h, w] => some (Tensor.ofFn [n, c, oh, ow] fun i => x.get [i.getD 0 0, i.getD 1 0, i.getD 2 0 * h / oh, i.getD 3 0 * w / ow])
    | _ => none, fun x n c h w oh ow hx _ _ => by simp only [hx]⟩

/-! ### Linear interpolation -/

/-- The axes on which linear interpolation is right: the length of the output is the length of the input times the scale, and coordinates are those of
pixel centres or of aligned corners. -/
structure LinearAxis (c : CoordMode) (s : ℚ) (d e : Nat) : Prop where
  pos : 0 < e
  exact : s * d = e
  modes : c = .halfPixel ∨ c = .alignCorners ∨ c = .pytorchHalfPixel ∧ (1 < e ∨ d = 1)

theorem LinearAxis.pos' {c : CoordMode} {s : ℚ} {d e : Nat} (h : LinearAxis c s d e) : 0 < d := by
  rcases Nat.eq_zero_or_pos d with rfl | hd
  · have := h.exact
    have hp := h.pos
    have he : (e : ℚ) = 0 := by rw [← h.exact]; simp
    have : e = 0 := by exact_mod_cast he
    omega
  · exact hd

theorem LinearAxis.scale {c : CoordMode} {s : ℚ} {d e : Nat} (h : LinearAxis c s d e) : s = e / d := by
  have hd0 : (d : ℚ) ≠ 0 := by have := h.pos'; positivity
  rw [← h.exact]
  field_simp

theorem coord_align_nonneg {s : ℚ} {d e o : Nat} (hd : 0 < d) (hp : 0 < e) : 0 ≤ Onnx.coord .alignCorners s d e o := by
  show 0 ≤ (if e = 1 then (0 : ℚ) else o * (d - 1) / (e - 1))
  split
  · exact le_refl _
  · have h1 : (1 : ℚ) ≤ d := by exact_mod_cast hd
    have h2 : (1 : ℚ) ≤ e := by exact_mod_cast hp
    exact div_nonneg (mul_nonneg (by positivity) (by linarith)) (by linarith)

/-- Both coordinates are the same, up to the border. -/
theorem LinearAxis.coord {c : CoordMode} {s : ℚ} {d e : Nat} (h : LinearAxis c s d e) (o : Nat) (ho : o < e) :
    Burn.lerpCoord (decide (c = .alignCorners)) d e o = max 0 (Onnx.coord c s d e o) := by
  have hd := h.pos'
  have hd0 : (d : ℚ) ≠ 0 := by positivity
  have he0 : (e : ℚ) ≠ 0 := by have := h.pos; positivity
  have key : ((o : ℚ) + 1 / 2) * d / e = (o + 1 / 2) / s := by
    rw [h.scale]
    field_simp
  rcases h.modes with rfl | rfl | ⟨rfl, h1⟩
  · show max 0 (((o : ℚ) + 1 / 2) * d / e - 1 / 2) = max 0 ((o + 1 / 2) / s - 1 / 2)
    rw [key]
  · rw [max_eq_right (coord_align_nonneg hd h.pos)]
    rfl
  · show max 0 (((o : ℚ) + 1 / 2) * d / e - 1 / 2) = max 0 (if 1 < e then ((o : ℚ) + 1 / 2) / s - 1 / 2 else 0)
    split
    · rw [key]
    · next hn =>
      have : e = 1 := by have := h.pos; omega
      subst this
      have : o = 0 := by omega
      subst this
      rcases h1 with h1 | rfl
      · omega
      · norm_num

/-- Interpolation on a line, with the neighbours at the border. -/
theorem lerp1_border (x : ℚ) (d : Nat) (v : Nat → ℚ) :
    Burn.lerp1 (max 0 x) d v = (1 - (x - ⌊x⌋)) * v (Onnx.border d ⌊x⌋) + (x - ⌊x⌋) * v (Onnx.border d (⌊x⌋ + 1)) := by
  unfold Burn.lerp1 Onnx.border
  by_cases hx : 0 ≤ x
  · rw [max_eq_right hx]
    have hf : 0 ≤ ⌊x⌋ := Int.floor_nonneg.2 hx
    have h1 : min (min ⌊x⌋.toNat (d - 1) + 1) (d - 1) = min (⌊x⌋ + 1).toNat (d - 1) := by omega
    simp only [h1]
    ring
  · have hx' : x < 0 := by linarith
    rw [max_eq_left hx'.le]
    have hf : ⌊x⌋ < 0 := by
      rw [Int.floor_lt]
      exact_mod_cast hx'
    have h1 : ⌊x⌋.toNat = 0 := by omega
    have h2 : (⌊x⌋ + 1).toNat = 0 := by omega
    simp only [h1, h2, Int.floor_zero, Int.toNat_zero, Int.cast_zero, sub_zero, mul_one, mul_zero, add_zero, Nat.zero_min]
    ring

theorem LinearAxis.lerp {c : CoordMode} {s : ℚ} {d e : Nat} (h : LinearAxis c s d e) {o : Nat} (ho : o < e) (v : Nat → ℚ) :
    Burn.lerp1 (Burn.lerpCoord (decide (c = .alignCorners)) d e o) d v =
      (1 - (Onnx.coord c s d e o - ⌊Onnx.coord c s d e o⌋)) * v (Onnx.border d ⌊Onnx.coord c s d e o⌋) +
        (Onnx.coord c s d e o - ⌊Onnx.coord c s d e o⌋) * v (Onnx.border d (⌊Onnx.coord c s d e o⌋ + 1)) := by
  rw [← lerp1_border, h.coord o ho]

theorem LinearAxis.coord_id {c : CoordMode} {s : ℚ} {d : Nat} (h : LinearAxis c s d d) {o : Nat} (ho : o < d) : Onnx.coord c s d d o = o := by
  have hs : s = 1 := by
    rw [h.scale]
    have hd0 : (d : ℚ) ≠ 0 := by have := h.pos'; positivity
    field_simp
  subst hs
  rcases h.modes with rfl | rfl | ⟨rfl, h1⟩
  · show ((o : ℚ) + 1 / 2) / 1 - 1 / 2 = o
    ring
  · show (if d = 1 then (0 : ℚ) else o * (d - 1) / (d - 1)) = o
    split
    · have : o = 0 := by omega
      simp [this]
    · next hd =>
      have : (d : ℚ) - 1 ≠ 0 := by
        intro hh
        exact hd (by exact_mod_cast (sub_eq_zero.1 hh))
      field_simp
  · show (if 1 < d then ((o : ℚ) + 1 / 2) / 1 - 1 / 2 else 0) = o
    split
    · ring
    · have : o = 0 := by omega
      simp [this]

/-- An axis that keeps its length is left as it is. -/
theorem lerp_kept {c : CoordMode} {s : ℚ} {d : Nat} (h : LinearAxis c s d d) {o : Nat} (ho : o < d) {ss : List ℚ} {ds es os : List Nat}
    {v : List Nat → ℚ} : Onnx.lerp c (s :: ss) (d :: ds) (d :: es) (o :: os) v = Onnx.lerp c ss ds es os (fun i => v (o :: i)) := by
  simp only [Onnx.lerp]
  rw [h.coord_id ho, Int.floor_natCast, Int.cast_natCast]
  have : Onnx.border d (o : Int) = o := by unfold Onnx.border; simp only [Int.toNat_natCast]; omega
  rw [this]
  ring

theorem lerp_axis {c : CoordMode} {s : ℚ} {d e : Nat} (h : LinearAxis c s d e) {o : Nat} (ho : o < e) {ss : List ℚ} {ds es os : List Nat}
    {v : List Nat → ℚ} : Onnx.lerp c (s :: ss) (d :: ds) (e :: es) (o :: os) v =
      Burn.lerp1 (Burn.lerpCoord (decide (c = .alignCorners)) d e o) d fun a => Onnx.lerp c ss ds es os (fun i => v (a :: i)) := by
  rw [h.lerp ho]
  rfl

/-- Resize in mode `linear` for inputs of rank 3 and 4 whose batch and channels are kept, when Burn interpolates at pixel centres or aligned
corners: ONNX's value for the coordinate modes `half_pixel`, `align_corners` and, but for lengths reduced to 1, `pytorch_half_pixel`. -/
theorem C70_linear_partial {f : Burn.Interp} (hf : f.Bilinear) {a : ResizeAttrs} {x : Tensor ℚ} {sc : Option (ResizeInput ℚ)}
    {sz : Option (ResizeInput Int)} {ss : List ℚ} {es : List Nat} (ha : a.Accepted) (hm : a.mode = some .linear)
    (hr : x.shape.length = 3 ∨ x.shape.length = 4) (ht : ResizeTarget x.shape sc sz ss es) (hk : es.take 2 = x.shape.take 2)
    (hax : Axes (LinearAxis (a.coord.getD .halfPixel)) ss x.shape es) :
    genResize f a [] sc sz x = some (Onnx.resizeLinear (a.coord.getD .halfPixel) ss es x) := by
  generalize hc : a.coord.getD .halfPixel = c at *
  rcases hr with h3 | h4
  · obtain ⟨n, ch, l, hx⟩ : ∃ n ch l, x.shape = [n, ch, l] := by
      match hs : x.shape, h3 with
      | [p, q, r], _ => exact ⟨p, q, r, rfl⟩
    obtain ⟨n', c', ol, rfl, hg⟩ := resize3 (f := f) hx ha hm ht
    rw [hg, hc]
    rw [hx] at hk hax
    obtain ⟨rfl, rfl⟩ : n' = n ∧ c' = ch := by simpa using hk
    obtain _ | @⟨s1, _, _, _, _, _, a1, _ | @⟨s2, _, _, _, _, _, a2, _ | @⟨s3, _, _, _, _, _, a3, hnil⟩⟩⟩ := hax
    cases hnil
    rw [hf _ _ n' c' 1 l 1 ol rfl (by omega) a3.pos, Option.bind_some,
      if_pos (show (Tensor.ofFn [n', c', 1, ol] _).shape.getD 2 0 = 1 from rfl)]
    show Burn.reshape _ [n', c', ol] = _
    rw [dropRow]
    congr 1
    unfold Onnx.resizeLinear
    refine Tensor.ofFn_congr fun i hi => ?_
    match i, hi with
    | [p, q, r], hi =>
      obtain ⟨i1, i2, i3, _⟩ := hi
      rw [hx, lerp_kept a1 i1, lerp_kept a2 i2, lerp_axis a3 i3]
      have h0 : Burn.lerpCoord (decide (c = .alignCorners)) 1 1 0 = 0 := by
        unfold Burn.lerpCoord
        split <;> norm_num
      have h1 : ∀ v : Nat → ℚ, Burn.lerp1 0 1 v = v 0 := by
        intro v
        unfold Burn.lerp1
        simp
      simp only [List.getD_cons_zero, List.getD_cons_succ, h0, h1, withRow_get]
      rfl
  · obtain ⟨n, ch, h, w, hx⟩ : ∃ n ch h w, x.shape = [n, ch, h, w] := by
      match hs : x.shape, h4 with
      | [p, q, r, t], _ => exact ⟨p, q, r, t, rfl⟩
    obtain ⟨n', c', oh, ow, rfl, hg⟩ := resize4 (f := f) hx ha hm ht
    rw [hg, hc]
    rw [hx] at hk hax
    obtain ⟨rfl, rfl⟩ : n' = n ∧ c' = ch := by simpa using hk
    obtain _ | @⟨s1, _, _, _, _, _, a1, _ | @⟨s2, _, _, _, _, _, a2, _ | @⟨s3, _, _, _, _, _, a3, _ | @⟨s4, _, _, _, _, _, a4, hnil⟩⟩⟩⟩ := hax
    cases hnil
    rw [hf _ _ n' c' h w oh ow hx a3.pos a4.pos]
    congr 1
    unfold Onnx.resizeLinear
    refine Tensor.ofFn_congr fun i hi => ?_
    match i, hi with
    | [p, q, r, t], hi =>
      obtain ⟨i1, i2, i3, i4, _⟩ := hi
      rw [hx, lerp_kept a1 i1, lerp_kept a2 i2, lerp_axis a3 i3]
      simp only [lerp_axis a4 i4]
      rfl

example : Axes (LinearAxis .alignCorners) [1, 1, 3 / 2] [2, 4, 6] [2, 4, 9] :=
  .cons ⟨by omega, by norm_num, .inr (.inl rfl)⟩ (.cons ⟨by omega, by norm_num, .inr (.inl rfl)⟩ (.cons ⟨by omega, by norm_num, .inr (.inl rfl)⟩ .nil))

/-! ### Attributes and inputs that are not read -/

/-- Neither the rounding of nearest neighbours nor the coordinate modes other than `align_corners` reach the generated code. -/
theorem resize_reads {f : Burn.Interp} {a b : ResizeAttrs} {roi : List ℚ} {sc : Option (ResizeInput ℚ)} {sz : Option (ResizeInput Int)} {x : Tensor ℚ}
    (h1 : a.mode = b.mode) (h2 : a.coord.getD .halfPixel = .alignCorners ↔ b.coord.getD .halfPixel = .alignCorners) (ha : a.Accepted) (hb : b.Accepted) :
    genResize f a roi sc sz x = genResize f b roi sc sz x := by
  unfold genResize resizeConfig
  simp only [ha.antialias, ha.axes, ha.excludeOutside, ha.extrapolation, ha.stretch, hb.antialias, hb.axes, hb.excludeOutside, hb.extrapolation,
    hb.stretch, h1, h2]

/-- The attribute `nearest_mode` is ignored: whatever Burn computes, the result is wrong for `floor` or for `ceil`. -/
theorem C70_nearest_mode_ignored : ∃ (x : Tensor ℚ) (ss : List ℚ) (es : List Nat), x.shape.length = 4 ∧
    ResizeTarget x.shape (some (.const ss)) none ss es ∧ ∀ f : Burn.Interp,
    ¬((genResize f { mode := some .nearest, coord := some .asymmetric, nearest := some .floor } [] (some (.const ss)) none x =
        some (Onnx.resizeNearest .asymmetric .floor ss es x)) ∧
      genResize f { mode := some .nearest, coord := some .asymmetric, nearest := some .ceil } [] (some (.const ss)) none x =
        some (Onnx.resizeNearest .asymmetric .ceil ss es x)) := by
  refine ⟨⟨[1, 1, 1, 2], [0, 1], rfl⟩, [1, 1, 1, 2], _, rfl, .scales _ rfl (.inl rfl), fun f h => ?_⟩
  have e := (h.1.symm.trans (resize_reads rfl (by simp) ⟨rfl, rfl, rfl, rfl, rfl⟩ ⟨rfl, rfl, rfl, rfl, rfl⟩)).trans h.2
  have e' := congrArg Tensor.data (Option.some.inj e)
  revert e'
  decide +kernel

/-- The coordinate modes `half_pixel` and `asymmetric` give the same code: whatever Burn computes, the result is wrong for one of them. -/
theorem C70_coordinates_ignored : ∃ (x : Tensor ℚ) (ss : List ℚ) (es : List Nat), x.shape.length = 4 ∧
    ResizeTarget x.shape (some (.const ss)) none ss es ∧ ∀ f : Burn.Interp,
    ¬((genResize f { mode := some .linear, coord := some .halfPixel } [] (some (.const ss)) none x = some (Onnx.resizeLinear .halfPixel ss es x)) ∧
      genResize f { mode := some .linear, coord := some .asymmetric } [] (some (.const ss)) none x = some (Onnx.resizeLinear .asymmetric ss es x)) := by
  refine ⟨⟨[1, 1, 1, 2], [0, 1], rfl⟩, [1, 1, 1, 2], _, rfl, .scales _ rfl (.inl rfl), fun f h => ?_⟩
  have e := (h.1.symm.trans (resize_reads rfl (by simp) ⟨rfl, rfl, rfl, rfl, rfl⟩ ⟨rfl, rfl, rfl, rfl, rfl⟩)).trans h.2
  have e' := congrArg Tensor.data (Option.some.inj e)
  revert e'
  decide +kernel

/-- The coordinate modes `half_pixel` and `pytorch_half_pixel` differ on lengths reduced to 1, and give the same code. -/
theorem C70_pytorch_ignored : ∃ (x : Tensor ℚ) (ss : List ℚ) (es : List Nat), x.shape.length = 4 ∧
    ResizeTarget x.shape (some (.const ss)) none ss es ∧ ∀ f : Burn.Interp,
    ¬((genResize f { mode := some .linear, coord := some .halfPixel } [] (some (.const ss)) none x = some (Onnx.resizeLinear .halfPixel ss es x)) ∧
      genResize f { mode := some .linear, coord := some .pytorchHalfPixel } [] (some (.const ss)) none x =
        some (Onnx.resizeLinear .pytorchHalfPixel ss es x)) := by
  refine ⟨⟨[1, 1, 1, 2], [0, 1], rfl⟩, [1, 1, 1, 1 / 2], _, rfl, .scales _ rfl (.inl rfl), fun f h => ?_⟩
  have e := (h.1.symm.trans (resize_reads rfl (by simp) ⟨rfl, rfl, rfl, rfl, rfl⟩ ⟨rfl, rfl, rfl, rfl, rfl⟩)).trans h.2
  have e' := congrArg Tensor.data (Option.some.inj e)
  revert e'
  decide +kernel

/-- The scales for batch and channels are ignored: whatever Burn computes, the result is wrong for a batch that is kept or for one that is
doubled. -/
theorem C70_batch_scale_ignored : ∃ (x : Tensor ℚ) (ss ss' : List ℚ) (es es' : List Nat), x.shape.length = 4 ∧
    ResizeTarget x.shape (some (.const ss)) none ss es ∧ ResizeTarget x.shape (some (.const ss')) none ss' es' ∧ ∀ f : Burn.Interp,
    ¬((genResize f { mode := some .nearest } [] (some (.const ss)) none x = some (Onnx.resizeNearest .halfPixel .roundPreferFloor ss es x)) ∧
      genResize f { mode := some .nearest } [] (some (.const ss')) none x = some (Onnx.resizeNearest .halfPixel .roundPreferFloor ss' es' x)) := by
  refine ⟨⟨[1, 1, 1, 2], [0, 1], rfl⟩, [1, 1, 1, 2], [2, 1, 1, 2], _, _, rfl, .scales _ rfl (.inl rfl), .scales _ rfl (.inl rfl), fun f h => ?_⟩
  have e := h.1.symm.trans (Eq.trans (by rfl) h.2)
  have e' := congrArg Tensor.shape (Option.some.inj e)
  revert e'
  decide +kernel

/-- With default attributes, a reduced length is sampled at other places: reducing 5 entries to 2 takes the entries 1 and 3 in ONNX, and 0 and 2 in
the generated code. -/
theorem C70_nearest_reduced_wrong {f : Burn.Interp} (hf : f.NearestFloor) : ∃ (x y : Tensor ℚ) (sz : List Nat) (ss : List ℚ),
    ResizeTarget x.shape none (some (.const (sz.map Int.ofNat))) ss sz ∧
    genResize f { mode := some .nearest } [] none (some (.const (sz.map Int.ofNat))) x = some y ∧
    y ≠ Onnx.resizeNearest .halfPixel .roundPreferFloor ss sz x := by
  obtain ⟨n', c', oh, ow, he, hg⟩ := resize4 (f := f) (a := { mode := some .nearest }) (x := ⟨[1, 1, 1, 5], [0, 1, 2, 3, 4], rfl⟩) (m := .nearest) (n := 1)
    (c := 1) (h := 1) (w := 5) rfl ⟨rfl, rfl, rfl, rfl, rfl⟩ rfl (.sizes [1, 1, 1, 2] rfl (.inl rfl))
  cases he
  refine ⟨⟨[1, 1, 1, 5], [0, 1, 2, 3, 4], rfl⟩, _, [1, 1, 1, 2], _, .sizes _ rfl (.inl rfl), hg.trans (hf _ 1 1 1 5 1 2 rfl (by omega) (by omega)), fun h => ?_⟩
  have := congrArg Tensor.data h
  revert this
  decide +kernel

/-- A scale that does not divide evenly is replaced by the quotient of the lengths: 5 entries with the scale 0.7 are the entries 0, 1 and 2 in ONNX,
with asymmetric coordinates rounded down, and 0, 1 and 3 in the generated code. -/
theorem C70_scale_wrong {f : Burn.Interp} (hf : f.NearestFloor) : ∃ (x y : Tensor ℚ) (ss : List ℚ) (es : List Nat),
    ResizeTarget x.shape (some (.const ss)) none ss es ∧
    genResize f { mode := some .nearest, coord := some .asymmetric, nearest := some .floor } [] (some (.const ss)) none x = some y ∧
    y ≠ Onnx.resizeNearest .asymmetric .floor ss es x := by
  have hes : Onnx.resizeDims [1, 1, 1, 7 / 10] [1, 1, 1, 5] = [1, 1, 1, 3] := by decide +kernel
  obtain ⟨n', c', oh, ow, he, hg⟩ := resize4 (f := f) (a := { mode := some .nearest, coord := some .asymmetric, nearest := some .floor })
    (x := ⟨[1, 1, 1, 5], [0, 1, 2, 3, 4], rfl⟩) (m := .nearest) (n := 1)
    (c := 1) (h := 1) (w := 5) rfl ⟨rfl, rfl, rfl, rfl, rfl⟩ rfl (.scales [1, 1, 1, 7 / 10] rfl (.inl rfl))
  rw [hes] at he
  cases he
  refine ⟨⟨[1, 1, 1, 5], [0, 1, 2, 3, 4], rfl⟩, _, [1, 1, 1, 7 / 10], _, .scales _ rfl (.inl rfl), hg.trans (hf _ 1 1 1 5 1 3 rfl (by omega) (by omega)), fun h => ?_⟩
  have := congrArg Tensor.data h
  revert this
  decide +kernel

/-- Without the attribute `mode`, whose default is `nearest`, the model is refused. -/
theorem C70_default_mode_refused {f : Burn.Interp} {a : ResizeAttrs} {roi : List ℚ} {sc : Option (ResizeInput ℚ)} {sz : Option (ResizeInput Int)}
    {x : Tensor ℚ} (h : a.mode = none) : genResize f a roi sc sz x = none := by
  unfold genResize resizeConfig
  rw [h]
  split
  · rfl
  · cases ResizeInput.extract (fun n => (n : ℚ)) x.shape.length sc <;> cases ResizeInput.extract id x.shape.length sz <;> rfl

/-- Inputs of ranks other than 3 and 4 do not compile. -/
theorem C70_rank_fails {f : Burn.Interp} {a : ResizeAttrs} {roi : List ℚ} {sc : Option (ResizeInput ℚ)} {sz : Option (ResizeInput Int)} {x : Tensor ℚ}
    (h : x.shape.length ≠ 3 ∧ x.shape.length ≠ 4) : genResize f a roi sc sz x = none := by
  unfold genResize
  cases resizeConfig a x.shape.length roi sc sz with
  | none => rfl
  | some cfg =>
    rw [Option.bind_some]
    unfold resize
    have h4 : ∀ p q r s, x.shape ≠ [p, q, r, s] := fun p q r s hh => h.2 (by rw [hh]; rfl)
    have h3 : ∀ p q r, x.shape ≠ [p, q, r] := fun p q r hh => h.1 (by rw [hh]; rfl)
    split
    · split
      · next hh _ _ => exact absurd hh (h4 _ _ _ _)
      · rfl
    · split
      · next hh _ _ => exact absurd hh (h4 _ _ _ _)
      · rfl
    · split
      · next hh => exact absurd hh (h3 _ _ _)
      · next hh => exact absurd hh (h4 _ _ _ _)
      · rfl

/-- Sizes or scales known only at run time do not compile for inputs of rank 3. -/
theorem C70_runtime_rank_fails {f : Burn.Interp} {a : ResizeAttrs} {roi : List ℚ} {x : Tensor ℚ} (h : x.shape.length = 3) :
    (∀ l, genResize f a roi none (some (.tensor l)) x = none) ∧ (∀ l, genResize f a roi none (some (.shape l)) x = none) ∧
      ∀ l, genResize f a roi (some (.tensor l)) none x = none := by
  obtain ⟨n, c, l, hx⟩ : ∃ n c l, x.shape = [n, c, l] := by
    match hs : x.shape, h with
    | [p, q, r], _ => exact ⟨p, q, r, rfl⟩
  have key : ∀ sc sz, (∀ cfg, resizeConfig a x.shape.length roi sc sz = some cfg → resize f cfg x = none) → genResize f a roi sc sz x = none := by
    intro sc sz hh
    unfold genResize
    cases hc : resizeConfig a x.shape.length roi sc sz with
    | none => rfl
    | some cfg => exact hh cfg hc
  refine ⟨fun k => key _ _ fun cfg hc => ?_, fun k => key _ _ fun cfg hc => ?_, fun k => key _ _ fun cfg hc => ?_⟩
  all_goals
    unfold resizeConfig at hc
    split at hc
    · cases hc
    · simp only [ResizeInput.extract, Option.bind_some] at hc
      cases hm : a.mode with
      | none => rw [hm] at hc; cases hc
      | some m =>
        rw [hm] at hc
        simp at hc
        subst hc
        simp [resize, hx]

/-- Antialiasing, weights renormalised at the border, an extrapolation value, axes, a kept aspect ratio and a region of interest are refused. -/
theorem C70_attributes_refused {f : Burn.Interp} {a : ResizeAttrs} {roi : List ℚ} {sc : Option (ResizeInput ℚ)} {sz : Option (ResizeInput Int)}
    {x : Tensor ℚ} (h : a.antialias.getD 0 ≠ 0 ∨ a.axes.isSome ∨ a.excludeOutside.getD 0 ≠ 0 ∨ a.extrapolation.getD 0 ≠ 0 ∨ a.stretch = false ∨ roi ≠ []) :
    genResize f a roi sc sz x = none := by
  unfold genResize resizeConfig
  rw [if_pos h]
  rfl

end OnnxIR
