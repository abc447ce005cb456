import Verif.Model.Reshape
import Verif.Spec.Reshape
import Verif.Props.OpRules

/-!
# The type inferred for Reshape describes what ONNX Reshape returns
-/

namespace OnnxIR

open Infer

theorem reshapeDims_describes {az : Bool} {sh : Option PShape} {s : List Nat} {k : Nat} {target : List Int}
    {out : List Nat} (hsh : ∀ p, sh = some p → p.Describes s)
    (h : Onnx.ReshapeDims az s k target out) :
    PShape.Describes (Infer.reshapeDims az sh k target) out := by
  induction target generalizing k out with
  | nil => cases out <;> simp_all [Onnx.ReshapeDims, Infer.reshapeDims, PShape.Describes]
  | cons v vs ih =>
    cases out with
    | nil => simp [Onnx.ReshapeDims] at h
    | cons d ds =>
      simp only [Onnx.ReshapeDims] at h
      obtain ⟨h1, h2⟩ := h
      refine ⟨?_, ih h2⟩
      intro e he
      split at he
      · rename_i hv
        simp at he
        rcases h1 with h1 | ⟨h1, -⟩ | ⟨h1, -⟩ <;> omega
      · split at he
        · rename_i hv
          split at he
          · rename_i haz
            simp at he
            rcases h1 with h1 | ⟨-, h1, -⟩ | ⟨h1, -⟩
            · omega
            · rw [haz] at h1; cases h1
            · omega
          · rename_i haz
            rw [Option.join_eq_some_iff, Option.bind_eq_some_iff] at he
            obtain ⟨p, hp, hpk⟩ := he
            have := (PShape.describes_iff.1 (hsh p hp)).2 k e hpk
            rcases h1 with h1 | ⟨-, -, h1⟩ | ⟨-, h1⟩
            · omega
            · rw [this] at h1; cases h1; rfl
            · exact absurd (h1 hv) haz
        · cases he

/-- Without a −1 and with a fully known input, every dimension is known. -/
theorem reshapeDims_known {az : Bool} {s : List Nat} {k : Nat} {target : List Int} {out : List Nat}
    (h : Onnx.ReshapeDims az s k target out) (hc : target.count (-1) = 0) :
    Infer.reshapeDims az (some (s.map some)) k target = out.map some := by
  induction target generalizing k out with
  | nil => cases out <;> simp_all [Onnx.ReshapeDims, Infer.reshapeDims]
  | cons v vs ih =>
    cases out with
    | nil => simp [Onnx.ReshapeDims] at h
    | cons d ds =>
      simp only [Onnx.ReshapeDims] at h
      obtain ⟨h1, h2⟩ := h
      rw [List.count_cons] at hc
      have hv : v ≠ -1 := by intro hv; simp [hv] at hc
      simp only [Infer.reshapeDims, List.map_cons]
      rw [ih h2 (by omega)]
      congr 1
      rcases h1 with h1 | ⟨h1, haz, h3⟩ | ⟨h1, h3⟩
      · exact absurd h1 hv
      · subst h1; simp [haz, h3]
      · subst h1
        by_cases hd : d = 0
        · subst hd; simp [h3 rfl]
        · rw [if_pos (by omega)]; simp

theorem prodSome_map (l : List Nat) : Infer.prodSome (l.map some) = prodShape l := by
  induction l with
  | nil => rfl
  | cons d ds ih => simp [Infer.prodSome, prodShape, ih]

theorem fillNegOne_none {x : Nat} {target : List Int} {p : PShape} (hc : target.count (-1) = 0) :
    Infer.fillNegOne x target p = p := by
  induction target generalizing p with
  | nil => cases p <;> rfl
  | cons v vs ih =>
    cases p with
    | nil => rfl
    | cons d ds =>
      rw [List.count_cons] at hc
      have hv : v ≠ -1 := by intro hv; simp [hv] at hc
      simp only [Infer.fillNegOne]
      rw [if_neg hv, ih (by omega)]

/-- With one −1 and a fully known input, the output is the known dimensions with one more. -/
theorem reshapeDims_one {az : Bool} {s : List Nat} {k : Nat} {target : List Int} {out : List Nat}
    (h : Onnx.ReshapeDims az s k target out) (hc : target.count (-1) = 1) :
    ∃ d, prodShape out = d * Infer.prodSome (Infer.reshapeDims az (some (s.map some)) k target) ∧
      PShape.Describes
        (Infer.fillNegOne d target (Infer.reshapeDims az (some (s.map some)) k target)) out := by
  induction target generalizing k out with
  | nil => simp at hc
  | cons v vs ih =>
    cases out with
    | nil => simp [Onnx.ReshapeDims] at h
    | cons d ds =>
      have hdims := h
      simp only [Onnx.ReshapeDims] at h
      obtain ⟨h1, h2⟩ := h
      rw [List.count_cons] at hc
      by_cases hv : v = -1
      · subst hv
        have hc0 : vs.count (-1) = 0 := by simpa using hc
        refine ⟨d, ?_, ?_⟩
        · simp only [Infer.reshapeDims, prodShape]
          rw [reshapeDims_known h2 hc0]
          simp [Infer.prodSome, prodSome_map]
        · simp only [Infer.reshapeDims, Infer.fillNegOne]
          rw [fillNegOne_none hc0, reshapeDims_known h2 hc0]
          refine ⟨by intro k hk; simp at hk; exact hk.symm, PShape.describes_some.2 rfl⟩
      · have hc1 : vs.count (-1) = 1 := by simpa [hv] using hc
        obtain ⟨e, he1, he2⟩ := ih h2 hc1
        have hhead : (if 0 < v then some v.toNat
            else if v = 0 then (if az then some 0 else ((some (s.map some)).bind (·[k]?)).join)
            else none) = some d := by
          rcases h1 with h1 | ⟨h1, haz, h3⟩ | ⟨h1, h3⟩
          · exact absurd h1 hv
          · subst h1; simp [haz, h3]
          · subst h1
            by_cases hd : d = 0
            · subst hd; simp [h3 rfl]
            · rw [if_pos (by omega)]; simp
        refine ⟨e, ?_, ?_⟩
        · simp only [Infer.reshapeDims, prodShape]
          rw [hhead, he1]
          simp only [Infer.prodSome]
          rw [Nat.mul_left_comm]
        · simp only [Infer.reshapeDims, Infer.fillNegOne]
          rw [hhead, if_neg hv]
          exact ⟨by intro k hk; simp at hk; exact hk.symm, he2⟩

theorem knownProd_known {p : PShape} {k : Nat} (h : Infer.knownProd p = some k) {s : List Nat}
    (hd : p.Describes s) : p = s.map some := by
  induction p generalizing s k with
  | nil => cases s <;> simp_all [PShape.Describes]
  | cons o ps ih =>
    cases s with
    | nil => simp [PShape.Describes] at hd
    | cons d ds =>
      simp only [PShape.Describes] at hd
      simp only [Infer.knownProd] at h
      split at h
      · rename_i d' p' hp'
        rw [ih hp' hd.2, ← hd.1 d' rfl]
        rfl
      · cases h

theorem reshapeDims_length {az : Bool} {s : List Nat} {k : Nat} {target : List Int} {out : List Nat}
    (h : Onnx.ReshapeDims az s k target out) : out.length = target.length := by
  have := (reshapeDims_describes (sh := none) (by simp) h).length
  rw [← this]
  clear this h
  induction target generalizing k with
  | nil => rfl
  | cons v vs ih => simp [Infer.reshapeDims, ih]

/-- The static shape computed from a constant target describes every ONNX result. -/
theorem C18_reshape_static {az : Bool} {sh : Option PShape} {target : List Int} {s out : List Nat}
    (hsh : ∀ p, sh = some p → p.Describes s) (h : Onnx.Reshape az target s out) :
    PShape.Describes (Infer.reshapeStatic az sh target) out := by
  obtain ⟨h1, h2, h3⟩ := h
  have hd := reshapeDims_describes hsh h2
  unfold Infer.reshapeStatic
  split
  · rename_i hneg
    split
    · rename_i total htot
      dsimp only
      split
      · rename_i hdiv
        obtain ⟨p, hp, hkp⟩ := Option.bind_eq_some_iff.1 htot
        have hp' := knownProd_known hkp (hsh p hp)
        have htotal := knownProd_describes (hsh p hp) hkp
        subst hp'
        subst hp
        have hc : target.count (-1) = 1 := by
          have := List.count_pos_iff.2 hneg
          omega
        obtain ⟨d, hd1, hd2⟩ := reshapeDims_one h2 hc
        rw [← h3, hd1] at htotal
        rw [htotal, Nat.mul_div_cancel _ hdiv.1]
        exact hd2
      · exact hd
    · exact hd
  · exact hd

/-- Reshape of a device tensor or device scalar with a constant target: the output type describes
every result ONNX allows. -/
theorem C18_reshape_constant {az : Bool} {target : List Int} {shapeTy : Option ArgType} {prev x t : ArgType}
    {s out : List Nat} (hx : x.Admits s) (hdev : (∃ tt, x = .tensor tt) ∨ (∃ d, x = .scalarTensor d))
    (ht : Infer.reshape az (some target) shapeTy prev x = some t)
    (ho : Onnx.Reshape az target s out) : t.Admits out := by
  have hsh : ∀ p, x.staticShape = some p → p.Describes s := by
    intro p hp
    rcases hdev with ⟨tt, rfl⟩ | ⟨d, rfl⟩
    · exact hx.2 p hp
    · simp [ArgType.staticShape] at hp
  have hl := reshapeDims_length ho.2.1
  have hd := C18_reshape_static hsh ho
  simp only [Infer.reshape, Infer.reshapeRank, Option.map_some, Infer.reshapeStaticOut] at ht
  split at ht
  · cases ht
  · split at ht
    · cases ht
    · simp only [Option.some.injEq] at ht
      subst ht
      unfold Infer.reshapeOut
      split
      · rename_i h0
        exact List.eq_nil_of_length_eq_zero (by omega)
      · rcases hdev with ⟨tt, rfl⟩ | ⟨d, rfl⟩
        · exact ⟨hl, by intro p hp; simp only [Option.some.injEq] at hp; subst hp; exact hd⟩
        · exact ⟨hl, by intro p hp; simp only [Option.some.injEq] at hp; subst hp; exact hd⟩

example : Infer.reshape false (some [2, 0, -1]) (some (.shape 3)) (.scalarNative .f32)
      (.tensor ⟨.f32, 3, some [some 6, some 3, some 4]⟩) =
      some (.tensor ⟨.f32, 3, some [some 2, some 3, some 12]⟩) ∧
    Infer.reshape false (some [2, 0, -1]) (some (.shape 3)) (.scalarNative .f32)
      (.tensor ⟨.f32, 3, some [none, some 3, some 4]⟩) =
      some (.tensor ⟨.f32, 3, some [some 2, some 3, none]⟩) ∧
    Onnx.Reshape false [2, 0, -1] [6, 3, 4] [2, 3, 12] := by
  refine ⟨by decide, by decide, by decide, by simp [Onnx.ReshapeDims], by decide⟩

/-- Reshape of a `Shape` value: right unless the target is `[0]`. -/
theorem C18_reshape_shape_partial {az : Bool} {target : List Int} {shapeTy : Option ArgType} {prev t : ArgType}
    {n : Nat} {out : List Nat} (ht : Infer.reshape az (some target) shapeTy prev (.shape n) = some t)
    (ho : Onnx.Reshape az target [n] out) (h0 : target ≠ [0]) : t.Admits out := by
  have hl := reshapeDims_length ho.2.1
  have hd := C18_reshape_static (sh := none) (by simp) ho
  simp only [Infer.reshape, Infer.reshapeRank, Option.map_some, Infer.reshapeStaticOut] at ht
  split at ht
  · cases ht
  · split at ht
    · cases ht
    · simp only [Option.some.injEq] at ht
      subst ht
      unfold Infer.reshapeOut
      split
      · rename_i h0
        exact List.eq_nil_of_length_eq_zero (by omega)
      · split
        · rename_i heq; cases heq
        · rename_i m heq
          cases heq
          split
          · rename_i h1
            match target, h1, out, hl with
            | [v], _, [d], _ =>
              have hp := ho.2.2
              simp only [prodShape, Nat.mul_one] at hp
              subst hp
              have hr := ho.2.1
              simp only [Onnx.ReshapeDims, and_true] at hr
              simp only [Infer.reshapeShapeSize, ArgType.Admits, List.cons.injEq, and_true]
              split
              · rfl
              · rename_i hv
                split
                · rcases hr with hr | ⟨hr, -⟩ | ⟨hr, -⟩ <;> omega
                · have : v ≠ 0 := by intro h; exact h0 (by rw [h])
                  rcases hr with hr | ⟨hr, -⟩ | ⟨hr, -⟩ <;> omega
          · exact ⟨hl, by intro p hp; simp only [Option.some.injEq] at hp; subst hp; exact hd⟩
        · rename_i h2; exact absurd rfl (h2 _)

/-- Reshape of a `Shape(3)` with target `[0]`, which copies the dimension: the type says one
element. -/
theorem C18_shape_zero_wrong :
    ∃ t, Infer.reshape false (some [0]) none (.scalarNative .i64) (.shape 3) = some t ∧
      Onnx.Reshape false [0] [3] [3] ∧ ¬ t.Admits [3] := by
  refine ⟨.shape 1, by decide, ⟨by decide, by simp [Onnx.ReshapeDims], by decide⟩, ?_⟩
  intro h; cases h

/-- Reshape of a host scalar with target `[1]` or `[-1]`: ONNX returns a vector of one element, the
type says scalar. -/
theorem C18_scalar_to_vector_wrong :
    ∃ t, Infer.reshape false (some [-1]) none (.scalarNative .f32) (.scalarNative .f32) = some t ∧
      Onnx.Reshape false [-1] [] [1] ∧ ¬ t.Admits [1] := by
  refine ⟨.scalarNative .f32, by decide, ⟨by decide, by simp [Onnx.ReshapeDims], by decide⟩, ?_⟩
  intro h; cases h

/-- With a run-time target the type is right if the type the output had before is (and the shape
input's type is), for tensors. -/
theorem C18_reshape_runtime {az : Bool} {target : List Int} {shapeTy : Option ArgType} {tt pt : TensorType}
    {t : ArgType} {s out : List Nat}
    (hs : ∀ ty, shapeTy = some ty → ty.Admits [target.length]) (hprev : (ArgType.tensor pt).Admits out)
    (ht : Infer.reshape az none shapeTy (.tensor pt) (.tensor tt) = some t)
    (ho : Onnx.Reshape az target s out) : t.Admits out := by
  have hl := reshapeDims_length ho.2.1
  simp only [Infer.reshape, Option.all_none, Infer.reshapeStaticOut] at ht
  split at ht
  · cases ht
  · split at ht
    · cases ht
    · obtain ⟨r, hr, rfl⟩ := Option.map_eq_some_iff.1 ht
      have hr' : r = out.length := by
        unfold Infer.reshapeRank at hr
        simp only at hr
        split at hr
        · rename_i r' hr'
          simp at hr
          subst hr
          split at hr'
          · have := hs _ rfl
            simp [ArgType.Admits] at this
            simp at hr'
            omega
          · have := hs _ rfl
            rw [Option.join_eq_some_iff, Option.bind_eq_some_iff] at hr'
            obtain ⟨p, hp, hh⟩ := hr'
            have hdesc := this.2 p hp
            cases p with
            | nil => cases hh
            | cons e es =>
              simp at hh
              subst hh
              have := hdesc.1 r' rfl
              omega
          · cases hr'
        · simp at hr
          rw [← hr]
          exact hprev.1.symm
      subst hr'
      unfold Infer.reshapeOut
      split
      · rename_i h0
        exact List.eq_nil_of_length_eq_zero h0
      · exact ⟨rfl, fun p hp => hprev.2 p hp⟩

/-! ## The no-op test -/

/-- Fully known and equal static shapes: Reshape returns its input. -/
theorem C18_noop_partial {az : Bool} {target : List Int} {tt ot : TensorType} {s out : List Nat} {dims : List Nat}
    (hx : (ArgType.tensor tt).Admits s) (hout : (ArgType.tensor ot).Admits out)
    (_ho : Onnx.Reshape az target s out) (hn : Infer.reshapeNoop (.tensor tt) (.tensor ot) = true)
    (hk : tt.staticShape.bind allKnown = some dims) : out = s := by
  unfold Infer.reshapeNoop at hn
  simp only at hn
  split at hn
  · rename_i p q hp hq
    have hpq : p = q := by simpa using hn
    subst hpq
    rw [hp] at hk
    simp only [Option.bind_some] at hk
    rw [PShape.describes_known (hx.2 p hp) hk, PShape.describes_known (hout.2 p hq) hk]
  · cases hn

/-- Equal lengths, and equal wherever the target is not −1. -/
def MatchOff : List Int → PShape → PShape → Prop
  | [], [], [] => True
  | v :: vs, d :: ds, e :: es => (v ≠ -1 → d = e) ∧ MatchOff vs ds es
  | _, _, _ => False

theorem matchOff_fill {x : Nat} {target : List Int} {dims : PShape} (hl : dims.length = target.length) :
    MatchOff target dims (Infer.fillNegOne x target dims) := by
  induction target generalizing dims with
  | nil => cases dims <;> simp_all [MatchOff, Infer.fillNegOne]
  | cons v vs ih =>
    cases dims with
    | nil => simp at hl
    | cons d ds =>
      simp only [Infer.fillNegOne, MatchOff]
      exact ⟨fun hv => by rw [if_neg hv], ih (by simpa using hl)⟩

theorem matchOff_refl {target : List Int} {dims : PShape} (hl : dims.length = target.length) :
    MatchOff target dims dims := by
  induction target generalizing dims with
  | nil => cases dims <;> simp_all [MatchOff]
  | cons v vs ih =>
    cases dims with
    | nil => simp at hl
    | cons d ds => exact ⟨fun _ => rfl, ih (by simpa using hl)⟩

/-- If the static shape of the output is that of the input, the output can differ from the input only
where the target is −1. -/
theorem reshape_off {az : Bool} {p : PShape} {s : List Nat} {k : Nat} {target : List Int} {out t : List Nat}
    {q : PShape} (h : Onnx.ReshapeDims az s k target out) (ht : t = s.drop k)
    (hm : MatchOff target (Infer.reshapeDims az (some p) k target) q) (hq : q.Describes t)
    (hpos : 0 < prodShape t) :
    (target.count (-1) = 0 → out = t) ∧
    (target.count (-1) = 1 → ∃ d e c, prodShape out = d * c ∧ prodShape t = e * c ∧ (d = e → out = t)) := by
  induction target generalizing k out t q with
  | nil =>
    cases out with
    | cons _ _ => simp [Onnx.ReshapeDims] at h
    | nil =>
      cases q with
      | cons _ _ => simp [Infer.reshapeDims, MatchOff] at hm
      | nil =>
        cases t with
        | nil => simp
        | cons _ _ => simp [PShape.Describes] at hq
  | cons v vs ih =>
    cases out with
    | nil => simp [Onnx.ReshapeDims] at h
    | cons d ds =>
      cases q with
      | nil => simp [Infer.reshapeDims, MatchOff] at hm
      | cons e es =>
        cases t with
        | nil => simp [PShape.Describes] at hq
        | cons x xs =>
          simp only [Onnx.ReshapeDims] at h
          obtain ⟨h1, h2⟩ := h
          simp only [Infer.reshapeDims, MatchOff] at hm
          simp only [PShape.Describes] at hq
          simp only [prodShape] at hpos
          have hx : 0 < x := Nat.pos_of_mul_pos_right hpos
          have hxs : 0 < prodShape xs := Nat.pos_of_mul_pos_left hpos
          have hxk : s[k]? = some x := by
            have := congrArg (·[0]?) ht
            simpa using this.symm
          have hdrop : xs = s.drop (k + 1) := by
            have := congrArg List.tail ht
            simpa using this
          obtain ⟨ih0, ih1⟩ := ih h2 hdrop hm.2 hq.2 hxs
          have hhead : v ≠ -1 → d = x := by
            intro hv
            have hde := hm.1 hv
            rcases h1 with h1 | ⟨-, -, h3⟩ | ⟨h1, h3⟩
            · exact absurd h1 hv
            · rw [hxk] at h3; cases h3; rfl
            · by_cases hd : d = 0
              · subst hd
                simp at h1
                subst h1
                rw [if_neg (by omega), if_pos rfl, h3 rfl] at hde
                have := hq.1 0 hde.symm
                omega
              · rw [if_pos (by omega)] at hde
                have := hq.1 _ hde.symm
                omega
          rw [List.count_cons]
          constructor
          · intro hc
            have hv : v ≠ -1 := by intro hv; simp [hv] at hc
            rw [hhead hv, ih0 (by omega)]
          · intro hc
            by_cases hv : v = -1
            · have hc0 : vs.count (-1) = 0 := by simpa [hv] using hc
              rw [ih0 hc0]
              exact ⟨d, x, prodShape xs, rfl, rfl, fun h => by rw [h]⟩
            · have hc1 : vs.count (-1) = 1 := by simpa [hv] using hc
              obtain ⟨d', e', c', h3, h4, h5⟩ := ih1 hc1
              refine ⟨d', e', x * c', ?_, ?_, ?_⟩
              · simp only [prodShape, hhead hv, h3]; rw [Nat.mul_left_comm]
              · simp only [prodShape, h4]; rw [Nat.mul_left_comm]
              · intro hde; rw [h5 hde, hhead hv]

theorem length_reshapeDims {az : Bool} {sh : Option PShape} {k : Nat} {target : List Int} :
    (Infer.reshapeDims az sh k target).length = target.length := by
  induction target generalizing k with
  | nil => rfl
  | cons v vs ih => simp [Infer.reshapeDims, ih]

theorem matchOff_static {az : Bool} {sh : Option PShape} {target : List Int} :
    MatchOff target (Infer.reshapeDims az sh 0 target) (Infer.reshapeStatic az sh target) := by
  have hl : (Infer.reshapeDims az sh 0 target).length = target.length := length_reshapeDims
  unfold Infer.reshapeStatic
  dsimp only
  split
  · split
    · split
      · exact matchOff_fill hl
      · exact matchOff_refl hl
    · exact matchOff_refl hl
  · exact matchOff_refl hl

/-- A Reshape with constant target that is dropped as a no-op returns its input's shape, for every
input that is not empty, whatever is known statically. -/
theorem C18_noop_constant {az : Bool} {target : List Int} {shapeTy : Option ArgType} {prev t : ArgType}
    {tt : TensorType} {s out : List Nat} (hx : (ArgType.tensor tt).Admits s)
    (ht : Infer.reshape az (some target) shapeTy prev (.tensor tt) = some t)
    (ho : Onnx.Reshape az target s out) (hn : Infer.reshapeNoop (.tensor tt) t = true)
    (hpos : 0 < prodShape s) : out = s := by
  simp only [Infer.reshape, Infer.reshapeRank, Option.map_some, Infer.reshapeStaticOut] at ht
  split at ht
  · cases ht
  · split at ht
    · cases ht
    · simp only [Option.some.injEq] at ht
      subst ht
      unfold Infer.reshapeOut at hn
      split at hn
      · simp [Infer.reshapeNoop] at hn
      · simp only [Infer.reshapeNoop] at hn
        split at hn
        · rename_i p q hp hq
          have hpq : p = q := by simpa using hn
          subst hpq
          have hsh : (ArgType.tensor tt).staticShape = some p := hp
          simp only [Option.some.injEq] at hq
          rw [hsh] at hq
          have hm : MatchOff target (Infer.reshapeDims az (some p) 0 target) p := by
            have := matchOff_static (az := az) (sh := some p) (target := target)
            rw [hq] at this
            exact this
          obtain ⟨h0, h1⟩ := reshape_off ho.2.1 rfl hm (hx.2 p hp) (by simpa using hpos)
          have hc := ho.1
          by_cases hc0 : target.count (-1) = 0
          · simpa using h0 hc0
          · obtain ⟨d, e, c, h3, h4, h5⟩ := h1 (by omega)
            rw [List.drop_zero] at h4 h5
            have hcpos : 0 < c := by rw [h4] at hpos; exact Nat.pos_of_mul_pos_left hpos
            have hpe := ho.2.2
            rw [h3, h4] at hpe
            exact h5 (Nat.eq_of_mul_eq_mul_right hcpos hpe)
        · cases hn

example : Infer.reshapeNoop (.tensor ⟨.f32, 2, some [none, some 3]⟩)
    (.tensor ⟨.f32, 2, some (Infer.reshapeStatic false (some [none, some 3]) [-1, 3])⟩) = true := by decide

/-- With a run-time target, two unknown dimensions are taken as equal: input `[2, 3]` and output
`[3, 2]`, both with static shape `[?, ?]`; the node is dropped although it changes the shape. -/
theorem C18_noop_runtime_wrong :
    ∃ (x prev : TensorType) (t : ArgType), (ArgType.tensor x).Admits [2, 3] ∧
      (ArgType.tensor prev).Admits [3, 2] ∧ Onnx.Reshape false [3, 2] [2, 3] [3, 2] ∧
      Infer.reshape false none (some (.shape 2)) (.tensor prev) (.tensor x) = some t ∧
      Infer.reshapeNoop (.tensor x) t = true := by
  refine ⟨⟨.f32, 2, some [none, none]⟩, ⟨.f32, 2, some [none, none]⟩, .tensor ⟨.f32, 2, some [none, none]⟩,
    ⟨rfl, ?_⟩, ⟨rfl, ?_⟩, ⟨by decide, by simp [Onnx.ReshapeDims], by decide⟩, by decide, by decide⟩
  · intro p hp; cases hp; simp [PShape.Describes]
  · intro p hp; cases hp; simp [PShape.Describes]

end OnnxIR
