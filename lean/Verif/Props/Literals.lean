import Verif.Spec.Literals
import Mathlib.Tactic.Ring

/-!
# C90: numbers in the generated source stand for the configured numbers
-/

namespace OnnxIR.Lit

/-! ## Digits -/

theorem takeDigits_append : ∀ {ds : Text} (_ : ∀ c ∈ ds, c.isDigit = true) (r : Text),
    takeDigits (ds ++ r) = (ds ++ (takeDigits r).1, (takeDigits r).2)
  | [], _, r => rfl
  | c :: ds, h, r => by
    have ih := takeDigits_append (ds := ds) (fun c hc => h c (List.mem_cons_of_mem _ hc)) r
    simp only [List.cons_append, takeDigits, h c List.mem_cons_self, if_true, ih]

theorem natText_digits (n : Nat) : ∀ c ∈ natText n, c.isDigit = true :=
  fun _ hc => Nat.isDigit_of_mem_toDigits (by omega) (by omega) hc

theorem natText_ne (n : Nat) : natText n ≠ [] := Nat.toDigits_ne_nil

theorem number_natText (n : Nat) : number (natText n) = n := Nat.ofDigitChars_ten_toDigits

theorem fracText_digits (ds : List (Fin 10)) : ∀ c ∈ fracText ds, c.isDigit = true := by
  intro c hc
  obtain ⟨d, -, rfl⟩ := List.mem_map.1 hc
  exact (by decide : ∀ d : Fin 10, (Nat.digitChar d.val).isDigit = true) d

theorem number_fracText_from : ∀ (ds : List (Fin 10)) (n : Nat), Nat.ofDigitChars 10 (fracText ds) n =
    (ds.map Fin.val).foldl (fun n k => 10 * n + k) n
  | [], n => by simp [fracText]
  | d :: ds, n => by
    simp only [fracText, List.map_cons, List.foldl_cons]
    rw [Nat.ofDigitChars_cons_digitChar_of_lt_ten d.isLt]
    exact number_fracText_from ds _

theorem number_fracText (ds : List (Fin 10)) : number (fracText ds) = (ds.map Fin.val).foldl (fun n k => 10 * n + k) 0 :=
  number_fracText_from ds 0

/-! ## Integers -/

theorem head_ne_minus {n : Nat} {r : Text} : ∀ t, natText n ++ r ≠ '-' :: t := by
  intro t h
  cases hn : natText n with
  | nil => exact natText_ne n hn
  | cons c cs =>
    have := natText_digits n c (by rw [hn]; exact List.mem_cons_self)
    rw [hn] at h
    simp only [List.cons_append, List.cons.injEq] at h
    rw [h.1] at this
    exact absurd this (by decide)

theorem readNat_text {ty s : Text} (hs : takeDigits s = ([], ty)) (n : Nat) : readNat ty (natText n ++ s) = some n := by
  unfold readNat
  rw [takeDigits_append (natText_digits n), hs]
  simp [natText_ne, number_natText]

theorem readInt_text {ty s : Text} (hs : takeDigits s = ([], ty)) (i : Int) : readInt ty (intText i ++ s) = some i := by
  unfold intText
  split
  · next h =>
    show (readNat ty (natText i.natAbs ++ s)).map (fun n => -(n : Int)) = some i
    rw [readNat_text hs]
    exact congrArg some (by show -(i.natAbs : Int) = i; omega)
  · next h =>
    rw [readInt]
    · rw [readNat_text hs]
      exact congrArg some (by show (i.natAbs : Int) = i; omega)
    · exact head_ne_minus

/-! ## Floats -/

/-- A suffix as it is written, and what is left of it after the digits. -/
structure Suffix (s ty : Text) : Prop where
  rest : takeDigits s = ([], ty)
  frac : readFrac ty = some ([], ty)
  exp : readExp ty = some (0, ty)

theorem readExp_text {s ty : Text} (h : Suffix s ty) (e : Option Int) :
    (readExp (takeDigits (expText e ++ s)).2) = some (e.getD 0, ty) ∧ (takeDigits (expText e ++ s)).1 = [] := by
  cases e with
  | none => simp [expText, h.rest, h.exp]
  | some e =>
    have ht : takeDigits (expText (some e) ++ s) = ([], expText (some e) ++ s) := by
      simp [expText, takeDigits]
    rw [ht]
    refine ⟨?_, rfl⟩
    simp only [expText, intText, List.cons_append]
    split
    · next hn =>
      simp only [List.cons_append, readExp, takeDigits_append (natText_digits _), h.rest, List.append_nil, natText_ne, if_false,
        number_natText, Option.some.injEq, Prod.mk.injEq, and_true, Option.getD_some]
      omega
    · next hn =>
      rw [readExp]
      · simp only [takeDigits_append (natText_digits _), h.rest, List.append_nil, natText_ne, if_false,
          number_natText, Option.some.injEq, Prod.mk.injEq, and_true, Option.getD_some]
        omega
      · exact head_ne_minus

theorem readMagnitude_text {s ty : Text} (h : Suffix s ty) (w : Nat) {fs : Text} (hf : ∀ c ∈ fs, c.isDigit = true) (e : Option Int) :
    readMagnitude ty (natText w ++ ((if fs = [] then [] else '.' :: fs) ++ (expText e ++ s))) =
      some (((w : Rat) + (number fs : Rat) / 10 ^ fs.length) * (10 : Rat) ^ (e.getD 0)) := by
  obtain ⟨he, he1⟩ := readExp_text h e
  unfold readMagnitude
  rw [takeDigits_append (natText_digits w)]
  have hne : ∀ r : Text, natText w ++ r ≠ [] := fun r hr => natText_ne w (List.append_eq_nil_iff.1 hr).1
  by_cases hfs : fs = []
  · subst hfs
    have hfr : readFrac (takeDigits (expText e ++ s)).2 = some ([], (takeDigits (expText e ++ s)).2) := by
      cases e with
      | none => simpa [expText, h.rest] using h.frac
      | some e => simp [expText, takeDigits, readFrac]
    simp only [if_true, List.nil_append, hfr, Option.bind_some, he, he1, List.append_nil, natText_ne, if_false, number_natText]
  · have ht : takeDigits ('.' :: (fs ++ (expText e ++ s))) = ([], '.' :: (fs ++ (expText e ++ s))) := by
      simp [takeDigits]
    simp only [hfs, if_false, List.cons_append, ht, List.append_nil, natText_ne, readFrac, takeDigits_append hf, he1, Option.bind_some, he,
      if_true, number_natText]

theorem suffix_none : Suffix [] [] := ⟨rfl, rfl, rfl⟩
theorem suffix_f32 : Suffix "f32".toList "f32".toList := ⟨by decide +kernel, by decide +kernel, by decide +kernel⟩
theorem suffix_f64 : Suffix "f64".toList "f64".toList := ⟨by decide +kernel, by decide +kernel, by decide +kernel⟩
theorem suffix_pad : Suffix "_f32".toList "f32".toList := ⟨by decide +kernel, by decide +kernel, by decide +kernel⟩

/-- The three constants are not literals, and literals are not the constants. -/
theorem readFloat_text {ty suf s : Text} (hty : ty = "f32".toList ∨ ty = "f64".toList) (h : Suffix s suf) (neg : Bool) (w : Nat)
    {fs : Text} (hf : ∀ c ∈ fs, c.isDigit = true) (e : Option Int) :
    readFloat ty suf (signText neg ++ (natText w ++ ((if fs = [] then [] else '.' :: fs) ++ (expText e ++ s)))) =
      some (.fin neg (((w : Rat) + (number fs : Rat) / 10 ^ fs.length) * (10 : Rat) ^ (e.getD 0))) := by
  have hm := readMagnitude_text h w hf e
  revert hm
  generalize ((if fs = [] then [] else '.' :: fs) ++ (expText e ++ s)) = r
  intro hm
  have hne : ∀ t : Text, signText neg ++ (natText w ++ r) ≠ ty ++ t := by
    intro t heq
    have hf : ∀ u : Text, ty ++ u = 'f' :: (ty.tail ++ u) := by rcases hty with rfl | rfl <;> intro u <;> rfl
    rw [hf] at heq
    cases neg with
    | true => simp [signText] at heq
    | false =>
      cases hn : natText w with
      | nil => exact natText_ne w hn
      | cons c cs =>
        have hd := natText_digits w c (by rw [hn]; exact List.mem_cons_self)
        simp only [signText, Bool.false_eq_true, if_false, List.nil_append, hn, List.cons_append, List.cons.injEq] at heq
        rw [heq.1] at hd
        exact absurd hd (by decide)
  unfold readFloat
  rw [if_neg (hne _), if_neg (hne _), if_neg (hne _)]
  cases neg with
  | true =>
    show (readMagnitude suf (natText w ++ r)).map (Value.fin true) = _
    rw [hm]; rfl
  | false =>
    show (match natText w ++ r with
      | '-' :: t => (readMagnitude suf t).map (Value.fin true)
      | t => (readMagnitude suf t).map (Value.fin false)) = _
    split
    · next t ht => exact absurd ht (head_ne_minus t)
    · rw [hm]; rfl

theorem fracText_nil {ds : List (Fin 10)} : fracText ds = [] ↔ ds = [] := by simp [fracText]

theorem display_append (d : Dec) (s : Text) : display (.fin d) ++ s =
    signText d.neg ++ (natText d.whole ++ ((if fracText d.frac = [] then [] else '.' :: fracText d.frac) ++ (expText d.exp ++ s))) := by
  simp only [display, List.append_assoc, fracText_nil]

theorem value_text (d : Dec) : some (Value.fin d.neg
    (((d.whole : Rat) + (number (fracText d.frac) : Rat) / 10 ^ (fracText d.frac).length) * (10 : Rat) ^ (d.exp.getD 0))) =
      some (Num.fin d).value := by
  rw [number_fracText]
  simp only [Num.value, fracText, List.length_map]

/-! ## The property -/

/-- C90: an integer configuration value stands in the generated source as an expression with that value, with or without its type
behind it. -/
theorem C90_integers (i : Int) : readInt [] (intTokens i) = some i ∧
    (∀ ty ∈ ["usize".toList, "i64".toList, "i32".toList], readInt ty (suffixed ty i) = some i) := by
  constructor
  · simpa [intTokens] using readInt_text (s := []) (ty := []) rfl i
  · intro ty hty
    apply readInt_text
    revert ty; decide +kernel

theorem intText_chars (i : Int) : ∀ c ∈ intText i, c = '-' ∨ c.isDigit = true := by
  intro c hc
  unfold intText at hc
  split at hc
  · rcases List.mem_cons.1 hc with rfl | hc
    · exact .inl rfl
    · exact .inr (natText_digits _ c hc)
  · exact .inr (natText_digits _ c hc)

theorem intText_ne (i : Int) : intText i ≠ [] := by
  unfold intText; split
  · simp
  · exact natText_ne _

theorem span_comma : ∀ {t : Text} (r : Text), (∀ c ∈ t, c ≠ ',') → (t ++ ',' :: r).dropWhile (· ≠ ',') = ',' :: r ∧
    (t ++ ',' :: r).takeWhile (· ≠ ',') = t
  | t, r, h => by
    rw [List.takeWhile_append_of_pos (by simpa using h), List.dropWhile_append_of_pos (by simpa using h)]
    simp

theorem readItems_text : ∀ (is : List Int) (fuel : Nat), is.length ≤ fuel →
    readItems fuel (is.flatMap (fun i => intTokens i ++ [',']) ++ [']']) = some is
  | [], fuel, _ => by cases fuel <;> rfl
  | i :: is, 0, h => by simp at h
  | i :: is, fuel + 1, h => by
    have ih := readItems_text is fuel (by simpa using h)
    have hsp := span_comma (t := intTokens i) (is.flatMap (fun i => intTokens i ++ [',']) ++ [']']) (by
      intro c hc
      rcases intText_chars i c hc with rfl | hd
      · decide
      · rintro rfl; exact absurd hd (by decide))
    have heq : (i :: is).flatMap (fun i => intTokens i ++ [',']) ++ [']'] =
        intTokens i ++ ',' :: (is.flatMap (fun i => intTokens i ++ [',']) ++ [']']) := by simp
    rw [heq, readItems]
    · rw [hsp.1, hsp.2]
      simp only [(C90_integers i).1, Option.bind_some, ih, Option.map_some]
    · intro hbad
      have := congrArg List.length hbad
      have hpos := List.length_pos_iff.2 (intText_ne i)
      simp [intTokens] at this
      omega

/-- C90: a list of integers (a shape, axes, strides, …) stands there as an array with the same elements in the same order. -/
theorem C90_arrays (is : List Int) : readArray (arrayTokens is) = some is := by
  unfold arrayTokens
  show readItems _ (is.flatMap (fun i => intTokens i ++ [',']) ++ [']']) = some is
  apply readItems_text
  have : ∀ l : List Int, l.length ≤ (l.flatMap (fun i => intTokens i ++ [','])).length := by
    intro l
    induction l with
    | nil => simp
    | cons i l ih =>
      rw [List.flatMap_cons, List.length_append, List.length_append, List.length_cons, List.length_singleton]
      omega
  exact Nat.le_trans (this is) (List.length_append ▸ Nat.le_add_right _ _)

/-- C90: every float written by the functions made for it, infinities and not-a-number included, stands there as an expression with
that value, sign of zero included. -/
theorem C90_floats {ty : Text} (hty : ty = "f32".toList ∨ ty = "f64".toList) (x : Num) :
    readFloat ty ty (floatTokens ty x) = some x.value := by
  have hs : Suffix ty ty := by rcases hty with rfl | rfl; exacts [suffix_f32, suffix_f64]
  cases x with
  | fin d =>
    show readFloat ty ty (display (.fin d) ++ ty) = _
    rw [display_append, readFloat_text hty hs d.neg d.whole (fracText_digits _), value_text]
  | inf neg =>
    cases neg <;> rcases hty with rfl | rfl <;> decide +kernel
  | nan => rcases hty with rfl | rfl <;> decide +kernel

/-- C90, partial: the same of a finite float written in the three other ways: by its debug format (activations, dropout), inside a
quotation (Clip, Gemm, epsilon), and as padding value. Missing: floats that are not finite, for which it is false. -/
theorem C90_other_floats_partial {ty : Text} (hty : ty = "f32".toList ∨ ty = "f64".toList) (d : Dec) :
    readFloat ty [] (primitive (.fin d)) = some (Num.fin d).value ∧
    (quoted ty (.fin d)).bind (readFloat ty ty) = some (Num.fin d).value ∧
    readFloat "f32".toList "f32".toList (padValue (.fin d)) = some (Num.fin d).value := by
  refine ⟨?_, C90_floats hty (.fin d), ?_⟩
  · show readFloat ty [] (debug (.fin d)) = _
    by_cases hf : d.frac = [] ∧ d.exp = none
    · have h : debug (.fin d) = signText d.neg ++ (natText d.whole ++ ((if ['0'] = [] then [] else '.' :: ['0']) ++ (expText none ++ []))) := by
        simp only [debug, hf.1, hf.2, if_true, expText, List.append_assoc, List.append_nil]
        rfl
      rw [h, readFloat_text hty suffix_none d.neg d.whole (by decide), ← value_text]
      simp only [hf.1, hf.2, fracText, List.map_nil]
      have h0 : number ['0'] = 0 := by decide +kernel
      have h1 : number [] = 0 := by decide +kernel
      rw [h0, h1]
      simp
    · have h : debug (.fin d) = display (.fin d) ++ [] := by
        simp only [debug, display, List.append_nil]
        by_cases h1 : d.frac = []
        · have h2 : d.exp ≠ none := fun h2 => hf ⟨h1, h2⟩
          simp [h1, h2]
        · simp [h1]
      rw [h, display_append, readFloat_text hty suffix_none d.neg d.whole (fracText_digits _), value_text]
  · show readFloat _ _ (display (.fin d) ++ "_f32".toList) = _
    rw [display_append, readFloat_text (.inl rfl) suffix_pad d.neg d.whole (fracText_digits _), value_text]

/-- C90 fails for floats that are not finite in the three other ways: the debug format and the padding value leave a word that is no
number (`inf`, `NaN_f32`), so the generated code does not compile, and quoting one panics. -/
theorem C90_not_finite_wrong {ty : Text} (hty : ty = "f32".toList ∨ ty = "f64".toList) (x : Num) (hx : ∀ d, x ≠ .fin d) :
    readFloat ty [] (primitive x) = none ∧ quoted ty x = none ∧ readFloat "f32".toList "f32".toList (padValue x) = none := by
  cases x with
  | fin d => exact absurd rfl (hx d)
  | inf neg => cases neg <;> rcases hty with rfl | rfl <;> decide +kernel
  | nan => rcases hty with rfl | rfl <;> decide +kernel

/-- Concrete cases: 1.5e-7, -0.0, an array with a negative element, minus infinity. -/
example : floatTokens "f32".toList (.fin ⟨false, 1, [5], some (-7)⟩) = "1.5e-7f32".toList ∧
    primitive (.fin ⟨true, 0, [], none⟩) = "-0.0".toList ∧ padValue (.fin ⟨true, 3, [2, 5], none⟩) = "-3.25_f32".toList ∧
    arrayTokens [2, -13, 0] = "[2,-13,0,]".toList ∧ floatTokens "f64".toList (.inf true) = "f64::NEG_INFINITY".toList ∧
    padValue (.inf true) = "-inf_f32".toList := by decide +kernel

end OnnxIR.Lit
