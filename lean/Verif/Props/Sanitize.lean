import Verif.Model.Sanitize
import Batteries.Data.Char.AsciiCasing

/-!
# C34: names in generated code
-/

namespace OnnxIR

/-! ## Specification -/

/-- Characters that may occur in an identifier (of those the importer emits). -/
def identChar (c : Char) : Bool := c.isLower || c.isDigit || c == '_'

/-- The shape of a Rust identifier: a letter and identifier characters, or an underscore and at
least one identifier character. -/
def IdentShape : List Char → Prop
  | [] => False
  | c :: cs => (c.isAlpha = true ∨ (c = '_' ∧ cs ≠ [])) ∧ ∀ d ∈ cs, identChar d = true

/-- The strict keywords of Rust (and the reserved ones), which are no identifiers. -/
def rustKeywords : List String :=
  ["as", "async", "await", "break", "const", "continue", "crate", "dyn", "else", "enum", "extern",
   "false", "fn", "for", "if", "impl", "in", "let", "loop", "match", "mod", "move", "mut", "pub",
   "ref", "return", "self", "static", "struct", "super", "trait", "true", "type", "unsafe", "use",
   "where", "while", "abstract", "become", "box", "do", "final", "gen", "macro", "override", "priv",
   "try", "typeof", "unsized", "virtual", "yield"]

/-! ## Proof -/

/-- No two underscores in a row; the flag says whether the character before is one. -/
def NoAdj : Bool → List Char → Prop
  | _, [] => True
  | u, c :: cs => (c = '_' → u = false) ∧ NoAdj (c == '_') cs

/-- The form every sanitised name has. -/
structure NormalName (l : List Char) : Prop where
  chars : ∀ c ∈ l, identChar c = true
  adj : NoAdj false l
  head : ∀ c cs, l = c :: cs → c.isDigit = false
  last : ∀ c, l.getLast? = some c → c = '_' → l = ['_']

theorem isAlphanum_iff {c : Char} : c.isAlphanum = true ↔ c.isUpper = true ∨ c.isLower = true ∨ c.isDigit = true := by
  simp [Char.isAlphanum, Char.isAlpha, or_assoc]

theorem digit_not_upper {c : Char} (h : c.isDigit = true) : c.isUpper = false := by
  simp only [Char.isDigit, Char.isUpper, Bool.and_eq_true, decide_eq_true_eq, ge_iff_le,
    UInt32.le_iff_toNat_le, decide_eq_false_iff_not] at *
  have h1 := h.2
  have : ('9' : Char).val.toNat < ('A' : Char).val.toNat := by decide
  omega

theorem alpha_not_digit {c : Char} (h : c.isDigit = true) : c.isAlpha = false := by
  have h1 := digit_not_upper h
  have h2 : c.isLower = false := by
    rw [Bool.eq_false_iff]
    intro h2
    simp only [Char.isDigit, Char.isLower, Bool.and_eq_true, decide_eq_true_eq, ge_iff_le,
      UInt32.le_iff_toNat_le] at h h2
    have : ('9' : Char).val.toNat < ('a' : Char).val.toNat := by decide
    omega
  simp [Char.isAlpha, h1, h2]

theorem toLower_ident {c : Char} (h : c.isAlphanum = true) :
    identChar c.toLower = true ∧ c.toLower ≠ '_' := by
  have key : c.toLower.isLower = true ∨ c.toLower.isDigit = true := by
    by_cases ha : c.isAlpha = true
    · left; rw [Char.isLower_toLower_eq_isAlpha]; exact ha
    · right
      have hu : ¬ c.isUpper = true := fun h' => ha (by simp [Char.isAlpha, h'])
      rw [Char.toLower_eq_of_not_isUpper hu]
      simp [Char.isAlphanum] at h
      simpa [ha] using h
  refine ⟨by rcases key with h | h <;> simp only [identChar, h, Bool.true_or, Bool.or_true], ?_⟩
  intro he
  rw [he] at key
  revert key
  decide

/-- The characters of the loop's result, and how underscores sit in it. -/
theorem sanLoop_form : ∀ (l : List Char) (first lower under : Bool), (first = true → under = false) →
    (∀ c ∈ sanLoop first lower under l, identChar c = true) ∧
    NoAdj under (sanLoop first lower under l)
  | [], _, _, _, _ => by simp [sanLoop, NoAdj]
  | c :: cs, first, lower, under, hf => by
    have ih1 := sanLoop_form cs false false true (by simp)
    have ih2 := sanLoop_form cs false false under (by simp)
    have ih3 := sanLoop_form cs false c.isLower false (by simp)
    have hu : identChar '_' = true := by decide
    simp only [sanLoop]
    split
    · split
      · next h =>
        have hund : under = false := by
          rcases h with h | h
          · exact h
          · exact hf h
        refine ⟨?_, fun _ => hund, ih1.2⟩
        intro d hd
        rcases List.mem_cons.1 hd with rfl | hd
        · exact hu
        · exact ih1.1 d hd
      · exact ih2
    · split
      · next hc =>
        obtain ⟨h1, h2⟩ := toLower_ident hc
        have h2' : (c.toLower == '_') = false := by simpa using h2
        split
        · next h =>
          refine ⟨?_, fun _ => h.2.2, fun e => absurd e h2, by rw [h2']; exact ih3.2⟩
          intro d hd
          rcases List.mem_cons.1 hd with rfl | hd
          · exact hu
          · rcases List.mem_cons.1 hd with rfl | hd
            · exact h1
            · exact ih3.1 d hd
        · refine ⟨?_, fun e => absurd e h2, by rw [h2']; exact ih3.2⟩
          intro d hd
          rcases List.mem_cons.1 hd with rfl | hd
          · exact h1
          · exact ih3.1 d hd
      · split
        · next h =>
          refine ⟨?_, fun _ => h.1, ih1.2⟩
          intro d hd
          rcases List.mem_cons.1 hd with rfl | hd
          · exact hu
          · exact ih1.1 d hd
        · exact ih2

/-- The loop changes nothing in a normal name. -/
theorem sanLoop_normal : ∀ (l : List Char) (first lower under : Bool),
    (∀ c ∈ l, identChar c = true) → NoAdj under l → sanLoop first lower under l = l
  | [], _, _, _, _, _ => rfl
  | c :: cs, first, lower, under, hc, ha => by
    have hcs : ∀ d ∈ cs, identChar d = true := fun d hd => hc d (List.mem_cons_of_mem _ hd)
    simp only [NoAdj] at ha
    simp only [sanLoop]
    split
    · next h =>
      subst h
      rw [if_pos (Or.inl (ha.1 rfl)), sanLoop_normal cs false false true hcs ha.2]
    · next h =>
      have hcl := hc c List.mem_cons_self
      have hlow : c.isLower = true ∨ c.isDigit = true := by
        simpa [identChar, h] using hcl
      have hnu : c.isUpper = false := by
        rcases hlow with hl | hd
        · simpa using Char.not_isUpper_of_isLower hl
        · exact digit_not_upper hd
      have han : c.isAlphanum = true := isAlphanum_iff.2 (Or.inr hlow)
      rw [if_pos han, if_neg (by simp [hnu]), Char.toLower_eq_of_not_isUpper (by simp [hnu])]
      have h2 : (c == '_') = false := by simpa using h
      rw [h2] at ha
      rw [sanLoop_normal cs false c.isLower false hcs ha.2]

theorem NoAdj.prefix : ∀ {l m : List Char} {u : Bool}, NoAdj u (l ++ m) → NoAdj u l
  | [], _, _, _ => trivial
  | _ :: _, _, _, h => ⟨h.1, NoAdj.prefix h.2⟩

theorem noAdj_all_under : ∀ {l : List Char}, NoAdj true l → (∀ c ∈ l, c = '_') → l = []
  | [], _, _ => rfl
  | c :: cs, h, ha => by
    have := h.1 (ha c List.mem_cons_self)
    simp at this

/-- Popping trailing underscores. -/
theorem popUnder_spec : ∀ l : List Char,
    (∃ us, l = us ++ popUnder l ∧ ∀ c ∈ us, c = '_') ∧
    ((∀ c ∈ popUnder l, c = '_') ∨ ∃ c cs, popUnder l = c :: cs ∧ c ≠ '_') ∧
    (l ≠ [] → popUnder l ≠ [])
  | [] => ⟨⟨[], rfl, by simp⟩, Or.inl (by simp [popUnder]), by simp⟩
  | c :: cs => by
    obtain ⟨⟨us, h1, h2⟩, h3, h4⟩ := popUnder_spec cs
    simp only [popUnder]
    split
    · next h =>
      split
      · next ha =>
        refine ⟨⟨[], rfl, by simp⟩, Or.inl ?_, by simp⟩
        intro d hd
        have := List.all_eq_true.1 ha d hd
        simpa using this
      · refine ⟨⟨c :: us, by rw [List.cons_append, ← h1], ?_⟩, h3, fun _ => h4 h.2⟩
        intro d hd
        rcases List.mem_cons.1 hd with rfl | hd
        · exact h.1
        · exact h2 d hd
    · next h =>
      refine ⟨⟨[], rfl, by simp⟩, ?_, by simp⟩
      by_cases hc : c = '_'
      · have : cs = [] := Classical.byContradiction fun hne => h ⟨hc, hne⟩
        subst this
        left
        simp [hc]
      · exact Or.inr ⟨c, cs, rfl, hc⟩

theorem identChar_cases {c : Char} (h : identChar c = true) (hn : ¬ (c.isAlpha = true ∨ c = '_')) :
    c.isDigit = true := by
  simp only [identChar, Bool.or_eq_true, beq_iff_eq] at h
  rcases h with (h | h) | h
  · exact absurd (Or.inl (by simp [Char.isAlpha, h])) hn
  · exact h
  · exact absurd (Or.inr h) hn

theorem getLast?_cons_ne {c : Char} {l : List Char} (h : l ≠ []) :
    (c :: l).getLast? = l.getLast? := by
  cases l with
  | nil => exact absurd rfl h
  | cons d l => simp

/-- Every sanitised name is normal. -/
theorem sanitize_normal (name : List Char) : NormalName (sanitizeChars name) := by
  unfold sanitizeChars
  obtain ⟨hc, ha⟩ := sanLoop_form name true false false (by simp)
  generalize sanLoop true false false name = r at *
  obtain ⟨⟨us, h1, h2⟩, h3, h4⟩ := popUnder_spec r.reverse
  have hr : r = (popUnder r.reverse).reverse ++ us.reverse := by
    have := congrArg List.reverse h1
    simpa using this
  generalize hm : (popUnder r.reverse).reverse = m at *
  have hmc : ∀ c ∈ m, identChar c = true := fun c hcm => hc c (by rw [hr]; simp [hcm])
  have hma : NoAdj false m := NoAdj.prefix (m := us.reverse) (by rw [← hr]; exact ha)
  have hlast : ∀ c, m.getLast? = some c → c = '_' → m = ['_'] := by
    intro c hcl hcu
    subst hcu
    have hpop : popUnder r.reverse = m.reverse := by rw [← hm]; simp
    rw [hpop] at h3
    rcases h3 with h3 | ⟨c, cs, h3, h5⟩
    · cases m with
      | nil => simp at hcl
      | cons d l =>
        have hd : d = '_' := h3 d (by simp)
        subst hd
        have : l = [] := noAdj_all_under hma.2 (fun c hcl => h3 c (by simp [hcl]))
        rw [this]
    · have hmm : m = cs.reverse ++ [c] := by
        have := congrArg List.reverse h3
        simpa using this
      rw [hmm] at hcl
      simp at hcl
      exact absurd hcl h5
  cases hcase : m with
  | nil =>
    exact ⟨by simp [sanHead], trivial, by simp [sanHead], by simp [sanHead]⟩
  | cons c cs =>
    rw [hcase] at hmc hma hlast
    simp only [sanHead]
    split
    · next h =>
      refine ⟨hmc, hma, ?_, hlast⟩
      intro d ds hd
      cases hd
      rcases h with h | h
      · cases hdig : c.isDigit with
        | false => rfl
        | true => rw [alpha_not_digit hdig] at h; cases h
      · subst h; decide
    · next h =>
      have hdig := identChar_cases (hmc c List.mem_cons_self) h
      have hcu : c ≠ '_' := fun e => h (Or.inr e)
      refine ⟨?_, ?_, ?_, ?_⟩
      · intro d hd
        rcases List.mem_cons.1 hd with rfl | hd
        · decide
        · exact hmc d hd
      · refine ⟨fun _ => rfl, fun e => absurd e hcu, hma.2⟩
      · intro d ds hd; cases hd; decide
      · intro d hd hdu
        rw [getLast?_cons_ne (by simp)] at hd
        have := hlast d hd hdu
        simp at this
        exact absurd this.1 hcu

theorem popUnder_normal {l : List Char} (h : NormalName l) : (popUnder l.reverse).reverse = l := by
  cases hr : l.reverse with
  | nil => have : l = [] := by simpa using hr
           subst this; rfl
  | cons c cs =>
    have hl : l = cs.reverse ++ [c] := by
      have := congrArg List.reverse hr
      simpa using this
    simp only [popUnder]
    split
    · next hc =>
      have := h.last c (by rw [hl]; simp) hc.1
      rw [this] at hr
      simp at hr
      exact absurd hr.2 hc.2
    · rw [← hr]; simp

/-- Sanitising a normal name changes nothing. -/
theorem sanitize_of_normal {l : List Char} (h : NormalName l) : sanitizeChars l = l := by
  unfold sanitizeChars
  rw [sanLoop_normal l _ _ _ h.chars h.adj, popUnder_normal h]
  cases l with
  | nil => rfl
  | cons c cs =>
    simp only [sanHead]
    split
    · rfl
    · next hn =>
      have := identChar_cases (h.chars c List.mem_cons_self) hn
      rw [h.head c cs rfl] at this
      cases this

/-- Letters and digits are not lost. -/
theorem sanLoop_keeps : ∀ (l : List Char) (first lower under : Bool),
    (∃ c ∈ l, c.isAlphanum = true) → ∃ c ∈ sanLoop first lower under l, c ≠ '_'
  | [], _, _, _, h => by obtain ⟨c, hc, _⟩ := h; simp at hc
  | c :: cs, first, lower, under, h => by
    by_cases hc : c.isAlphanum = true
    · have hu : c ≠ '_' := by intro e; subst e; revert hc; decide
      have hl := (toLower_ident hc).2
      simp only [sanLoop, hu, hc, if_true, if_false]
      split
      · exact ⟨c.toLower, by simp, hl⟩
      · exact ⟨c.toLower, by simp, hl⟩
    · have h' : ∃ c ∈ cs, c.isAlphanum = true := by
        obtain ⟨d, hd, hd'⟩ := h
        rcases List.mem_cons.1 hd with rfl | hd
        · exact absurd hd' hc
        · exact ⟨d, hd, hd'⟩
      have k1 := sanLoop_keeps cs false false true h'
      have k2 := sanLoop_keeps cs false false under h'
      simp only [sanLoop, hc]
      have lift : ∀ l : List Char, (∃ c ∈ l, c ≠ '_') → ∃ c ∈ '_' :: l, c ≠ '_' :=
        fun l ⟨d, hd, hd'⟩ => ⟨d, List.mem_cons_of_mem _ hd, hd'⟩
      split
      · split
        · exact lift _ k1
        · exact k2
      · simp only [Bool.false_eq_true, if_false]
        split
        · exact lift _ k1
        · exact k2

theorem popUnder_keeps {l : List Char} (h : ∃ c ∈ l, c ≠ '_') : ∃ c ∈ popUnder l, c ≠ '_' := by
  obtain ⟨⟨us, h1, h2⟩, _, _⟩ := popUnder_spec l
  obtain ⟨c, hc, hu⟩ := h
  rw [h1] at hc
  rcases List.mem_append.1 hc with hc | hc
  · exact absurd (h2 c hc) hu
  · exact ⟨c, hc, hu⟩

/-- **C34 (well-formedness).** A name with an ASCII letter or digit in it is sanitised to
something of the shape of a Rust identifier. What is missing: the result may be a keyword, names
without letters and digits give `""` or `"_"`, and different names may be sanitised to the same
one; see the counterexamples below. -/
theorem C34_sanitized_is_identifier_partial (name : List Char)
    (h : ∃ c ∈ name, c.isAlphanum = true) : IdentShape (sanitizeChars name) := by
  have hn := sanitize_normal name
  have hk : ∃ c ∈ sanitizeChars name, c ≠ '_' := by
    unfold sanitizeChars
    have h1 := sanLoop_keeps name true false false h
    generalize sanLoop true false false name = r at *
    have h2 : ∃ c ∈ (popUnder r.reverse).reverse, c ≠ '_' := by
      have := popUnder_keeps (l := r.reverse) (by simpa using h1)
      simpa using this
    generalize (popUnder r.reverse).reverse = m at *
    cases m with
    | nil => simp at h2
    | cons d ds =>
      simp only [sanHead]
      split
      · exact h2
      · obtain ⟨c, hc, hu⟩ := h2
        exact ⟨c, List.mem_cons_of_mem _ hc, hu⟩
  generalize sanitizeChars name = l at *
  cases l with
  | nil => simp at hk
  | cons c cs =>
    refine ⟨?_, fun d hd => hn.chars d (List.mem_cons_of_mem _ hd)⟩
    by_cases hcu : c = '_'
    · right
      refine ⟨hcu, ?_⟩
      intro hcs
      subst hcs
      obtain ⟨d, hd, hd'⟩ := hk
      simp at hd
      exact hd' (hd.trans hcu)
    · left
      cases ha : c.isAlpha with
      | true => rfl
      | false =>
        have := identChar_cases (hn.chars c List.mem_cons_self) (by simp [ha, hcu])
        rw [hn.head c cs rfl] at this
        cases this

/-- **C34 (idempotence).** Sanitising twice is sanitising once, for every name. -/
theorem C34_sanitize_idempotent (name : List Char) :
    sanitizeChars (sanitizeChars name) = sanitizeChars name :=
  sanitize_of_normal (sanitize_normal name)

/-- The same on strings. -/
theorem C34_sanitizeName_idempotent (name : String) :
    sanitizeName (sanitizeName name) = sanitizeName name := by
  simp [sanitizeName, C34_sanitize_idempotent]

/-- Only lower-case letters, digits and underscores, and no digit in front, for every name. -/
theorem C34_sanitized_characters (name : List Char) :
    (∀ c ∈ sanitizeChars name, identChar c = true) ∧
    ∀ c cs, sanitizeChars name = c :: cs → c.isDigit = false :=
  ⟨(sanitize_normal name).chars, (sanitize_normal name).head⟩

/-- Names that are already of that form keep their name. -/
theorem C34_sanitize_keeps_normal_names (name : List Char) (h : NormalName name) :
    sanitizeChars name = name := sanitize_of_normal h

/-! ## Cases -/

/-- An ordinary name from an exporter. -/
example : (∃ c ∈ "onnx__GlobalAveragePool_0".toList, c.isAlphanum = true) ∧
    sanitizeName "onnx__GlobalAveragePool_0" = "onnx_global_average_pool_0" ∧
    sanitizeName "123tensor" = "_123tensor" ∧ sanitizeName "/model/layer.1/Add:0_" =
      "model_layer_1_add_0" := by
  refine ⟨⟨'o', by decide, by decide⟩, by decide +kernel, by decide +kernel, by decide +kernel⟩

/-- **Different values get the same name.** -/
theorem C34_not_injective : sanitizeName "a.b" = sanitizeName "a/b" ∧ ("a.b" : String) ≠ "a/b" :=
  by decide +kernel

/-- **A keyword is not an identifier.** -/
theorem C34_keyword : sanitizeName "type" ∈ rustKeywords ∧ sanitizeName "Self" ∈ rustKeywords := by
  decide +kernel

/-- **A name of punctuation becomes the empty name**, which stands for an absent optional input, or
the wildcard. -/
theorem C34_empty : sanitizeName ":" = "" ∧ sanitizeName "::" = "_" ∧
    ¬ IdentShape (sanitizeChars ":".toList) ∧ ¬ IdentShape (sanitizeChars "::".toList) := by
  refine ⟨by decide +kernel, by decide +kernel, ?_, ?_⟩
  · intro h; exact h
  · intro h
    have : sanitizeChars "::".toList = ['_'] := by decide +kernel
    rw [this] at h
    rcases h.1 with h | h
    · revert h; decide
    · exact h.2 rfl

end OnnxIR
