import Verif.Model.ModelGen

/-!
# C87: every converted model gets files of its own

For any list of inputs `…/n.onnx` with different names `n` without dots: after the run `n.rs` holds the code of that model, it names
`n.bpk`, and `n.bpk` holds the weights of that model; files of other names are as before (`C87_files_partial`). Wherever the run stops,
by a panic or a crash, a finished source file has its finished weights beside it if the directory had no such source before
(`C87_crash_partial`). Names with dots or inputs from different directories overwrite each other (`C87_dotted_names_wrong`,
`C87_same_name_wrong`), and a run that stops early can leave old code with new weights (`C87_stale_source_wrong`).
-/

namespace OnnxIR.Driver

open OnnxIR.Ext (Chars components splitSlash)

variable {M W : Type}

/-! ## Specification -/

/-- No dot but perhaps at the beginning (a hidden file). -/
def NoDot (n : Chars) : Prop := n ≠ [] ∧ n ≠ ['.'] ∧ '.' ∉ n.tail

instance (n : Chars) : Decidable (NoDot n) := inferInstanceAs (Decidable (_ ∧ _))

/-- The input is a file `n.onnx` in some directory, and `n` has no dot but perhaps at the beginning. -/
def Plain (input n : Chars) : Prop :=
  ∃ d, input = d ++ n ++ ".onnx".toList ∧ (d = [] ∨ d.getLast? = some '/') ∧ NoDot n ∧ '/' ∉ n

/-- Each input is such a file, and their names differ. -/
structure Inputs (inputs names : List Chars) : Prop where
  length : inputs.length = names.length
  plain : ∀ (k : Nat) (i n : Chars), inputs[k]? = some i → names[k]? = some n → Plain i n
  distinct : names.Nodup

/-- The file called `n` with an extension. -/
def named (n : Chars) (ext : String) : Chars := n ++ '.' :: ext.toList

/-- The size the code states for its embedded weights. -/
def Embeds (o : Options) (size : Nat) (s : Option Nat) : Prop :=
  (o.embed = true → s = some size) ∧ (o.embed = false → s = none)

/-! ## Names -/

theorem lastDot_none : ∀ {f : Chars}, '.' ∉ f → lastDot f = none
  | [], _ => rfl
  | c :: cs, h => by
    simp only [List.mem_cons, not_or] at h
    simp only [lastDot, lastDot_none h.2, if_neg (Ne.symm h.1)]

theorem lastDot_append : ∀ (n : Chars) {e : Chars}, '.' ∉ e → lastDot (n ++ '.' :: e) = some (n, e)
  | [], e, h => by simp [lastDot, lastDot_none h]
  | c :: cs, e, h => by simp [lastDot, lastDot_append cs h]

theorem splitSlash_plain : ∀ {x : Chars}, '/' ∉ x → splitSlash x = [x]
  | [], _ => rfl
  | c :: cs, h => by
    simp only [List.mem_cons, not_or] at h
    simp [splitSlash, splitSlash_plain h.2, Ne.symm h.1]

theorem splitSlash_ne (x : Chars) : splitSlash x ≠ [] := by
  cases x with
  | nil => simp [splitSlash]
  | cons c cs =>
    simp only [splitSlash]
    split
    · simp
    · split <;> simp

theorem splitSlash_last {x : Chars} (hx : '/' ∉ x) : ∀ (d : Chars), (d = [] ∨ d.getLast? = some '/') →
    (splitSlash (d ++ x)).getLast? = some x
  | [], _ => by simp [splitSlash_plain hx]
  | [c], h => by
    have : c = '/' := by simpa using h
    simp [this, splitSlash, splitSlash_plain hx]
  | c :: c' :: cs, h => by
    have ih := splitSlash_last hx (c' :: cs) (.inr (by simpa [List.getLast?_cons_cons] using h))
    rw [List.cons_append, splitSlash]
    split
    · rw [List.getLast?_cons, ih]
      rfl
    · cases hs : splitSlash (c' :: cs ++ x) with
      | nil => exact absurd hs (splitSlash_ne _)
      | cons p ps =>
        rw [hs] at ih
        cases ps with
        | cons q qs => simpa [List.getLast?_cons_cons] using ih
        | nil =>
          -- a slash before the end gives at least two pieces
          exfalso
          have two : ∀ l : Chars, '/' ∈ l → ∃ a b r, splitSlash l = a :: b :: r := by
            intro l
            induction l with
            | nil => simp
            | cons a l ihl =>
              intro hm
              by_cases ha : a = '/'
              · cases hl : splitSlash l with
                | nil => exact absurd hl (splitSlash_ne _)
                | cons p r => exact ⟨[], p, r, by simp [splitSlash, ha, hl]⟩
              · obtain ⟨p, q, r, hp⟩ := ihl (by simpa [Ne.symm ha] using hm)
                exact ⟨a :: p, q, r, by simp [splitSlash, ha, hp]⟩
          have hm : '/' ∈ c' :: cs ++ x := by
            refine List.mem_append_left _ ?_
            rcases h with h | h
            · cases h
            · exact List.mem_of_getLast? (by simpa [List.getLast?_cons_cons] using h)
          obtain ⟨a, b, r, hr⟩ := two _ hm
          rw [hs] at hr
          cases hr

theorem fileStem_plain {i n : Chars} (h : Plain i n) : fileStem i = some n := by
  obtain ⟨d, rfl, hd, ⟨hn, hdot⟩, hsl⟩ := h
  have hx : '/' ∉ n ++ ".onnx".toList := by
    simp only [List.mem_append, not_or]
    exact ⟨hsl, by decide⟩
  have hl := splitSlash_last hx d hd
  obtain ⟨ys, hys⟩ := List.getLast?_eq_some_iff.1 hl
  have hlast : (components (d ++ n ++ ".onnx".toList)).getLast? = some (n ++ ".onnx".toList) := by
    rw [List.append_assoc, components, hys, List.filter_append]
    have : (n ++ ".onnx".toList) ≠ [] ∧ (n ++ ".onnx".toList) ≠ ['.'] := by
      constructor
      · simp [hn]
      · intro h
        have := congrArg List.length h
        simp at this
    generalize n ++ ".onnx".toList = x at this
    simp [this.1, this.2]
  have hne : (n ++ ".onnx".toList) ≠ ['.', '.'] := by
    intro h
    have := congrArg List.length h
    simp at this
  have hs : stemOf (n ++ ".onnx".toList) = n := by
    have : n ++ ".onnx".toList = n ++ '.' :: "onnx".toList := rfl
    rw [stemOf, this, lastDot_append n (by decide)]
    cases n with
    | nil => exact absurd rfl hn
    | cons c cs => rfl
  simp only [fileStem, fileName, hlast, if_neg hne, Option.map_some, hs]

theorem stemOf_noDot {n : Chars} (h : NoDot n) : stemOf n = n := by
  obtain ⟨h1, h2, h3⟩ := h
  cases n with
  | nil => exact absurd rfl h1
  | cons c cs =>
    simp only [List.tail_cons] at h3
    by_cases hc : c = '.'
    · simp [stemOf, lastDot, lastDot_none h3, hc]
    · simp [stemOf, lastDot, lastDot_none h3, hc]

theorem outName_plain {n : Chars} (hdot : NoDot n) (ext : String) :
    outName n ext.toList = some (named n ext) := by
  have h2 : n ≠ ['.', '.'] := by
    rintro rfl
    exact hdot.2.2 (by simp)
  simp [outName, hdot.2.1, h2, stemOf_noDot hdot, named]

theorem named_inj : ∀ {n n' e e' : Chars}, '.' ∉ n → '.' ∉ n' → n ++ '.' :: e = n' ++ '.' :: e' → n = n' ∧ e = e'
  | [], [], _, _, _, _, h => by simpa using h
  | [], c :: cs, _, _, _, h', h => by
    simp only [List.nil_append, List.cons_append, List.cons.injEq] at h
    exact absurd (h.1 ▸ List.mem_cons_self ..) h'
  | c :: cs, [], _, _, h', _, h => by
    simp only [List.nil_append, List.cons_append, List.cons.injEq] at h
    exact absurd (h.1 ▸ List.mem_cons_self ..) h'
  | c :: cs, c' :: cs', _, _, h1, h2, h => by
    simp only [List.cons_append, List.cons.injEq] at h
    have := named_inj (fun hm => h1 (List.mem_cons_of_mem _ hm)) (fun hm => h2 (List.mem_cons_of_mem _ hm)) h.2
    exact ⟨by rw [h.1, this.1], this.2⟩

theorem named_inj' {n n' e e' : Chars} (h : NoDot n) (h' : NoDot n') (he : n ++ '.' :: e = n' ++ '.' :: e') : n = n' ∧ e = e' := by
  cases n with
  | nil => exact absurd rfl h.1
  | cons c cs =>
    cases n' with
    | nil => exact absurd rfl h'.1
    | cons c' cs' =>
      simp only [List.cons_append, List.cons.injEq] at he
      have := named_inj h.2.2 h'.2.2 he.2
      exact ⟨by rw [he.1, show cs = cs' from this.1], this.2⟩

/-! ## Steps -/

theorem after_append (d : Dir M W) : ∀ (a b : List (Step M W)), after d (a ++ b) = after (after d a) b
  | [], _ => rfl
  | s :: a, b => by simp only [List.cons_append, after]; exact after_append _ a b

theorem after_other {f : Chars} : ∀ (ss : List (Step M W)) (d : Dir M W), (∀ s ∈ ss, s.target ≠ f) → after d ss f = d f
  | [], _, _ => rfl
  | s :: ss, d, h => by
    rw [after, after_other ss _ fun t ht => h t (List.mem_cons_of_mem _ ht)]
    simp [Ne.symm (h s (List.mem_cons_self ..))]

/-- The files a step for the model `n` may touch. -/
def Touches (n : Chars) (s : Step M W) : Prop :=
  s.target = named n "onnx.txt" ∨ s.target = named n "bpk" ∨ s.target = named n "rs"

theorem convertOne_plain {p : Parts M W} {o : Options} {i n : Chars} (h : Plain i n) :
    convertOne p o i = match p.parse i with
      | none => ([], false)
      | some m =>
        let dbg : List (Step M W) :=
          if o.development then [.start (named n "onnx.txt"), .finish (named n "onnx.txt") (.text m)] else []
        match p.weights m with
        | none => (dbg ++ [.start (named n "bpk")], false)
        | some w =>
          let ws := dbg ++ [.start (named n "bpk"), .finish (named n "bpk") (.weights w)]
          if p.codegen m then
            (ws ++ [.start (named n "rs"), .finish (named n "rs") (.source m (named n "bpk")
              (if o.embed then some (p.size w) else none))], true)
          else (ws, false) := by
  obtain ⟨d, -, -, hdot, -⟩ := id h
  unfold convertOne
  simp only [fileStem_plain h, outName_plain hdot]
  cases p.parse i <;> rfl

theorem convertOne_touches {p : Parts M W} {o : Options} {i n : Chars} (h : Plain i n) :
    ∀ s ∈ (convertOne p o i).1, Touches n s := by
  rw [convertOne_plain h]
  intro s hs
  cases hp : p.parse i with
  | none => simp [hp] at hs
  | some m =>
    cases hw : p.weights m with
    | none =>
      cases hd : o.development <;> simp [hp, hw, hd] at hs <;> rcases hs with rfl | hs <;>
        first | (simp [Touches, Step.target]; done) | (rcases hs with rfl | rfl <;> simp [Touches, Step.target])
    | some w =>
      simp only [hp, hw] at hs
      split at hs <;> cases hd : o.development <;> simp [hd] at hs <;>
        (rcases hs with rfl | rfl | rfl | rfl | rfl | rfl <;> simp [Touches, Step.target]) 

theorem touches_other {n n' : Chars} (h : NoDot n) (h' : NoDot n') (hne : n ≠ n') {s : Step M W} (hs : Touches n s) (e : String) :
    s.target ≠ named n' e := by
  intro he
  rcases hs with hs | hs | hs <;> exact hne (named_inj' h h' (hs ▸ he)).1

/-! ## A run -/

theorem convertAll_touches {p : Parts M W} {o : Options} : ∀ {is ns : List Chars}, Inputs is ns →
    ∀ s ∈ (convertAll p o is).1, ∃ n ∈ ns, Touches n s
  | [], _, _, s, hs => by simp [convertAll] at hs
  | i :: is, [], h, _, _ => by simpa using h.length
  | i :: is, n :: ns, h, s, hs => by
    have hp := h.plain 0 i n rfl rfl
    have h' : Inputs is ns := ⟨by simpa using h.length, fun k => by simpa using h.plain (k + 1), (List.nodup_cons.1 h.distinct).2⟩
    rw [convertAll] at hs
    have hone : s ∈ (convertOne p o i).1 → ∃ m ∈ n :: ns, Touches m s := fun hs =>
      ⟨n, List.mem_cons_self .., convertOne_touches hp s hs⟩
    split at hs
    · rcases List.mem_append.1 hs with hs | hs
      · exact hone hs
      · obtain ⟨m, hm, ht⟩ := convertAll_touches h' s hs
        exact ⟨m, List.mem_cons_of_mem _ hm, ht⟩
    · exact hone hs

theorem Plain.noDot {i n : Chars} (h : Plain i n) : NoDot n := by
  obtain ⟨d, -, -, h, -⟩ := h
  exact h

theorem Inputs.noDot {is ns : List Chars} (h : Inputs is ns) : ∀ n ∈ ns, NoDot n := by
  intro n hn
  obtain ⟨k, hk, rfl⟩ := List.getElem_of_mem hn
  exact (h.plain k _ _ (List.getElem?_eq_getElem (h.length ▸ hk)) (List.getElem?_eq_getElem hk)).noDot

theorem named_ext {n : Chars} {e e' : String} (h : e ≠ e') : named n e ≠ named n e' := by
  intro he
  simp only [named, List.append_cancel_left_eq, List.cons.injEq, true_and] at he
  exact h (String.toList_inj.1 he)

theorem one_crash {p : Parts M W} {o : Options} {i n : Chars} (h : Plain i n) (d : Dir M W) (k : Nat)
    (hfresh : ∀ m b s, d (named n "rs") ≠ some (.source m b s)) {m : M} {b : Chars} {s : Option Nat}
    (hr : after d ((convertOne p o i).1.take k) (named n "rs") = some (.source m b s)) :
    p.parse i = some m ∧ b = named n "bpk" ∧ ∃ w, p.weights m = some w ∧
      after d ((convertOne p o i).1.take k) (named n "bpk") = some (.weights w) ∧ Embeds o (p.size w) s := by
  have e1 : named n "rs" ≠ named n "bpk" := named_ext (by decide)
  have e2 : named n "rs" ≠ named n "onnx.txt" := named_ext (by decide)
  rw [convertOne_plain h] at hr ⊢
  cases hp : p.parse i with
  | none =>
    simp only [hp, List.take_nil, after] at hr
    exact absurd hr (hfresh _ _ _)
  | some m' =>
    simp only [hp] at hr ⊢
    -- steps before the source file leave it alone
    have keep : ∀ ss : List (Step M W), (∀ t ∈ ss, t.target ≠ named n "rs") →
        after d ss (named n "rs") ≠ some (.source m b s) := fun ss hss => by
      rw [after_other ss d hss]
      exact hfresh _ _ _
    generalize hdbg : (if o.development = true then
      [Step.start (named n "onnx.txt"), Step.finish (named n "onnx.txt") (.text m')] else []) = dbg at hr ⊢
    have hd : ∀ t ∈ dbg, t.target ≠ named n "rs" := by
      subst hdbg
      split
      · simp [Step.target, Ne.symm e2]
      · simp
    cases hw : p.weights m' with
    | none =>
      simp only [hw] at hr
      refine absurd hr (keep _ fun t ht => ?_)
      rcases List.mem_append.1 (List.mem_of_mem_take ht) with ht | ht
      · exact hd t ht
      · simp only [List.mem_singleton] at ht
        subst ht
        exact Ne.symm e1
    | some w =>
      simp only [hw] at hr ⊢
      have hws : ∀ t ∈ dbg ++ [Step.start (named n "bpk"), Step.finish (named n "bpk") (.weights w)],
          t.target ≠ named n "rs" := by
        intro t ht
        rcases List.mem_append.1 ht with ht | ht
        · exact hd t ht
        · simp only [List.mem_cons, List.not_mem_nil, or_false] at ht
          rcases ht with rfl | rfl <;> exact Ne.symm e1
      split at hr
      · next hc =>
        simp only [hc, if_true] at hr ⊢
        rw [List.take_append, after_append] at hr ⊢
        generalize hj : k - (dbg ++ [Step.start (named n "bpk"), Step.finish (named n "bpk") (.weights w)]).length = j at hr ⊢
        match j, hj with
        | 0, _ =>
          exact absurd hr (keep _ fun t ht => hws t (List.mem_of_mem_take ht))
        | 1, _ =>
          simp [after, Step.target, Step.content] at hr
        | j + 2, hj =>
          have hfull : (dbg ++ [Step.start (named n "bpk"), Step.finish (named n "bpk") (.weights w)]).take k =
              dbg ++ [Step.start (named n "bpk"), Step.finish (named n "bpk") (.weights w)] :=
            List.take_of_length_le (by omega)
          rw [hfull] at hr ⊢
          simp only [List.take_succ_cons, List.take_nil, after, Step.target, Step.content, if_true, Option.some.injEq,
            Content.source.injEq] at hr
          obtain ⟨rfl, rfl, rfl⟩ := hr
          refine ⟨rfl, rfl, w, hw, ?_, ?_⟩
          · rw [after_append]
            simp [after, Step.target, Step.content, Ne.symm e1]
          · constructor <;> intro he <;> simp [he]
      · exact absurd hr (keep _ fun t ht => hws t (List.mem_of_mem_take ht))

/-- C87. Wherever the run stops — after `k` steps, of which each file takes two — a finished source file `n.rs` is the code of the input
called `n`, names `n.bpk`, and that file is finished and holds the weights of the same model (with the size the code states if
they are embedded), provided the directory had no finished source of that name before. -/
theorem C87_crash_partial (p : Parts M W) (o : Options) (is ns : List Chars) (h : Inputs is ns) (d : Dir M W) (k : Nat)
    (hfresh : ∀ n ∈ ns, ∀ m b s, d (named n "rs") ≠ some (.source m b s)) (j : Nat) (i n : Chars)
    (hi : is[j]? = some i) (hn : ns[j]? = some n) (m : M) (b : Chars) (s : Option Nat)
    (hr : after d ((convertAll p o is).1.take k) (named n "rs") = some (.source m b s)) :
    p.parse i = some m ∧ b = named n "bpk" ∧ ∃ w, p.weights m = some w ∧
      after d ((convertAll p o is).1.take k) (named n "bpk") = some (.weights w) ∧ Embeds o (p.size w) s := by
  induction is generalizing ns d k j with
  | nil => simp at hi
  | cons i0 is ih =>
    cases ns with
    | nil => simp at hn
    | cons n0 ns =>
      have hp := h.plain 0 i0 n0 rfl rfl
      have hdist := List.nodup_cons.1 h.distinct
      have h' : Inputs is ns := ⟨by simpa using h.length, fun k => by simpa using h.plain (k + 1), hdist.2⟩
      have hnd := h.noDot
      -- the steps of the other inputs leave the first one's files alone, and the other way round
      have rest : ∀ (l : Nat) (e : String), ∀ t ∈ (convertAll p o is).1.take l, t.target ≠ named n0 e := by
        intro l e t ht
        obtain ⟨n1, hn1, ht1⟩ := convertAll_touches h' t (List.mem_of_mem_take ht)
        exact touches_other (hnd n1 (List.mem_cons_of_mem _ hn1)) hp.noDot (fun he => hdist.1 (he ▸ hn1)) ht1 e
      have first : ∀ (l : Nat) (n1 : Chars), n1 ∈ ns → ∀ (e : String), ∀ t ∈ (convertOne p o i0).1.take l,
          t.target ≠ named n1 e := by
        intro l n1 hn1 e t ht
        exact touches_other hp.noDot (hnd n1 (List.mem_cons_of_mem _ hn1)) (fun he => hdist.1 (he ▸ hn1))
          (convertOne_touches hp t (List.mem_of_mem_take ht)) e
      cases hok : (convertOne p o i0).2 with
      | false =>
        have hall : (convertAll p o (i0 :: is)).1 = (convertOne p o i0).1 := by simp [convertAll, hok]
        rw [hall] at hr ⊢
        cases j with
        | zero =>
          simp only [List.getElem?_cons_zero, Option.some.injEq] at hi hn
          subst hi hn
          exact one_crash hp d k (hfresh _ (List.mem_cons_self ..)) hr
        | succ j =>
          have hm : n ∈ ns := List.mem_of_getElem? (by simpa using hn)
          rw [after_other _ _ (first k n hm "rs")] at hr
          exact absurd hr (hfresh n (List.mem_cons_of_mem _ hm) m b s)
      | true =>
        have hall : (convertAll p o (i0 :: is)).1 = (convertOne p o i0).1 ++ (convertAll p o is).1 := by simp [convertAll, hok]
        rw [hall, List.take_append, after_append] at hr ⊢
        cases j with
        | zero =>
          simp only [List.getElem?_cons_zero, Option.some.injEq] at hi hn
          subst hi hn
          rw [after_other _ _ (rest _ "rs")] at hr
          rw [after_other _ _ (rest _ "bpk")]
          exact one_crash hp d k (hfresh _ (List.mem_cons_self ..)) hr
        | succ j =>
          refine ih ns h' _ _ (fun n1 hn1 m b s => ?_) j (by simpa using hi) (by simpa using hn) hr
          rw [after_other _ _ (first k n1 hn1 "rs")]
          exact hfresh n1 (List.mem_cons_of_mem _ hn1) m b s

theorem one_done {p : Parts M W} {o : Options} {i n : Chars} (h : Plain i n) (d : Dir M W) (hok : (convertOne p o i).2 = true) :
    ∃ m w s, p.parse i = some m ∧ p.weights m = some w ∧ Embeds o (p.size w) s ∧
      after d (convertOne p o i).1 (named n "rs") = some (.source m (named n "bpk") s) ∧
      after d (convertOne p o i).1 (named n "bpk") = some (.weights w) := by
  have e1 : named n "rs" ≠ named n "bpk" := named_ext (by decide)
  rw [convertOne_plain h] at hok ⊢
  cases hp : p.parse i with
  | none => simp [hp] at hok
  | some m =>
    cases hw : p.weights m with
    | none => simp [hp, hw] at hok
    | some w =>
      simp only [hp, hw] at hok ⊢
      split at hok
      · next hc =>
        refine ⟨m, w, if o.embed then some (p.size w) else none, rfl, hw, ⟨?_, ?_⟩, ?_, ?_⟩
        rotate_left 2
        · simp only [hc, if_true, after_append, after, Step.target, Step.content]
        · simp only [hc, if_true, after_append, after, Step.target, Step.content, if_neg (Ne.symm e1)]
        · intro he; simp [he]
        · intro he; simp [he]
      · cases hok

/-- C87. If the run ends without a panic, every input has its source file and its weights, and files of other names are as before. -/
theorem C87_files_partial (p : Parts M W) (o : Options) (is ns : List Chars) (h : Inputs is ns) (d : Dir M W)
    (hok : (convertAll p o is).2 = true) :
    (∀ (j : Nat) (i n : Chars), is[j]? = some i → ns[j]? = some n →
      ∃ m w s, p.parse i = some m ∧ p.weights m = some w ∧ Embeds o (p.size w) s ∧
        after d (convertAll p o is).1 (named n "rs") = some (.source m (named n "bpk") s) ∧
        after d (convertAll p o is).1 (named n "bpk") = some (.weights w)) ∧
    ∀ f, (∀ n ∈ ns, f ≠ named n "rs" ∧ f ≠ named n "bpk" ∧ f ≠ named n "onnx.txt") → after d (convertAll p o is).1 f = d f := by
  constructor
  · induction is generalizing ns d with
    | nil => simp
    | cons i0 is ih =>
      cases ns with
      | nil => simp
      | cons n0 ns =>
        have hp := h.plain 0 i0 n0 rfl rfl
        have hdist := List.nodup_cons.1 h.distinct
        have h' : Inputs is ns := ⟨by simpa using h.length, fun k => by simpa using h.plain (k + 1), hdist.2⟩
        have hnd := h.noDot
        have hok1 : (convertOne p o i0).2 = true := by
          cases hc : (convertOne p o i0).2 with
          | true => rfl
          | false => simp [convertAll, hc] at hok
        have hok2 : (convertAll p o is).2 = true := by simpa [convertAll, hok1] using hok
        have hall : (convertAll p o (i0 :: is)).1 = (convertOne p o i0).1 ++ (convertAll p o is).1 := by simp [convertAll, hok1]
        have rest : ∀ (e : String), ∀ t ∈ (convertAll p o is).1, t.target ≠ named n0 e := by
          intro e t ht
          obtain ⟨n1, hn1, ht1⟩ := convertAll_touches h' t ht
          exact touches_other (hnd n1 (List.mem_cons_of_mem _ hn1)) hp.noDot (fun he => hdist.1 (he ▸ hn1)) ht1 e
        intro j i n hi hn
        rw [hall, after_append]
        cases j with
        | zero =>
          simp only [List.getElem?_cons_zero, Option.some.injEq] at hi hn
          subst hi hn
          rw [after_other _ _ (rest "rs"), after_other _ _ (rest "bpk")]
          exact one_done hp d hok1
        | succ j => exact ih ns h' _ hok2 j i n (by simpa using hi) (by simpa using hn)
  · intro f hf
    refine after_other _ _ fun t ht he => ?_
    obtain ⟨n, hn, ht⟩ := convertAll_touches h t ht
    obtain ⟨h1, h2, h3⟩ := hf n hn
    rcases ht with ht | ht | ht <;> rw [he] at ht <;> contradiction

/-- C87. The run ends without a panic exactly if every input can be imported, stored and turned into code. -/
theorem C87_success (p : Parts M W) (o : Options) (is ns : List Chars) (h : Inputs is ns) :
    (convertAll p o is).2 = true ↔ ∀ i ∈ is, ∃ m w, p.parse i = some m ∧ p.weights m = some w ∧ p.codegen m = true := by
  induction is generalizing ns with
  | nil => simp [convertAll]
  | cons i0 is ih =>
    cases ns with
    | nil => simpa using h.length
    | cons n0 ns =>
      have hp := h.plain 0 i0 n0 rfl rfl
      have h' : Inputs is ns := ⟨by simpa using h.length, fun k => by simpa using h.plain (k + 1), (List.nodup_cons.1 h.distinct).2⟩
      have hone : (convertOne p o i0).2 = true ↔ ∃ m w, p.parse i0 = some m ∧ p.weights m = some w ∧ p.codegen m = true := by
        rw [convertOne_plain hp]
        cases p.parse i0 with
        | none => simp
        | some m =>
          cases hw : p.weights m with
          | none => simp [hw]
          | some w => cases hc : p.codegen m <;> simp [hw, hc]
      rw [List.forall_mem_cons, ← hone, ← ih ns h']
      cases hc : (convertOne p o i0).2 <;> simp [convertAll, hc]

/-! ## Where the code and the property disagree -/

/-- Models are numbers, and so are weights. -/
def sampleParts : Parts Nat Nat where
  parse i := some i.length
  weights m := if m = 7 then none else some (10 * m)
  size w := w
  codegen _ := true

/-- C87. `m.v1.onnx` and `m.v10.onnx` have different names, but only one source file is left, `m.rs`: that of the last one. -/
theorem C87_dotted_names_wrong :
    let is := ["m.v1.onnx".toList, "m.v10.onnx".toList]
    let d := after (fun _ => none) (convertAll sampleParts {} is).1
    (convertAll sampleParts {} is).2 = true ∧ d "m.rs".toList = some (.source 10 "m.bpk".toList none) ∧
      d "m.v1.rs".toList = none ∧ d "m.v10.rs".toList = none ∧
      ∀ f, f ≠ "m.rs".toList → ∀ m b s, d f ≠ some (.source m b s) := by
  refine ⟨by decide +kernel, by decide +kernel, by decide +kernel, by decide +kernel, ?_⟩
  intro f hf m b s
  have hall : (convertAll sampleParts {} ["m.v1.onnx".toList, "m.v10.onnx".toList]).1 =
      [.start "m.bpk".toList, .finish "m.bpk".toList (.weights 90), .start "m.rs".toList,
       .finish "m.rs".toList (.source 9 "m.bpk".toList none), .start "m.bpk".toList,
       .finish "m.bpk".toList (.weights 100), .start "m.rs".toList, .finish "m.rs".toList (.source 10 "m.bpk".toList none)] := rfl
  show after _ _ f ≠ _
  rw [hall]
  generalize "m.rs".toList = r at hf
  generalize "m.bpk".toList = q
  by_cases hq : f = q <;> simp [after, Step.target, Step.content, hf, hq] <;> simp_all

/-- C87. Inputs of the same name from two directories overwrite each other. -/
theorem C87_same_name_wrong :
    let is := ["a/m.onnx".toList, "bb/m.onnx".toList]
    let d := after (fun _ => none) (convertAll sampleParts {} is).1
    (convertAll sampleParts {} is).2 = true ∧ d "m.rs".toList = some (.source 9 "m.bpk".toList none) ∧
      d "m.bpk".toList = some (.weights 90) := by decide +kernel

/-- C87. Converting a changed model again: a run that stops after the weights are written leaves the old code (model 1) with the new
weights (of model 6). -/
theorem C87_stale_source_wrong :
    let old : Dir Nat Nat := fun f => if f = "m.rs".toList then some (.source 1 "m.bpk".toList none) else
      if f = "m.bpk".toList then some (.weights 10) else none
    let d := after old ((convertAll sampleParts {} ["m.onnx".toList]).1.take 2)
    d "m.rs".toList = some (.source 1 "m.bpk".toList none) ∧ d "m.bpk".toList = some (.weights 60) := by decide +kernel

/-! ## The hypotheses are met -/

theorem sample_inputs : Inputs ["dir/a.onnx".toList, "b.onnx".toList] ["a".toList, "b".toList] where
  length := rfl
  distinct := by decide
  plain k i n hi hn := by
    match k with
    | 0 => simp only [List.getElem?_cons_zero, Option.some.injEq] at hi hn; subst hi hn; exact ⟨"dir/".toList, rfl, by decide⟩
    | 1 =>
      simp only [List.getElem?_cons_zero, List.getElem?_cons_succ, Option.some.injEq] at hi hn
      subst hi hn
      exact ⟨[], rfl, by decide⟩
    | k + 2 => simp at hi

example : Plain "dir/.b.onnx".toList ".b".toList ∧ ¬ NoDot "m.v1".toList := ⟨⟨"dir/".toList, rfl, by decide⟩, by decide⟩

example : (convertAll sampleParts { embed := true } ["dir/a.onnx".toList, "b.onnx".toList]).2 = true ∧
    after (fun _ => none) (convertAll sampleParts { embed := true } ["dir/a.onnx".toList, "b.onnx".toList]).1 "a.rs".toList =
      some (.source 10 "a.bpk".toList (some 100)) := by decide +kernel

example : (convertAll sampleParts {} ["dir/a.onnx".toList, "bc.onnx".toList]).2 = false := by decide +kernel

end OnnxIR.Driver
