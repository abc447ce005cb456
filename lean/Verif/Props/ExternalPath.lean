import Verif.Model.ExternalPath

/-!
# C41: external data files stay inside the model directory
-/

namespace OnnxIR.Ext

theorem splitSlash_append (a b : Chars) : splitSlash (a ++ '/' :: b) = splitSlash a ++ splitSlash b := by
  induction a with
  | nil => simp [splitSlash]
  | cons c a ih =>
    by_cases hc : c = '/'
    · simp [splitSlash, hc, ih]
    · simp only [List.cons_append, splitSlash, if_neg hc, ih]
      cases h : splitSlash a with
      | nil =>
        exfalso
        cases a with
        | nil => simp [splitSlash] at h
        | cons d a =>
          simp only [splitSlash] at h
          split at h
          · cases h
          · split at h <;> cases h
      | cons p ps => simp

theorem components_append (a b : Chars) :
    components (a ++ '/' :: b) = components a ++ components b := by
  simp [components, splitSlash_append, List.filter_append]

/-- The pieces of the joined path are those of the directory and those of the location. -/
theorem components_join {base : Chars} (loc : Chars) (h : base ≠ []) :
    components (join base loc) = components base ++ components loc := by
  unfold join
  rw [if_neg h]
  split
  · next hl =>
    obtain ⟨b, rfl⟩ : ∃ b, base = b ++ ['/'] := by
      rw [List.getLast?_eq_some_iff] at hl
      exact hl
    rw [List.append_assoc, List.singleton_append, components_append,
      show components (b ++ ['/']) = components b ++ components [] from components_append b []]
    simp [components, splitSlash]
  · exact components_append base loc

theorem isAbsolute_join {base : Chars} (loc : Chars) (h : base ≠ []) :
    isAbsolute (join base loc) = isAbsolute base := by
  unfold join
  rw [if_neg h]
  cases base with
  | nil => exact absurd rfl h
  | cons c base => split <;> rfl

theorem join_ne_nil {base : Chars} (loc : Chars) (h : base ≠ []) : join base loc ≠ [] := by
  unfold join
  rw [if_neg h]
  split
  · simp [h]
  · simp

/-- If a longer lookup succeeds, so does every shorter one. -/
theorem walk_prefix (fs : Fs) : ∀ (n : Nat) (cur a b : List Chars) (q : List Chars),
    fs.walk n cur (a ++ b) = some q → ∃ c, fs.walk n cur a = some c
  | n, cur, [], b, q, _ => ⟨cur, by cases n <;> rfl⟩
  | 0, cur, p :: a, b, q, h => by simp [Fs.walk] at h
  | n + 1, cur, p :: a, b, q, h => by
    simp only [List.cons_append, Fs.walk] at h ⊢
    split at h
    · next hp => rw [if_pos hp]; exact walk_prefix fs n _ a b q h
    · next hp =>
      rw [if_neg hp]
      cases he : fs.entry (cur ++ [p]) with
      | none => simp [he] at h
      | some e =>
        cases e with
        | dir => simp only [he] at h ⊢; exact walk_prefix fs n _ a b q h
        | file =>
          simp only [he] at h ⊢
          split at h
          · next hb =>
            have : a = [] := (List.append_eq_nil_iff.1 hb).1
            exact ⟨cur ++ [p], by simp [this]⟩
          · cases h
        | link t =>
          simp only [he] at h ⊢
          rw [← List.append_assoc] at h
          exact walk_prefix fs n _ _ b q h

theorem openFile_canonical {fs : Fs} {p : Chars} {q : List Chars} (h : fs.openFile p = some q) :
    fs.canonicalize p = some q := by
  unfold Fs.openFile at h
  exact (Option.filter_eq_some_iff.1 h).1

/-- **C41.** On a file system that does not change between the check and the read, every external file
that is opened lies inside the directory of the model (links resolved), whatever the model file says and
whatever links exist. The directory is any non-empty path; for the empty one see
`C41_bare_name_escapes`. -/
theorem C41_contained_partial (fs : Fs) (base loc : Chars) (hbase : base ≠ []) (q : List Chars)
    (h : loaded fs fs (some base) loc = some q) :
    ∃ d, fs.canonicalize base = some d ∧ d <+: q := by
  obtain ⟨p, hp, hq⟩ := Option.bind_eq_some_iff.1 h
  have hq := openFile_canonical hq
  simp only [externalFile, Option.bind_some, resolvePath] at hp
  split at hp
  · cases hp
  · split at hp
    · cases hp
    · split at hp
      · cases hp
      · obtain ⟨d, hd⟩ : ∃ d, fs.canonicalize base = some d := by
          have hpj : p = join base loc := by
            split at hp
            · split at hp
              · cases hp; rfl
              · cases hp
            · cases hp; rfl
          subst hpj
          unfold Fs.canonicalize at hq ⊢
          rw [if_neg (join_ne_nil loc hbase), components_join loc hbase,
            isAbsolute_join loc hbase] at hq
          rw [if_neg hbase]
          exact walk_prefix fs _ _ _ _ _ hq
        refine ⟨d, hd, ?_⟩
        split at hp
        · next b r hb hr =>
          split at hp
          · next hbr =>
            cases hp
            rw [hd] at hb; cases hb
            rw [hq] at hr; cases hr
            exact hbr
          · cases hp
        · next hno =>
          cases hp
          exact absurd hq (by
            intro hq
            exact hno d q hd hq)

/-- A model given as bytes has no directory: no external file is ever opened. -/
theorem C41_bytes (atImport atLoad : Fs) (loc : Chars) : loaded atImport atLoad none loc = none := rfl

/-- **C41.** Absolute locations, locations with `..` anywhere and locations with a null character are
rejected on every file system. -/
theorem C41_rejects (fs : Fs) (base loc : Chars)
    (h : loc.head? = some '/' ∨ ['.', '.'] ∈ splitSlash loc ∨ Char.ofNat 0 ∈ loc) :
    resolvePath fs base loc = none := by
  unfold resolvePath
  split
  · rfl
  · next h0 =>
    split
    · rfl
    · next h1 =>
      split
      · rfl
      · next h2 =>
        exfalso
        rcases h with h | h | h
        · simp [isAbsolute, h] at h1
        · exact h2 (List.mem_filter.2 ⟨h, by decide⟩)
        · exact h0 h

/-- The file system has no symbolic links. -/
def NoLinks (fs : Fs) : Prop := ∀ p t, fs.entry p ≠ some (.link t)

theorem walk_noLinks {fs : Fs} (hf : NoLinks fs) : ∀ (ps : List Chars) (n : Nat) (cur q : List Chars),
    ['.', '.'] ∉ ps → fs.walk n cur ps = some q → q = cur ++ ps
  | [], n, cur, q, _, h => by
    cases n <;> simp [Fs.walk] at h <;> simp [h]
  | p :: ps, 0, cur, q, _, h => by simp [Fs.walk] at h
  | p :: ps, n + 1, cur, q, hd, h => by
    simp only [List.mem_cons, not_or] at hd
    simp only [Fs.walk] at h
    rw [if_neg (fun e => hd.1 e.symm)] at h
    cases he : fs.entry (cur ++ [p]) with
    | none => simp [he] at h
    | some e =>
      cases e with
      | dir =>
        simp only [he] at h
        have := walk_noLinks hf ps n _ q hd.2 h
        simpa using this
      | file =>
        simp only [he] at h
        split at h
        · next hps => cases h; simp [hps]
        · cases h
      | link t => exact absurd he (hf _ t)

theorem walk_append_noLinks {fs : Fs} (hf : NoLinks fs) : ∀ (n : Nat) (cur a b q : List Chars),
    ['.', '.'] ∉ b → fs.walk n cur (a ++ b) = some q → ∃ d, fs.walk n cur a = some d ∧ q = d ++ b
  | n, cur, [], b, q, hb, h => ⟨cur, by cases n <;> rfl, walk_noLinks hf b n cur q hb h⟩
  | 0, cur, p :: a, b, q, _, h => by simp [Fs.walk] at h
  | n + 1, cur, p :: a, b, q, hb, h => by
    simp only [List.cons_append, Fs.walk] at h ⊢
    split at h
    · next hp => rw [if_pos hp]; exact walk_append_noLinks hf n _ a b q hb h
    · next hp =>
      rw [if_neg hp]
      cases he : fs.entry (cur ++ [p]) with
      | none => simp [he] at h
      | some e =>
        cases e with
        | dir => simp only [he] at h ⊢; exact walk_append_noLinks hf n _ a b q hb h
        | file =>
          simp only [he] at h ⊢
          split at h
          · next hab =>
            cases h
            obtain ⟨rfl, rfl⟩ := List.append_eq_nil_iff.1 hab
            exact ⟨_, if_pos rfl, by simp⟩
          · cases h
        | link t => exact absurd he (hf _ t)

/-- **C41.** Without symbolic links the containment holds for every directory, the empty one included
(which is the current directory), and however the file system changed between import and read: the file
opened is the directory followed by the pieces of the location. -/
theorem C41_no_links (atImport atLoad : Fs) (hf : NoLinks atLoad) (base loc : Chars) (q : List Chars)
    (h : loaded atImport atLoad (some base) loc = some q) :
    ∃ d, (if base = [] then some atLoad.cwd else atLoad.canonicalize base) = some d ∧
      q = d ++ components loc := by
  obtain ⟨p, hp, hq⟩ := Option.bind_eq_some_iff.1 h
  have hq := openFile_canonical hq
  simp only [externalFile, Option.bind_some, resolvePath] at hp
  split at hp
  · cases hp
  · split at hp
    · cases hp
    · next habs =>
      split at hp
      · cases hp
      · next hdots =>
        have hpj : p = join base loc := by
          split at hp
          · split at hp
            · cases hp; rfl
            · cases hp
          · cases hp; rfl
        subst hpj
        by_cases hbase : base = []
        · subst hbase
          simp only [join, if_true] at hq
          unfold Fs.canonicalize at hq
          split at hq
          · cases hq
          · exact ⟨_, if_pos rfl, walk_noLinks hf _ _ _ _ hdots hq⟩
        · unfold Fs.canonicalize at hq ⊢
          rw [if_neg (join_ne_nil loc hbase), components_join loc hbase,
            isAbsolute_join loc hbase] at hq
          rw [if_neg hbase, if_neg hbase]
          exact walk_append_noLinks hf _ _ _ _ _ hdots hq

/-! ### Escapes -/

/-- A machine with the model directory `/m`, in which `w` is a link to the file `/s`. -/
def linked : Fs where
  entry p :=
    if p = [['m']] then some .dir
    else if p = [['m'], ['w']] then some (.link ['/', 's'])
    else if p = [['s']] then some .file
    else none
  cwd := [['m']]
  steps := 40

/-- The same machine before the link was created. -/
def unlinked : Fs where
  entry p :=
    if p = [['m']] then some .dir
    else if p = [['s']] then some .file
    else none
  cwd := [['m']]
  steps := 40

/-- **C41, disagreement.** When the model is opened by its bare file name (its parent directory is the
empty path, whose canonical form the system refuses), the check against links is skipped: a link in the
model's directory leads to a file outside it. Opened by its full path, the same model is rejected. -/
theorem C41_bare_name_escapes :
    parent "x.onnx".toList = [] ∧ linked.cwd = [['m']] ∧
    loaded linked linked (some (parent "x.onnx".toList)) ['w'] = some [['s']] ∧
    parent "/m/x.onnx".toList = ['/', 'm'] ∧
    resolvePath linked (parent "/m/x.onnx".toList) ['w'] = none := by
  decide

/-- **C41, disagreement.** The file is opened when the tensor is first read; a link created after the
import is followed out of the directory. -/
theorem C41_late_link_escapes :
    loaded unlinked linked (some ['/', 'm']) ['w'] = some [['s']] ∧
    linked.canonicalize ['/', 'm'] = some [['m']] ∧ ¬ ([['m']] <+: [['s']]) := by
  decide

/-! An accepted location in a subdirectory, reached through a link that stays inside. -/

def nested : Fs where
  entry p :=
    if p = [['m']] ∨ p = [['m'], ['a']] then some .dir
    else if p = [['m'], ['b']] then some (.link ['a', '/', '.'])
    else if p = [['m'], ['a'], ['w']] then some .file
    else none
  cwd := []
  steps := 40

example : loaded nested nested (some ['/', 'm', '/']) ['b', '/', '/', 'w'] =
    some [['m'], ['a'], ['w']] := by decide
example : loaded nested nested (some ['m']) ['a', '/', '.', '.', '/', 'a', '/', 'w'] = none := by decide
example : NoLinks unlinked := by
  intro p t
  unfold unlinked
  simp only
  split
  · simp
  · split <;> simp

end OnnxIR.Ext
