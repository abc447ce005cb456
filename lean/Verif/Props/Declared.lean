import Verif.Spec.Declared

/-!
# C85: declared types are read faithfully

For a declaration with a shape and a supported element type, the annotation of the value is right about exactly the tensors the
declaration allows (`C85_declared_exact_partial`). It is used for graph inputs, graph outputs and, by name, for the outputs of nodes
(`C85_input_partial`, `C85_node_output_partial`, `C85_value_info_partial`). A declaration without a shape is taken for that of a scalar
(`C85_unknown_rank_wrong`), an input of a type the importer does not know becomes a tensor of 32-bit floats of rank 0
(`C85_unsupported_input_wrong`), and the declared type of a graph output whose name is not an identifier is not used for the node that
computes it (`C85_renamed_output_ignored`).
-/

namespace OnnxIR.Decode

open Onnx

theorem elementType_number (t : DType) : elementType (dataTypeNumber t) = some t := by cases t <;> rfl

theorem elementType_inv {e : Int} {t : DType} (h : elementType e = some t) : e = dataTypeNumber t := by
  unfold elementType at h
  split at h <;> simp at h <;> subst h <;> rfl

theorem describes_iff : ∀ (dims : List Dim) (s : List Nat), (∀ k, Dim.value k ∈ dims → 0 ≤ k ∧ k < 2 ^ 63) →
    (PShape.Describes (dims.map Dim.size) s ↔ dims.length = s.length ∧
      ∀ (i : Nat) (a : Dim) (n : Nat), dims[i]? = some a → s[i]? = some n → DimAllows a n)
  | [], [], _ => by simp [PShape.Describes]
  | [], _ :: _, _ => by simp [PShape.Describes]
  | _ :: _, [], _ => by simp [PShape.Describes]
  | d :: ds, n :: ns, h => by
    have ih := describes_iff ds ns fun k hk => h k (List.mem_cons_of_mem _ hk)
    have hd : (∀ k, d.size = some k → k = n) ↔ DimAllows d n := by
      cases d with
      | value v =>
        have := h v (List.mem_cons_self ..)
        simp only [Dim.size, Option.some.injEq, DimAllows, forall_eq']
        omega
      | param s => simp [Dim.size, DimAllows]
      | unset => simp [Dim.size, DimAllows]
    simp only [List.map_cons, PShape.Describes, hd, ih, List.length_cons, Nat.add_right_cancel_iff]
    constructor
    · rintro ⟨h1, h2, h3⟩
      refine ⟨h2, fun i a m ha hm => ?_⟩
      cases i with
      | zero => simp at ha hm; subst ha hm; exact h1
      | succ i => exact h3 i a m (by simpa using ha) (by simpa using hm)
    · rintro ⟨h2, h3⟩
      exact ⟨h3 0 d n rfl rfl, h2, fun i a m ha hm => h3 (i + 1) a m (by simpa using ha) (by simpa using hm)⟩

/-- C85. A declaration with a shape and a supported element type: the annotation is right about exactly the tensors the declaration
allows. Missing: declarations without a shape. -/
theorem C85_declared_exact_partial (v : ValueInfo) (t : DType) (dims : List Dim)
    (hv : v.type = some (.tensor (dataTypeNumber t) (some dims))) (hs : SizesOk v) :
    ∃ ty, declaredType v = some ty ∧ ∀ d s, (ty.HasElem d ∧ ty.Admits s) ↔ Allows v d s := by
  have hk := hs _ _ hv
  have hnum : ∀ d, dataTypeNumber t = dataTypeNumber d ↔ t = d := by intro d; cases t <;> cases d <;> decide
  have hal : ∀ d s, Allows v d s ↔ t = d ∧ dims.length = s.length ∧
      ∀ (i : Nat) (a : Dim) (n : Nat), dims[i]? = some a → s[i]? = some n → DimAllows a n := by
    intro d s
    constructor
    · rintro ⟨e, sh, h1, h2, h3⟩
      rw [hv] at h1
      simp only [Option.some.injEq, TypeP.tensor.injEq] at h1
      exact ⟨(hnum d).1 (h1.1.trans h2), h3 dims h1.2.symm⟩
    · rintro ⟨rfl, h3⟩
      refine ⟨_, _, hv, rfl, fun ds h => ?_⟩
      cases h
      exact h3
  by_cases he : dims = []
  · subst he
    refine ⟨.scalarNative t, by simp [declaredType, hv, elementType_number], fun d s => ?_⟩
    rw [hal]
    simp only [ArgType.HasElem, ArgType.Admits]
    cases s <;> simp
  · refine ⟨.tensor ⟨t, dims.length, some (dims.map Dim.size)⟩, by
      simp [declaredType, hv, elementType_number, he], fun d s => ?_⟩
    rw [hal, ← describes_iff dims s hk]
    simp only [ArgType.HasElem, ArgType.Admits, Option.some.injEq, forall_eq']
    constructor
    · rintro ⟨h1, _, h2⟩
      exact ⟨h1, h2⟩
    · rintro ⟨h1, h2⟩
      exact ⟨h1, ((describes_iff dims s hk).1 h2).1.symm, h2⟩

/-- C85. Nothing but a tensor type with a supported element type is read. -/
theorem C85_declared_supported (v : ValueInfo) :
    (∃ ty, declaredType v = some ty) ↔ ∃ t shape, v.type = some (.tensor (dataTypeNumber t) shape) := by
  constructor
  · rintro ⟨ty, h⟩
    unfold declaredType at h
    split at h
    · simp at h
    · simp at h
    · rename_i e shape hv
      obtain ⟨t, ht, -⟩ := Option.map_eq_some_iff.1 h
      exact ⟨t, shape, by rw [hv, elementType_inv ht]⟩
  · rintro ⟨t, shape, h⟩
    simp [declaredType, h, elementType_number]

/-- C85. A graph input so declared is annotated with that type, whatever the enclosing graph has under its name; so is an output. -/
theorem C85_input_partial (outer : String → Option ArgType) (v : ValueInfo) (t : DType) (dims : List Dim)
    (hv : v.type = some (.tensor (dataTypeNumber t) (some dims))) (hs : SizesOk v) :
    (∀ d s, ((inputType outer v).HasElem d ∧ (inputType outer v).Admits s) ↔ Allows v d s) ∧
      ∀ d s, ((outputType v).HasElem d ∧ (outputType v).Admits s) ↔ Allows v d s := by
  obtain ⟨ty, h, h2⟩ := C85_declared_exact_partial v t dims hv hs
  simpa [inputType, outputType, h] using h2

/-- C85. The output of a node that is a graph output whose name is an identifier already starts with the type declared for it. -/
theorem C85_node_output_partial (outs infos : List ValueInfo) (v : ValueInfo) (t : DType) (dims : List Dim) (hm : v ∈ outs)
    (hid : sanitizeName v.name = v.name)
    (hd : ∀ w ∈ outs, sanitizeName w.name = v.name → w = v)
    (hv : v.type = some (.tensor (dataTypeNumber t) (some dims))) (hs : SizesOk v) :
    ∀ d s, ((nodeOutputType outs infos v.name).HasElem d ∧ (nodeOutputType outs infos v.name).Admits s) ↔ Allows v d s := by
  have hf : (outs.find? fun o => sanitizeName o.name = v.name) = some v := by
    cases hf : outs.find? fun o => sanitizeName o.name = v.name with
    | none => exact absurd hid (by simpa using List.find?_eq_none.1 hf v hm)
    | some w => rw [hd w (List.mem_of_find?_eq_some hf) (by simpa using List.find?_some hf)]
  simpa [nodeOutputType, hf] using (C85_input_partial (fun _ => none) v t dims hv hs).2

theorem valueInfoType_mem : ∀ (infos : List ValueInfo) (v : ValueInfo), v ∈ infos → (∀ w ∈ infos, w.name = v.name → w = v) →
    valueInfoType infos v.name = declaredType v
  | [], _, h, _ => by simp at h
  | w :: ws, v, h, hd => by
    have hd' : ∀ u ∈ ws, u.name = v.name → u = v := fun u hu => hd u (List.mem_cons_of_mem _ hu)
    by_cases hin : v ∈ ws
    · have ih := valueInfoType_mem ws v hin hd'
      simp only [valueInfoType, ih]
      cases hx : declaredType v with
      | some t => rfl
      | none =>
        by_cases hw : w.name = v.name
        · simp [hd w (List.mem_cons_self ..) hw, hx]
        · simp [hw]
    · have hn : ∀ us : List ValueInfo, (∀ u ∈ us, u.name ≠ v.name) → valueInfoType us v.name = none := by
        intro us
        induction us with
        | nil => simp [valueInfoType]
        | cons u us ih =>
          intro h
          simp [valueInfoType, ih fun x hx => h x (List.mem_cons_of_mem _ hx), h u (List.mem_cons_self ..)]
      have hwv : v = w := by
        rcases List.mem_cons.1 h with h | h
        · exact h
        · exact absurd h hin
      subst hwv
      rw [valueInfoType, hn ws fun u hu he => hin (hd' u hu he ▸ hu)]
      simp

/-- C85. The output of a node that is not a graph output starts with the type declared for its name, whatever the name. -/
theorem C85_value_info_partial (outs infos : List ValueInfo) (v : ValueInfo) (t : DType) (dims : List Dim) (hm : v ∈ infos)
    (ho : ∀ o ∈ outs, sanitizeName o.name ≠ v.name)
    (hd : ∀ w ∈ infos, w.name = v.name → w = v)
    (hv : v.type = some (.tensor (dataTypeNumber t) (some dims))) (hs : SizesOk v) :
    ∀ d s, ((nodeOutputType outs infos v.name).HasElem d ∧ (nodeOutputType outs infos v.name).Admits s) ↔ Allows v d s := by
  have hf : (outs.find? fun o => sanitizeName o.name = v.name) = none := by
    simpa [List.find?_eq_none] using ho
  obtain ⟨ty, h, h2⟩ := C85_declared_exact_partial v t dims hv hs
  simpa [nodeOutputType, hf, valueInfoType_mem infos v hm hd, h] using h2

/-- C85. Where the type cannot be read, the enclosing graph's annotation of the same name is used. -/
theorem C85_outer_scope (outer : String → Option ArgType) (v : ValueInfo) (ty : ArgType)
    (hv : ∀ t shape, v.type ≠ some (.tensor (dataTypeNumber t) shape)) 
    (ho : outer (sanitizeName v.name) = some ty ∨ outer (sanitizeName v.name) = none ∧ outer v.name = some ty) :
    inputType outer v = ty := by
  have hn : declaredType v = none := by
    cases h : declaredType v with
    | none => rfl
    | some t =>
      obtain ⟨t, sh, h⟩ := (C85_declared_supported v).1 ⟨t, h⟩
      exact absurd h (hv t sh)
  rcases ho with ho | ⟨ho, ho'⟩
  · simp [inputType, hn, ho]
  · simp [inputType, hn, ho, ho']

/-! ### Where the code and the property disagree -/

/-- C85. A declaration without a shape says nothing about the rank; the value is taken for a scalar. -/
theorem C85_unknown_rank_wrong (x : String) (t : DType) (s : List Nat) (hs : s ≠ []) :
    Allows ⟨x, some (.tensor (dataTypeNumber t) none)⟩ t s ∧
      ∃ ty, declaredType ⟨x, some (.tensor (dataTypeNumber t) none)⟩ = some ty ∧ ¬ ty.Admits s :=
  ⟨⟨_, _, rfl, rfl, by simp⟩, .scalarNative t, by simp [declaredType, elementType_number], hs⟩

/-- C85. A graph input whose type is a sequence, or a tensor of strings (8) or of complex numbers (14, 15), is not refused: it becomes
a tensor of 32-bit floats of rank 0. -/
theorem C85_unsupported_input_wrong (x : String) (ty : Option TypeP)
    (hv : ∀ t shape, ty ≠ some (.tensor (dataTypeNumber t) shape)) :
    inputType (fun _ => none) ⟨x, ty⟩ = .tensor ⟨.f32, 0, none⟩ := by
  have hn : declaredType ⟨x, ty⟩ = none := by
    cases h : declaredType ⟨x, ty⟩ with
    | none => rfl
    | some u =>
      obtain ⟨t, sh, h⟩ := (C85_declared_supported _).1 ⟨u, h⟩
      exact absurd h (hv t sh)
  simp [inputType, hn, ArgType.default]

/-- C85. The graph output `y:0` is declared to be a vector of two 64-bit integers, but the node that computes it starts without a type. -/
theorem C85_renamed_output_ignored :
    let v : ValueInfo := ⟨"y:0", some (.tensor 7 (some [.value 2]))⟩
    outputType v = .tensor ⟨.i64, 1, some [some 2]⟩ ∧ nodeOutputType [v] [] "y:0" = .tensor ⟨.f32, 0, none⟩ := by
  decide +kernel

/-! ### The hypotheses are met -/

example : ∃ ty, declaredType ⟨"x", some (.tensor 1 (some [.param "batch", .value 3, .unset]))⟩ = some ty ∧
    ∀ d s, (ty.HasElem d ∧ ty.Admits s) ↔ Allows ⟨"x", some (.tensor 1 (some [.param "batch", .value 3, .unset]))⟩ d s :=
  C85_declared_exact_partial _ .f32 _ rfl (by
    intro e dims h k hk
    simp only [Option.some.injEq, TypeP.tensor.injEq] at h
    rw [← h.2] at hk
    simp at hk
    omega)

example : Allows ⟨"x", some (.tensor 1 (some [.param "batch", .value 3]))⟩ .f32 [7, 3] :=
  ⟨1, _, rfl, rfl, by
    intro dims h
    cases h
    refine ⟨rfl, fun i a n ha hn => ?_⟩
    match i with
    | 0 => simp at ha hn; subst ha hn; trivial
    | 1 => simp at ha hn; subst ha hn; rfl
    | i + 2 => simp at ha⟩

example : sanitizeName "y" = "y" ∧
    nodeOutputType [⟨"y", some (.tensor 7 (some [.value 2]))⟩] [⟨"h", some (.tensor 1 (some [.unset]))⟩] "y" =
      .tensor ⟨.i64, 1, some [some 2]⟩ ∧
    nodeOutputType [⟨"y", some (.tensor 7 (some [.value 2]))⟩] [⟨"h", some (.tensor 1 (some [.unset]))⟩] "h" =
      .tensor ⟨.f32, 1, some [none]⟩ := by decide +kernel

example : ∀ t shape, some TypeP.other ≠ some (.tensor (dataTypeNumber t) shape) := by simp

example : ∀ t shape, some (TypeP.tensor 8 (some [.value 2])) ≠ some (.tensor (dataTypeNumber t) shape) := by
  intro t shape h
  cases t <;> simp [dataTypeNumber] at h

end OnnxIR.Decode
