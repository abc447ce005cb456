import Verif.Model.TensorDecode

/-!
# C40: tensor bytes are decoded faithfully

For every element type and every list of elements: raw bytes, typed fields and external bytes all give the
elements they encode, and raw bytes and typed fields of the same elements give the very same tensor
(`C40_raw_decoded`, `C40_typed_decoded`, `C40_external_decoded`, `C40_raw_same_as_typed`). The number of
elements is not compared with the dims: it is right exactly when the file's byte count is
(`C40_count_partial`), which holds by itself only for external data without a length
(`C40_external_default_length`); otherwise a tensor with too few or too many elements, or with a negative
dimension, is accepted (`C40_count_unchecked`, `C40_negative_dim_accepted`).
-/

namespace OnnxIR.Decode

open Onnx

/-! ## Specification: the typed field of each element type (onnx.proto, TensorProto) -/

/-- `int32_data` serves INT32, INT16, INT8, UINT16, UINT8, BOOL, FLOAT16 and BFLOAT16, `uint64_data` serves
UINT64 and UINT32, the others have their own. -/
def typedField (t : DType) (p : Proto) : List Int :=
  match t with
  | .f32 => p.floatData
  | .f64 => p.doubleData
  | .i64 => p.int64Data
  | .u64 | .u32 => p.uint64Data
  | _ => p.int32Data

/-! ## Bytes of a number -/

theorem memBytes_length : ∀ (w : Nat) (v : Int), (memBytes w v).length = w
  | 0, _ => rfl
  | w + 1, v => by simp [memBytes, memBytes_length w]

theorem leValue_memBytes : ∀ (w : Nat) (v : Int), ∃ q : Int, v = leValue (memBytes w v) + q * 256 ^ w
  | 0, v => ⟨v, by simp [memBytes, leValue]⟩
  | w + 1, v => by
    obtain ⟨q, hq⟩ := leValue_memBytes w (v / 256)
    refine ⟨q, ?_⟩
    have h0 : 0 ≤ v % 256 := Int.emod_nonneg _ (by decide)
    have h1 : v % 256 < 256 := Int.emod_lt_of_pos _ (by decide)
    have hb : ((UInt8.ofNat (v % 256).toNat).toNat : Int) = v % 256 := by
      rw [UInt8.toNat_ofNat']
      have : (v % 256).toNat < 256 := by omega
      rw [Nat.mod_eq_of_lt (by omega)]
      omega
    simp only [memBytes, leValue, Int.natCast_add, Int.natCast_mul, hb]
    have hd : v = v % 256 + 256 * (v / 256) := (Int.emod_add_mul_ediv v 256).symm
    have hp : (256 : Int) ^ (w + 1) = 256 * 256 ^ w := by rw [Int.pow_succ, Int.mul_comm]
    rw [hp]
    calc v = v % 256 + 256 * (v / 256) := hd
      _ = v % 256 + 256 * (leValue (memBytes w (v / 256)) + q * 256 ^ w) := by rw [← hq]
      _ = _ := by
        rw [Int.mul_add, Int.mul_left_comm q 256]
        omega

theorem leValue_lt : ∀ bs : List UInt8, leValue bs < 256 ^ bs.length
  | [] => by simp [leValue]
  | b :: bs => by
    have := leValue_lt bs
    have hb : b.toNat < 256 := b.toNat_lt
    simp only [leValue, List.length_cons, Nat.pow_succ]
    omega

theorem leValue_inj : ∀ (a b : List UInt8), a.length = b.length → leValue a = leValue b → a = b
  | [], [], _, _ => rfl
  | [], _ :: _, h, _ => by simp at h
  | _ :: _, [], h, _ => by simp at h
  | x :: a, y :: b, h, he => by
    simp only [leValue] at he
    have hx : x.toNat < 256 := x.toNat_lt
    have hy : y.toNat < 256 := y.toNat_lt
    have h1 : x.toNat = y.toNat := by omega
    have h2 : leValue a = leValue b := by omega
    rw [UInt8.toNat_inj.1 h1, leValue_inj a b (by simpa using h) h2]

theorem memBytes_encodes {t : DType} {v : Int} (h : InRange t v) :
    Encodes t v (memBytes (byteWidth t) v) :=
  ⟨h, memBytes_length _ _, leValue_memBytes _ _⟩

/-- An element has one encoding. -/
theorem encodes_unique {t : DType} {v : Int} {a b : List UInt8} (ha : Encodes t v a)
    (hb : Encodes t v b) : a = b := by
  obtain ⟨_, la, q, hq⟩ := ha
  obtain ⟨_, lb, r, hr⟩ := hb
  refine leValue_inj a b (la.trans lb.symm) ?_
  have h1 := leValue_lt a
  have h2 := leValue_lt b
  rw [la] at h1
  rw [lb] at h2
  have h3 : ((leValue a : Int)) = leValue a % 256 ^ byteWidth t :=
    (Int.emod_eq_of_lt (by omega) (by have := Int.ofNat_lt.2 h1; rw [Int.natCast_pow] at this; exact this)).symm
  have h4 : ((leValue b : Int)) = leValue b % 256 ^ byteWidth t :=
    (Int.emod_eq_of_lt (by omega) (by have := Int.ofNat_lt.2 h2; rw [Int.natCast_pow] at this; exact this)).symm
  have h5 : (leValue a : Int) % 256 ^ byteWidth t = v % 256 ^ byteWidth t := by
    rw [hq, Int.add_mul_emod_self_right]
  have h6 : (leValue b : Int) % 256 ^ byteWidth t = v % 256 ^ byteWidth t := by
    rw [hr, Int.add_mul_emod_self_right]
  have : (leValue a : Int) = leValue b := by rw [h3, h4, h5, h6]
  exact_mod_cast this

theorem rawOf_unique {t : DType} {vs : List Int} {a b : List UInt8} (ha : RawOf t vs a)
    (hb : RawOf t vs b) : a = b := by
  induction ha generalizing b with
  | nil => cases hb; rfl
  | cons h1 _ ih =>
    cases hb with
    | cons h2 h3 => rw [encodes_unique h1 h2, ih h3]

theorem rawOf_length {t : DType} {vs : List Int} {a : List UInt8} (h : RawOf t vs a) :
    a.length = vs.length * byteWidth t := by
  induction h with
  | nil => simp
  | cons h _ ih => simp [h.2.1, ih, Nat.succ_mul, Nat.add_comm]

/-! ## Reading -/

theorem readElem_encodes {t : DType} {v : Int} {bs : List UInt8} (h : Encodes t v bs) :
    readElem t bs = some v := by
  obtain ⟨hr, hl, q, hq⟩ := h
  have hlt := leValue_lt bs
  rw [hl] at hlt
  unfold readElem
  generalize leValue bs = n at hq hlt ⊢
  cases t
  case bool =>
    change v = 0 ∨ v = 1 at hr
    change n < 256 ^ 1 at hlt
    change v = n + q * 256 ^ 1 at hq
    have : n ≤ 1 ∧ (n : Int) = v := by rcases hr with hr | hr <;> omega
    simp [this.1, this.2]
  all_goals
    simp only [InRange, byteWidth] at hr hlt hq
    simp only [signed, Option.some.injEq]
    (try split) <;> omega

theorem byteWidth_pos (t : DType) : 0 < byteWidth t := by cases t <;> decide

theorem readAll_raw {t : DType} {vs : List Int} {raw : List UInt8} (h : RawOf t vs raw) :
    ∀ fuel : Nat, raw.length ≤ fuel → readAll t fuel raw = some vs := by
  induction h with
  | nil => intro fuel _; cases fuel <;> rfl
  | @cons v bs vs rest he _ ih =>
    intro fuel hf
    have hl := he.2.1
    have hp := byteWidth_pos t
    cases hb : bs with
    | nil => simp [hb] at hl; omega
    | cons b bs' =>
      simp only [List.length_append] at hf
      cases fuel with
      | zero => simp [hb] at hf
      | succ fuel =>
        rw [hb] at hl
        have ht : (b :: (bs' ++ rest)).take (byteWidth t) = bs := by
          rw [← List.cons_append, ← hl, List.take_left', hb]
          rfl
        have hd : (b :: (bs' ++ rest)).drop (byteWidth t) = rest := by
          rw [← List.cons_append, ← hl, List.drop_left']
          rfl
        have hnl : ¬ ((b :: (bs' ++ rest)).length < byteWidth t) := by
          simp only [List.length_cons, List.length_append] at hl ⊢
          omega
        rw [List.cons_append, readAll, if_neg hnl, ht, hd, readElem_encodes he,
          ih fuel (by simp [hb] at hf; omega)]

/-- The number of elements read is the number of bytes over the width. -/
theorem readAll_length {t : DType} : ∀ (fuel : Nat) (bs : List UInt8) (vs : List Int),
    readAll t fuel bs = some vs → bs.length = vs.length * byteWidth t
  | _, [], vs, h => by
    have : vs = [] := by cases ‹Nat› <;> simpa [readAll] using h.symm
    simp [this]
  | 0, _ :: _, _, h => by simp [readAll] at h
  | fuel + 1, b :: bs, vs, h => by
    rw [readAll] at h
    split at h
    · cases h
    · rename_i hl
      split at h
      · rename_i v vs' _ h2
        cases h
        have := readAll_length fuel _ _ h2
        rw [List.length_drop] at this
        rw [List.length_cons (a := v), Nat.succ_mul]
        omega
      · cases h

/-! ## Theorems -/

/-- The importer knows the numbers of onnx.proto, and accepts no others. -/
theorem elementType_iff (c : Int) (t : DType) : elementType c = some t ↔ c = dataTypeNumber t := by
  constructor
  · intro h
    unfold elementType at h
    split at h <;> cases h <;> rfl
  · rintro rfl
    cases t <;> rfl

/-- **C40, raw bytes.** A tensor whose raw bytes encode `vs` is decoded to `vs`. -/
theorem C40_raw_decoded (p : Proto) (ext : Option ExtRef) (t : DType) (vs : List Int)
    (ht : p.dataType = dataTypeNumber t) (he : p.external = false) (hne : p.raw ≠ [])
    (hr : RawOf t vs p.raw) :
    ∃ d, tensorData p ext = .ok d ∧ d.dtype = t ∧ d.values = some vs :=
  ⟨⟨convertShape p.dims, t, p.raw⟩, by simp [tensorData, (elementType_iff _ _).2 ht, he, hne], rfl, readAll_raw hr _ (Nat.le_refl _)⟩

theorem vecToBytes_raw {t : DType} : ∀ {vs : List Int}, (∀ v ∈ vs, InRange t v) →
    RawOf t vs (vecToBytes (byteWidth t) vs)
  | [], _ => .nil
  | v :: vs, h => by
    rw [vecToBytes, List.flatMap_cons]
    exact .cons (memBytes_encodes (h v (List.mem_cons_self ..)))
      (vecToBytes_raw fun x hx => h x (List.mem_cons_of_mem _ hx))

theorem boolBytes_raw : ∀ {vs : List Int}, (∀ v ∈ vs, InRange .bool v) →
    RawOf .bool vs (vs.map fun x => if x ≠ 0 then 1 else 0)
  | [], _ => .nil
  | v :: vs, h => by
    have hv := h v (List.mem_cons_self ..)
    have ih := boolBytes_raw (vs := vs) fun x hx => h x (List.mem_cons_of_mem _ hx)
    rw [List.map_cons]
    refine RawOf.cons (bs := [if v ≠ 0 then 1 else 0]) ⟨hv, rfl, 0, ?_⟩ ih
    rcases hv with hv | hv <;> subst hv <;> rfl

theorem typedBytes_raw {t : DType} {p : Proto} (h : ∀ v ∈ typedField t p, InRange t v) :
    RawOf t (typedField t p) (typedBytes t p) := by
  cases t <;> first | exact vecToBytes_raw h | exact boolBytes_raw h

/-- **C40, typed fields.** A tensor without raw bytes is decoded to the elements of its typed field. -/
theorem C40_typed_decoded (p : Proto) (ext : Option ExtRef) (t : DType)
    (ht : p.dataType = dataTypeNumber t) (he : p.external = false) (hne : p.raw = [])
    (hr : ∀ v ∈ typedField t p, InRange t v) :
    ∃ d, tensorData p ext = .ok d ∧ d.dtype = t ∧ d.values = some (typedField t p) :=
  ⟨⟨convertShape p.dims, t, typedBytes t p⟩, by simp [tensorData, (elementType_iff _ _).2 ht, he, hne], rfl,
    readAll_raw (typedBytes_raw hr) _ (Nat.le_refl _)⟩

/-- **C40.** The two representations of the same elements give the very same tensor. -/
theorem C40_raw_same_as_typed (p q : Proto) (ext : Option ExtRef) (t : DType)
    (ht : p.dataType = dataTypeNumber t) (hd : q.dataType = p.dataType) (hs : q.dims = p.dims)
    (hp : p.external = false) (hq : q.external = false) (hqr : q.raw = [])
    (hv : ∀ v ∈ typedField t q, InRange t v) (hr : RawOf t (typedField t q) p.raw)
    (hne : p.raw ≠ []) : tensorData p ext = tensorData q ext := by
  have hb := rawOf_unique hr (typedBytes_raw hv)
  simp only [tensorData, hd, (elementType_iff _ _).2 ht, hp, hq, hqr, hs, hne, ne_eq, not_true_eq_false, not_false_eq_true,
    if_true, if_false, Bool.false_eq_true]
  rw [hb]

/-- **C40, external bytes.** If the range of the file encodes `vs`, the tensor is decoded to `vs`. -/
theorem C40_external_decoded (p : Proto) (t : DType) (vs : List Int) (pre raw post : List UInt8)
    (len : Option Nat) (ht : p.dataType = dataTypeNumber t) (he : p.external = true)
    (hr : RawOf t vs raw)
    (hl : len.getD (defaultLength (convertShape p.dims) t) = raw.length) :
    ∃ d, tensorData p (some ⟨pre ++ raw ++ post, pre.length, len⟩) = .ok d ∧ d.dtype = t ∧
      d.values = some vs := by
  have hload : loadExternal (pre ++ raw ++ post) pre.length raw.length = some raw := by
    rw [loadExternal, if_pos (by simp), List.append_assoc, List.drop_left, List.take_left]
  exact ⟨⟨convertShape p.dims, t, raw⟩, by simp only [tensorData, (elementType_iff _ _).2 ht, he, hl, hload, if_true], rfl,
    readAll_raw hr _ (Nat.le_refl _)⟩

theorem foldl_mul : ∀ (ds : List Nat) (a : Nat), ds.foldl (· * ·) a = a * elemCount ds
  | [], a => by simp [elemCount]
  | d :: ds, a => by rw [List.foldl_cons, foldl_mul ds, elemCount, Nat.mul_assoc]

/-- **C40, element count.** The number of decoded elements is the number the shape asks for exactly when the
number of bytes is right. Missing: nothing compares the two (`C40_count_unchecked`). -/
theorem C40_count_partial (d : Data) (vs : List Int) (h : d.values = some vs) :
    vs.length = elemCount d.shape ↔ d.bytes.length = elemCount d.shape * byteWidth d.dtype := by
  have := readAll_length _ _ _ h
  rw [this]
  exact ⟨fun h => by rw [h], fun h => Nat.eq_of_mul_eq_mul_right (byteWidth_pos _) h⟩

/-- External data without a length entry always has the right number of elements. -/
theorem C40_external_default_length (p : Proto) (e : ExtRef) (d : Data) (vs : List Int)
    (he : p.external = true) (hl : e.length = none) (hd : tensorData p (some e) = .ok d)
    (h : d.values = some vs) : vs.length = elemCount d.shape := by
  rw [C40_count_partial d vs h]
  simp only [tensorData, he, if_true, hl] at hd
  split at hd
  · cases hd
  · rename_i t _
    split at hd
    · cases hd
    · rename_i bytes hb
      cases hd
      simp only [Option.getD_none] at hb
      have hdl : defaultLength (convertShape p.dims) t =
          elemCount (convertShape p.dims) * byteWidth t := by
        rw [defaultLength]
        split
        · rename_i h0; rw [h0]; rfl
        · rw [foldl_mul, Nat.one_mul]
      rw [hdl] at hb
      rw [loadExternal] at hb
      split at hb
      · cases hb
        rename_i hle
        show (List.take _ _).length = elemCount (convertShape p.dims) * byteWidth t
        rw [List.length_take, List.length_drop]
        omega
      · split at hb
        · rename_i h0
          cases hb
          exact h0.symm
        · cases hb

/-- Embedded tensors of a supported type are never refused. -/
theorem C40_supported_accepted (p : Proto) (ext : Option ExtRef) (he : p.external = false) :
    (∃ t, p.dataType = dataTypeNumber t) ↔ ∃ d, initializer p ext = .ok d := by
  constructor
  · rintro ⟨t, ht⟩
    rw [← elementType_iff] at ht
    by_cases hr : p.raw = []
    · exact ⟨⟨convertShape p.dims, t, typedBytes t p⟩, by simp [initializer, tensorData, ht, he, hr]⟩
    · exact ⟨⟨convertShape p.dims, t, p.raw⟩, by simp [initializer, tensorData, ht, he, hr]⟩
  · rintro ⟨d, hd⟩
    cases ht : elementType p.dataType with
    | some t => exact ⟨t, (elementType_iff _ _).1 ht⟩
    | none =>
      simp only [initializer, tensorData, ht] at hd
      repeat (first | (split at hd) | cases hd)

/-- The dims of a valid file are kept. -/
theorem C40_shape_kept (p : Proto) (ext : Option ExtRef) (d : Data)
    (hd : ∀ x ∈ p.dims, 0 ≤ x ∧ x < 2 ^ 63) (h : initializer p ext = .ok d) :
    d.shape.map Int.ofNat = p.dims := by
  have hs : d.shape = convertShape p.dims := by
    simp only [initializer, tensorData] at h
    repeat' (first | (split at h) | (cases h; try rfl))
    all_goals (try rename_i hx; try cases hx; try rfl)
    all_goals simp_all
    all_goals (try (split at * <;> simp_all))
  rw [hs, convertShape, List.map_map]
  conv => rhs; rw [← List.map_id p.dims]
  refine List.map_congr_left fun x hx => ?_
  have := hd x hx
  simp only [Function.comp, id, Int.ofNat_eq_natCast]
  omega

/-! ## Cases -/

/-- Two 16-bit integers, once as bytes and once in `int32_data`. -/
def rawI16 : Proto := { dims := [2], dataType := 5, raw := [0xFE, 0xFF, 0x2C, 0x01] }
def typedI16 : Proto := { dims := [2], dataType := 5, int32Data := [-2, 300] }

example : RawOf .i16 [-2, 300] rawI16.raw :=
  .cons (bs := [0xFE, 0xFF]) ⟨by decide, rfl, -1, rfl⟩
    (.cons (bs := [0x2C, 0x01]) ⟨by decide, rfl, 0, rfl⟩ .nil)
example : tensorData rawI16 none = tensorData typedI16 none := by decide +kernel
example : (match tensorData rawI16 none with | .ok d => d.values | _ => none) = some [-2, 300] := by
  decide +kernel
example : tensorData { typedI16 with external := true } (some ⟨[7, 7, 0xFE, 0xFF, 0x2C, 0x01, 9], 2, none⟩) =
    .ok ⟨[2], .i16, [0xFE, 0xFF, 0x2C, 0x01]⟩ := by decide +kernel

/-- A 2×3 tensor with one element, and a vector of length 1 with three, are accepted. -/
theorem C40_count_unchecked :
    initializer { dims := [2, 3], dataType := 6, int32Data := [7] } none =
      .ok ⟨[2, 3], .i32, [7, 0, 0, 0]⟩ ∧
    initializer { dims := [1], dataType := 2, raw := [1, 2, 3] } none = .ok ⟨[1], .u8, [1, 2, 3]⟩ := by
  decide +kernel

/-- A negative dimension becomes a huge one; the check of the fallback (proto_conversion.rs:166-171) is never
reached for a supported embedded tensor. -/
theorem C40_negative_dim_accepted :
    initializer { dims := [-1], dataType := 2, raw := [1, 2, 3] } none =
      .ok ⟨[2 ^ 64 - 1], .u8, [1, 2, 3]⟩ := by
  decide +kernel

/-- An element of `int32_data` outside the tensor's type is not rejected but wrapped around. -/
theorem C40_out_of_range_wraps :
    initializer { dims := [1], dataType := 3, int32Data := [200] } none = .ok ⟨[1], .i8, [200]⟩ ∧
    (⟨[1], .i8, [200]⟩ : Data).values = some [-56] := by
  decide +kernel

/-- A raw boolean byte other than 0 and 1 is stored as it is. -/
theorem C40_raw_bool_unchecked :
    initializer { dims := [1], dataType := 9, raw := [2] } none = .ok ⟨[1], .bool, [2]⟩ ∧
    (⟨[1], .bool, [2]⟩ : Data).values = none := by
  decide +kernel

end OnnxIR.Decode
