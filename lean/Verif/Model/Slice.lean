import Verif.Spec.Slice
import Verif.Model.OpRules3

/-!
# Slice of a tensor

crates/onnx-ir/src/node/slice.rs:225-390 (configuration) and crates/burn-onnx/src/burn/node/slice.rs:33-461
(`generate_tensor_slice`). `none` is a panic of the generator, or code that does not compile or panics. The attribute form of
opset 1 (slice.rs:227-270) is a constant configuration with steps of one.
-/

namespace OnnxIR.Gen

open Burn (SliceRange)

/-- crates/onnx-ir/src/node/slice.rs:46-52 `SliceInput`; a runtime input with its type and the value it has when the code runs. -/
inductive SliceIn
  | static (vs : List Int)
  | runtime (ty : ArgType) (v : GVal Int)

/-- slice.rs:29-34 `SliceConfig`. -/
structure SliceCfg where
  starts : SliceIn
  ends : SliceIn
  axes : Option SliceIn
  steps : Option SliceIn

/-- slice.rs:61-67 `normalize_axes`. -/
def sliceAxes (rank : Nat) : Option SliceIn → Option SliceIn
  | some (.static as) => some (.static (as.map fun a => if a < 0 then a + rank else a))
  | x => x

/-- The numbers `0, 1, …` as `i64`. -/
def upTo (n : Nat) : List Int := (List.range n).map Int.ofNat

/-- slice.rs:325-389 on a tensor of rank `rank`: defaults for constant starts, no zero among constant steps. -/
def sliceConfig (rank : Nat) (starts ends : SliceIn) (axes steps : Option SliceIn) : Option SliceCfg :=
  let d : Option SliceIn × Option SliceIn := match starts with
    | .static ss =>
      (match axes with | none => if 0 < ss.length then some (.static (upTo ss.length)) else none | x => x,
       match steps with | none => if 0 < ss.length then some (.static (List.replicate ss.length 1)) else none | x => x)
    | .runtime _ _ => (axes, steps)
  match d.2 with
  | some (.static ts) => if 0 ∈ ts then none else some ⟨starts, ends, sliceAxes rank d.1, d.2⟩
  | _ => some ⟨starts, ends, sliceAxes rank d.1, d.2⟩

/-- The range for constant bounds (burn slice.rs:63-82). -/
def staticRange (s e t : Int) : Option SliceRange :=
  if e = 2 ^ 63 - 1 then some ⟨s, none, t⟩ else if 2 ^ 31 - 1 < e then none else some ⟨s, some e, t⟩

/-- The loop over constant bounds (burn slice.rs:56-85; 88-113 with the axes `0, 1, …`). Axes outside the tensor are passed
over. -/
def staticEntries (rank : Nat) : List Int → List Int → List Int → List Int → Option (List (Nat × SliceRange))
  | a :: as, s :: ss, e :: es, ts =>
    if 0 ≤ a ∧ a < rank then
      match ts with
      | [] => none
      | t :: ts => (staticRange s e t).bind fun r => (staticEntries rank as ss es ts).map ((a.toNat, r) :: ·)
    else staticEntries rank as ss es (ts.drop 1)
  | _, _, _, _ => some []

/-- The loop over arrays and constants whose lengths are known (burn slice.rs:134-148, 319-335, 402-419). -/
def pairEntries (rank : Nat) : List Int → List Int → List Int → List (Nat × SliceRange)
  | a :: as, s :: ss, e :: es =>
    if 0 ≤ a ∧ a < rank then (a.toNat, ⟨s, some e, 1⟩) :: pairEntries rank as ss es else pairEntries rank as ss es
  | _, _, _ => []

/-- `v as usize`: a negative number becomes a huge one; such bounds are left out of the model (`none`). -/
def asUsize (x : Int) : Option Int := if 0 ≤ x then some x else none

/-- The loop over values read at run time, cast to `usize` (burn slice.rs:168-176, 252-268, 347-359, 431-443): a missing value
panics. -/
def vecEntries (rank : Nat) : List Int → List Int → List Int → Option (List (Nat × SliceRange))
  | [], _, _ => some []
  | a :: as, s :: ss, e :: es =>
    if 0 ≤ a ∧ a < rank then
      (asUsize s).bind fun s => (asUsize e).bind fun e => (vecEntries rank as ss es).map ((a.toNat, ⟨s, some e, 1⟩) :: ·)
    else vecEntries rank as ss es
  | a :: as, ss, es => if 0 ≤ a ∧ a < rank then none else vecEntries rank as ss es

/-- One axis with native scalars (burn slice.rs:196-210, 367-384). -/
def scalarEntry (rank : Nat) (axes : Option SliceIn) (s e : Int) : Option (List (Nat × SliceRange)) :=
  match axes with
  | some (.static (a :: _)) => vecEntries rank [a] [s] [e]
  | _ => none

/-- `match (&node.config.starts, &node.config.ends)` (burn slice.rs:44-456). A tensor is used by `to_data()`, so its values are
read in order; on-device scalars are cast as if they were numbers, which does not compile. -/
def sliceEntries (rank : Nat) (c : SliceCfg) : Option (List (Nat × SliceRange)) :=
  match c.starts, c.ends with
  | .static ss, .static es =>
    match c.steps, c.axes with
    | some (.static ts), some (.static as) => staticEntries rank as ss es ts
    | some (.static ts), _ => staticEntries rank (upTo rank) ss es ts
    | _, _ => none
  | .runtime _ (.shape ss), .runtime _ (.shape es) =>
    match c.axes with
    | some (.static as) => some (pairEntries rank as ss es)
    | _ => some (pairEntries rank (upTo rank) ss es)
  | .runtime (.tensor _) (.dev s), .runtime (.tensor _) (.dev e) =>
    match c.axes with
    | some (.static as) => vecEntries rank as s.data e.data
    | _ => none
  | .runtime _ (.native s), .runtime _ (.native e) => scalarEntry rank c.axes s e
  | .runtime (.tensor _) (.dev s), .runtime _ (.shape es) =>
    match c.axes with
    | some (.static as) => vecEntries rank as s.data es
    | _ => vecEntries rank (upTo (min 1 rank)) s.data es
  | .runtime _ (.shape ss), .runtime (.tensor _) (.dev e) =>
    match c.axes with
    | some (.static as) => vecEntries rank as ss e.data
    | _ => vecEntries rank (upTo (min 1 rank)) ss e.data
  | .runtime _ _, .runtime _ _ => none
  | .static ss, .runtime _ (.shape es) =>
    match c.axes with
    | some (.static as) => some (pairEntries rank as ss es)
    | _ => some (pairEntries rank (upTo rank) ss es)
  | .static ss, .runtime (.tensor _) (.dev e) => vecEntries rank (upTo (min rank ss.length)) ss e.data
  | .static ss, .runtime _ (.native e) => ss.head?.bind fun s => scalarEntry rank c.axes s e
  | .static _, .runtime _ _ => none
  | .runtime _ (.shape ss), .static es =>
    match c.axes with
    | some (.static as) => some (pairEntries rank as ss es)
    | _ => some (pairEntries rank (upTo rank) ss es)
  | .runtime (.tensor _) (.dev s), .static es => vecEntries rank (upTo (min rank es.length)) s.data es
  | .runtime _ _, .static _ => none

/-- `let mut ranges = vec![quote! { .. }; rank]` and the assignments to it (burn slice.rs:41, 167, 250). -/
def setRanges (rank : Nat) (es : List (Nat × SliceRange)) : List SliceRange :=
  es.foldl (fun rs e => rs.set e.1 e.2) (List.replicate rank {})

/-- Configuration and generated code (burn slice.rs:33-461). -/
def genSlice {α : Type} [Inhabited α] (starts ends : SliceIn) (axes steps : Option SliceIn) (u : Tensor α) : Option (Tensor α) :=
  (sliceConfig u.shape.length starts ends axes steps).bind fun c =>
    (sliceEntries u.shape.length c).bind fun es => Burn.slice u (setRanges u.shape.length es)

end OnnxIR.Gen
