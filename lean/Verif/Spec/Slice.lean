import Verif.Spec.ShapeOps
import Verif.Spec.GatherND
import Verif.Spec.Generated

/-!
# Slice of a tensor: ONNX's definition and Burn's method
-/

namespace OnnxIR

variable {α : Type} [Inhabited α]

/-- The tensor made of the given places of every dimension. -/
def Tensor.pickAll (ps : List (List Nat)) (X : Tensor α) : Tensor α :=
  Tensor.ofFn (ps.map (·.length)) fun i => X.get (List.zipWith (fun p k => p.getD k 0) ps i)

namespace Onnx

/-- The places that Slice reads in a dimension of size `d`: ONNX's slice of `0, 1, …, d - 1`. -/
def slicePlaces (d : Nat) (start stop step : Int) : List Nat :=
  (onnxSlice1 ((List.range d).map Int.ofNat) start stop step).map Int.toNat

/-- The start, end and step given for dimension `k` of `r`, if any. An entry is an axis with its start, end and step. -/
def entryOf (r k : Nat) : List (Int × Int × Int × Int) → Option (Int × Int × Int)
  | [] => none
  | (a, e) :: rest => if index r a = some k then some e else entryOf r k rest

/-- The places read in dimension `k` of size `d`. -/
def placesOf (r k d : Nat) (es : List (Int × Int × Int × Int)) : List Nat :=
  match entryOf r k es with
  | some (s, e, t) => slicePlaces d s e t
  | none => List.range d

/-- Slice: dimensions with an entry are sliced, the others are kept. The axes must exist and differ, steps are not zero. -/
def sliceT (es : List (Int × Int × Int × Int)) (X : Tensor α) : Option (Tensor α) :=
  if (∀ e ∈ es, (index X.shape.length e.1).isSome ∧ e.2.2.2 ≠ 0) ∧ (es.map fun e => index X.shape.length e.1).Nodup then
    some (X.pickAll (X.shape.mapIdx fun k d => placesOf X.shape.length k d es))
  else none

end Onnx

namespace Burn

/-- One entry of `s![…]`: `start..end;step`, `start..;step` and `..`. -/
structure SliceRange where
  start : Int := 0
  stop : Option Int := none
  step : Int := 1
deriving DecidableEq

/-- A signed bound, negative from the back, cut to the dimension. -/
def bound (d : Nat) (x : Int) : Nat := if x < 0 then (d + x).toNat else min x.toNat d

/-- The places that Burn's `slice` reads in a dimension of size `d`; a negative step reads the same range from its end. -/
def places (d : Nat) (r : SliceRange) : List Nat :=
  let s := bound d r.start
  let e := match r.stop with
    | some x => bound d x
    | none => d
  let t := r.step.natAbs
  (List.range ((e - s + t - 1) / t)).map fun k => if 0 < r.step then s + k * t else e - 1 - k * t

/-- `Tensor::slice(s![…])` with one entry for each dimension. Panics on a step of zero. -/
def slice (t : Tensor α) (rs : List SliceRange) : Option (Tensor α) :=
  if rs.length = t.shape.length ∧ ∀ r ∈ rs, r.step ≠ 0 then
    some (t.pickAll (List.zipWith places t.shape rs))
  else none

end Burn

/-- Rows from the back, every second column. -/
def sliceX : Tensor Int := ⟨[2, 4], [1, 2, 3, 4, 5, 6, 7, 8], rfl⟩

example : (Onnx.sliceT [(0, -1, -3, -1), (1, 0, 9, 2)] sliceX).map (fun t => (t.shape, t.data)) = some ([2, 2], [5, 7, 1, 3]) ∧
    (Burn.slice sliceX [⟨0, none, -1⟩, ⟨0, some 9, 2⟩]).map (fun t => (t.shape, t.data)) = some ([2, 2], [5, 7, 1, 3]) := by
  constructor <;> decide +kernel

end OnnxIR
