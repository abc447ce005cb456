import Verif.Props.Scan

/-!
# Scan: examples and the cases the generated code does not handle
-/

namespace OnnxIR

open Rust Gen Onnx

/-! ### Running sums -/

/-- `Add` of two tensors of one shape. -/
def addTensors : List (Tensor Int) → Option (List (Tensor Int))
  | [a, b] => if a.shape = b.shape then some [Tensor.ofFn a.shape fun i => a.get i + b.get i] else none
  | _ => none

/-- The total so far is the carried value and the scan output; the sequence is read backwards along its second axis, and the totals are
written along the second axis. -/
def sumScan : ScanNode Int where
  inits := ["x0"]
  seqs := ["xs"]
  captures := [("w", "bias")]
  body := ⟨["s"], ["x"], [⟨["t"], ["s", "x"], addTensors⟩, ⟨["o"], ["t", "w"], addTensors⟩], ["o"], ["o"]⟩
  attrs := { inAxes := [1], inDirs := [1], outAxes := [1], outDirs := [0] }

theorem sumScan_ok : WellFormedScan sumScan ∧ ScanNoClobber sumScan := by
  refine ⟨⟨rfl, rfl, rfl, by decide +kernel, by decide +kernel, by decide +kernel, by decide +kernel, by decide +kernel, by decide +kernel,
    by simp [sumScan], by decide +kernel, by decide +kernel, by decide +kernel, ?_, by decide +kernel, by decide +kernel⟩,
    ⟨by simp [sumScan], by decide +kernel⟩⟩
  exact ⟨by decide +kernel, by decide +kernel, trivial⟩

/-- The inputs of the example: `[[1, 2, 3], [4, 5, 6]]`, starting at `[0, 0]`, with `[10, 100]` added in each round. -/
def sumStore : Store (Tensor Int) :=
  [("x0", .val ⟨[2], [0, 0], rfl⟩), ("xs", .val ⟨[2, 3], [1, 2, 3, 4, 5, 6], rfl⟩), ("bias", .val ⟨[2], [10, 100], rfl⟩)]

example : SequencesOk sumScan.attrs 3 [(⟨[2, 3], [1, 2, 3, 4, 5, 6], rfl⟩ : Tensor Int)] := by
  intro j t h
  match j, h with
  | 0, h => cases h; decide +kernel

/-- The last totals, and all of them. -/
example : (genScan sumScan sumStore).map (·.map fun t => (t.shape, t.data)) =
    some [([2], [36, 315]), ([2, 3], [13, 25, 36, 106, 211, 315])] := by decide +kernel

/-! ### Values overwritten too early -/

/-- The total before each element: ONNX allows the scan output to be the carried input itself. -/
def previousScan : ScanNode Int where
  inits := ["x0"]
  seqs := ["xs"]
  captures := []
  body := ⟨["s"], ["x"], [⟨["o"], ["s", "x"], addTensors⟩], ["o"], ["s"]⟩
  attrs := {}

def previousStore : Store (Tensor Int) := [("x0", .val ⟨[1], [0], rfl⟩), ("xs", .val ⟨[3, 1], [1, 2, 3], rfl⟩)]

/-- C71: the carried value is overwritten before it is collected, so the scan output has the totals after each element. -/
theorem C71_previous_value_wrong :
    (scanFold (scanStep previousScan.body (fun _ => none)) ((List.range 3).map (scanRow {} [⟨[3, 1], [1, 2, 3], rfl⟩] 3)) [⟨[1], [0], rfl⟩]).map
        (fun r => (column r.2 0).map Tensor.data) = some [[0], [1], [3]] ∧
    (genScan previousScan previousStore).map (·.map Tensor.data) = some [[6], [1, 3, 6]] := by
  constructor <;> decide +kernel

/-- The body exchanges its two carried values. -/
def swapScan : ScanNode Int where
  inits := ["x0", "y0"]
  seqs := ["xs"]
  captures := []
  body := ⟨["a", "b"], ["x"], [], ["b", "a"], []⟩
  attrs := {}

def swapStore : Store (Tensor Int) := [("x0", .val ⟨[1], [1], rfl⟩), ("y0", .val ⟨[1], [2], rfl⟩), ("xs", .val ⟨[1, 1], [0], rfl⟩)]

/-- C71: the first assignment overwrites what the second one reads. -/
theorem C71_swap_wrong :
    (scanFold (scanStep swapScan.body (fun _ => none)) ((List.range 1).map (scanRow {} [⟨[1, 1], [0], rfl⟩] 1)) [⟨[1], [1], rfl⟩, ⟨[1], [2], rfl⟩]).map
        (fun r => r.1.map Tensor.data) = some [[2], [1]] ∧
    (genScan swapScan swapStore).map (·.map Tensor.data) = some [[2], [2]] := by
  constructor <;> decide +kernel

/-! ### Axes, ranks and lengths that panic -/

section
variable {α : Type} [Inhabited α]

/-- C71: a negative axis for the first sequence panics, whatever the body. -/
theorem C71_negative_axis_panics (n : ScanNode α) (hwf : WellFormedScan n) (e : Store (Tensor α)) {vs : List (Tensor α)}
    (hinit : values (getVal e) n.inits = some vs) {x : String} {xs : List String} (hx : n.seqs = x :: xs) {t : Tensor α}
    (ht : getVal e x = some t) (hr : t.shape.length ≤ 2 ^ 63) (ha : n.attrs.inAxes.getD 0 0 < 0) (hb : -2 ^ 63 ≤ n.attrs.inAxes.getD 0 0) :
    genScan n e = none := by
  obtain ⟨e1, h1, hs⟩ := scan_init hwf hinit
  have : seqLen n e1 = none := by
    unfold seqLen
    rw [hx]
    dsimp only
    rw [getVal_of_look (hs.outer x (hwf.seqs_outer x (by rw [hx]; exact List.mem_cons_self)).1), ht, Option.bind_some]
    refine List.getElem?_eq_none ?_
    unfold scanUsize
    rw [if_pos ha]
    omega
  unfold genScan
  rw [h1, Option.bind_some, this]
  rfl

/-- C71: a sequence of scalars panics, unless it is empty. -/
theorem C71_scalar_elements_panic (n : ScanNode α) (hwf : WellFormedScan n) (e : Store (Tensor α)) {vs : List (Tensor α)}
    (hinit : values (getVal e) n.inits = some vs) {x : String} {xs : List String} (hx : n.seqs = x :: xs) {t : Tensor α}
    (ht : getVal e x = some t) {len : Nat} (hr : t.shape = [len + 1]) : genScan n e = none := by
  obtain ⟨e1, h1, hs⟩ := scan_init hwf hinit
  have hv : getVal e1 x = some t := by
    rw [getVal_of_look (hs.outer x (hwf.seqs_outer x (by rw [hx]; exact List.mem_cons_self)).1), ht]
  unfold genScan
  rw [h1, Option.bind_some]
  cases hl : seqLen n e1 with
  | none => rfl
  | some m =>
    have hm : m = len + 1 := by
      unfold seqLen at hl
      rw [hx] at hl
      dsimp only at hl
      rw [hv, Option.bind_some, hr] at hl
      cases hk : scanUsize (n.attrs.inAxes.getD 0 0) with
      | zero => rw [hk] at hl; exact (Option.some.inj hl).symm
      | succ k => rw [hk] at hl; simp at hl
    subst hm
    simp only [Option.bind_some, forRun]
    have : run (scanBody n (len + 1) 0) e1 = none := by
      cases he : n.body.elems with
      | nil => have := hwf.elems_len; rw [he, hx] at this; simp at this
      | cons y ys =>
        have : ∃ rest f, scanBody n (len + 1) 0 = .bind ⟨[y], [x], call1 f⟩ :: rest ∧ f t = none := by
          refine ⟨(scanBody n (len + 1) 0).tail, sliceElem (scanUsize (n.attrs.inAxes.getD 0 0)) (if n.attrs.inDirs.getD 0 0 = 1 then len + 1 - 0 - 1 else 0), ?_, ?_⟩
          · unfold scanBody sliceStmts
            rw [he, hx, List.zip_cons_cons, List.mapIdx_cons, List.cons_append, List.cons_append, List.cons_append]
            rfl
          · unfold sliceElem
            rw [if_neg (by rw [hr]; simp)]
        obtain ⟨rest, f, h2, h3⟩ := this
        rw [h2]
        simp [run, values, hv, call1, h3]
    rw [this]
    rfl

/-- C71: without iterations there is nothing to stack, so a Scan with scan outputs panics. -/
theorem C71_empty_panics (n : ScanNode α) (hwf : WellFormedScan n) (e : Store (Tensor α)) {vs : List (Tensor α)}
    (hinit : values (getVal e) n.inits = some vs) {x : String} {xs : List String} (hx : n.seqs = x :: xs) {t : Tensor α}
    (ht : getVal e x = some t) {a : Nat} (ha : n.attrs.inAxes.getD 0 0 = a) (h0 : t.shape[a]? = some 0) (ho : n.body.scanOuts ≠ []) :
    genScan n e = none := by
  obtain ⟨e1, h1, hs⟩ := scan_init hwf hinit
  have hl : seqLen n e1 = some 0 := by
    unfold seqLen
    rw [hx]
    dsimp only
    rw [getVal_of_look (hs.outer x (hwf.seqs_outer x (by rw [hx]; exact List.mem_cons_self)).1), ht, Option.bind_some, ha]
    have : scanUsize (a : Int) = a := by unfold scanUsize; rw [if_neg (by omega)]; omega
    rw [this, h0]
  unfold genScan
  rw [h1, Option.bind_some, hl, Option.bind_some]
  simp only [forRun, Option.bind_some, hs.vars]
  obtain ⟨m, hm⟩ : ∃ m, n.body.scanOuts.length = m + 1 := ⟨n.body.scanOuts.length - 1, by have := List.length_pos_iff.2 ho; omega⟩
  rw [hm, List.range_succ_eq_map, List.mapM_cons]
  have : scanFinal n e1 0 = none := by
    unfold scanFinal
    rw [hs.cols 0 (scanCollector 0) (by simp [scanCollectors, hm])]
    simp [column, Burn.stack]
  rw [this]
  rfl

end

/-- The hypotheses of the three cases can be met. -/
example : WellFormedScan previousScan ∧ values (getVal previousStore) previousScan.inits = some [⟨[1], [0], rfl⟩] := by
  refine ⟨⟨rfl, rfl, rfl, by decide +kernel, by decide +kernel, by decide +kernel, by decide +kernel, by decide +kernel, by decide +kernel,
    by simp [previousScan], by decide +kernel, by decide +kernel, by decide +kernel, ?_, by decide +kernel, by decide +kernel⟩, rfl⟩
  exact ⟨by decide +kernel, trivial⟩

end OnnxIR
