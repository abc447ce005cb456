import Verif.Props.Ownership

/-!
# C24: a tensor used n times is cloned n − 1 times; cases and counterexamples for C23
-/

namespace OnnxIR

open Rust Gen

/-- Every node accesses each of its inputs exactly as often as it lists it, through the scope. -/
def Exact : Prog → Prop
  | .done => True
  | .op ins _ acc r => (∀ x, accCount acc x = ins.count x) ∧ (∀ a ∈ acc, ∃ x, a = .arg x) ∧ Exact r
  | _ => False

theorem clones_binds {xs : List String} {c : Code} {x : String} :
    clones x (binds xs c) = clones x c ∧ moves x (binds xs c) = moves x c := by
  induction xs with
  | nil => exact ⟨rfl, rfl⟩
  | cons y xs ih => exact ih

theorem clones_moves {xs : List String} {c : Code} {x : String} :
    clones x (movesOf xs c) = clones x c ∧ moves x (movesOf xs c) = xs.count x + moves x c := by
  induction xs with
  | nil => simp [movesOf]
  | cons y xs ih =>
    show clones x (movesOf xs c) = _ ∧ (if y = x then 1 else 0) + moves x (movesOf xs c) = _
    refine ⟨ih.1, ?_⟩
    rw [ih.2, List.count_cons]
    simp only [beq_iff_eq]
    omega

/-- One run of accesses, when the counter is exact. -/
theorem accesses_exact {acc : List Access} (ha : ∀ a ∈ acc, ∃ x, a = .arg x) {pos : Nat} {s : Scope}
    {x : String} {v : Var} {n : Nat} (hv : s x = some v) (hp : v.pos ≤ pos)
    (hr : v.refs = accCount acc x + n) :
    (∀ c, clones x ((genAccesses pos s acc).2 c) =
        clones x c + (accCount acc x - if n = 0 ∧ 0 < accCount acc x then 1 else 0)) ∧
    (∀ c, moves x ((genAccesses pos s acc).2 c) =
        moves x c + if n = 0 ∧ 0 < accCount acc x then 1 else 0) ∧
    (genAccesses pos s acc).1 x = some ⟨n, v.pos⟩ := by
  induction acc generalizing s v with
  | nil =>
    simp [accCount] at hr
    refine ⟨fun c => by simp [genAccesses, accCount], fun c => by simp [genAccesses, accCount], ?_⟩
    simp [genAccesses, hv, ← hr]
  | cons a acc ih =>
    have ha' : ∀ a ∈ acc, ∃ x, a = .arg x := fun b hb => ha b (by simp [hb])
    obtain ⟨y, rfl⟩ := ha a (by simp)
    have hc : ∀ z, accCount (.arg y :: acc) z = accCount acc z + if y = z then 1 else 0 := by
      intro z; simp [accCount, List.count_cons, Access.name]
    by_cases hy : y = x
    · subst hy
      rw [hc, if_pos rfl] at hr
      have huse : useOwned s y pos = (s.upd y ⟨v.refs - 1, v.pos⟩, decide (0 < v.refs - 1)) := by
        unfold useOwned
        rw [hv]
        simp only
        rw [if_pos ⟨hp, by omega⟩]
      obtain ⟨i1, i2, i3⟩ := ih ha' (s := s.upd y ⟨v.refs - 1, v.pos⟩) (v := ⟨v.refs - 1, v.pos⟩)
        (upd_same ..) hp (by simp only; omega)
      have hgen : ∀ c, (genAccesses pos s (.arg y :: acc)).2 c =
          (if decide (0 < v.refs - 1) then Code.clone y else Code.move y)
            ((genAccesses pos (s.upd y ⟨v.refs - 1, v.pos⟩) acc).2 c) := by
        intro c; simp [genAccesses, genAccess, huse]
      refine ⟨fun c => ?_, fun c => ?_, ?_⟩
      · rw [hgen, hc, if_pos rfl]
        by_cases hl : 0 < v.refs - 1
        · simp only [decide_eq_true hl, if_true, clones, i1]
          by_cases hn : n = 0 <;> by_cases h0 : 0 < accCount acc y <;> simp [hn, h0] <;> omega
        · simp only [decide_eq_false hl]
          show clones y (Code.move y _) = _
          simp only [clones, i1]
          by_cases hn : n = 0 <;> by_cases h0 : 0 < accCount acc y <;> simp [hn, h0] <;> omega
      · rw [hgen, hc, if_pos rfl]
        by_cases hl : 0 < v.refs - 1
        · simp only [decide_eq_true hl, if_true, moves, i2]
          by_cases hn : n = 0 <;> by_cases h0 : 0 < accCount acc y <;> simp [hn, h0] <;> omega
        · simp only [decide_eq_false hl]
          show moves y (Code.move y _) = _
          simp only [moves, i2]
          by_cases hn : n = 0 <;> by_cases h0 : 0 < accCount acc y <;> simp [hn, h0] <;> omega
      · show (genAccesses pos (useOwned s y pos).1 acc).1 y = _
        rw [huse]
        exact i3
    · rw [hc, if_neg hy] at hr
      have hs' : (useOwned s y pos).1 x = some v := by
        unfold useOwned
        split
        · split
          · exact (upd_other (Ne.symm hy)).trans hv
          · exact hv
        · exact hv
      obtain ⟨i1, i2, i3⟩ := ih ha' (s := (useOwned s y pos).1) (v := v) hs' hp hr
      refine ⟨fun c => ?_, fun c => ?_, i3⟩
      · rw [hc, if_neg hy, Nat.add_zero, ← i1]
        show clones x ((if _ then Code.clone y else Code.move y) _) = _
        split <;> (simp [clones, hy]; rfl)
      · rw [hc, if_neg hy, Nat.add_zero, ← i2]
        show moves x ((if _ then Code.clone y else Code.move y) _) = _
        split <;> (simp [moves, hy]; rfl)

theorem count_step (C M n A B : Nat) :
    C + (B - if n = 0 ∧ 0 < B then 1 else 0) + (A - if B + n = 0 ∧ 0 < A then 1 else 0) =
      C + (A + B - if n = 0 ∧ 0 < A + B then 1 else 0) ∧
    ((M + if n = 0 ∧ 0 < B then 1 else 0) + if B + n = 0 ∧ 0 < A then 1 else 0) =
      M + if n = 0 ∧ 0 < A + B then 1 else 0 := by
  rcases n with _ | n <;> rcases A with _ | A <;> rcases B with _ | B <;> simp <;>
    first | omega | (have : 0 < A + 1 + (B + 1) := by omega
                     simp only [this, if_true]; omega)

/-- Clones and moves by the nodes, for a tensor defined before them. -/
theorem prog_exact {p : Prog} {seen : List String} (hw : WellFormed p seen) (he : Exact p) {x : String}
    (hx : x ∈ seen) {pos : Nat} {s : Scope} {v : Var} {n : Nat} (hv : s x = some v) (hp : v.pos ≤ pos)
    (hr : v.refs = needs p x + n) (c : Code) :
    clones x ((genProg p pos s).2 ++ c) =
        clones x c + (needs p x - if n = 0 ∧ 0 < needs p x then 1 else 0) ∧
    moves x ((genProg p pos s).2 ++ c) = moves x c + if n = 0 ∧ 0 < needs p x then 1 else 0 := by
  induction p generalizing seen pos s v with
  | done => exact ⟨by simp [needs]; rfl, by simp [needs]; rfl⟩
  | op ins outs acc r ih =>
    obtain ⟨-, -, -, -, -, h6⟩ := hw
    obtain ⟨e1, e2, e3⟩ := he
    obtain ⟨i1, i2, i3⟩ := accesses_exact e2 (n := needs r x + n) hv hp (by rw [hr]; simp [needs]; omega)
    obtain ⟨j1, j2⟩ := ih h6 e3 (by simp [hx]) (pos := pos + 1) i3 (by simp only; omega) rfl
    simp only [genProg]
    rw [accesses_append, binds_append, i1, i2, clones_binds.1, clones_binds.2, j1, j2]
    exact count_step ..
  | ite => cases hw
  | loop => cases hw

theorem accesses_untouched {acc : List Access} {pos : Nat} {s : Scope} {x : String}
    (h : accCount acc x = 0) : (genAccesses pos s acc).1 x = s x ∧
      ∀ c, clones x ((genAccesses pos s acc).2 c) = clones x c ∧
        moves x ((genAccesses pos s acc).2 c) = moves x c := by
  induction acc generalizing s with
  | nil => exact ⟨rfl, fun c => ⟨rfl, rfl⟩⟩
  | cons a acc ih =>
    have hc : accCount (a :: acc) x = accCount acc x + if a.name = x then 1 else 0 := by
      simp [accCount, List.count_cons]
    rw [hc] at h
    have hne : a.name ≠ x := by intro he; rw [if_pos he] at h; omega
    have hs : (genAccess pos s a).1 x = s x := by
      cases a with
      | arg y =>
        show (useOwned s y pos).1 x = _
        unfold useOwned
        split
        · split
          · exact upd_other (Ne.symm hne)
          · rfl
        · rfl
      | peek y => rfl
      | raw y => rfl
    have hcode : ∀ c, clones x ((genAccess pos s a).2 c) = clones x c ∧
        moves x ((genAccess pos s a).2 c) = moves x c := by
      intro c
      cases a with
      | arg y =>
        have : y ≠ x := hne
        simp only [genAccess]
        split <;> simp [clones, moves, this]
      | peek y => have : y ≠ x := hne; simp [genAccess, clones, moves, this]
      | raw y => have : y ≠ x := hne; simp [genAccess, clones, moves, this]
    obtain ⟨i1, i2⟩ := ih (s := (genAccess pos s a).1) (by omega)
    refine ⟨i1.trans hs, fun c => ?_⟩
    exact ⟨((hcode _).1).trans (i2 c).1, ((hcode _).2).trans (i2 c).2⟩

/-- Clones and moves by the nodes, for a tensor one of them defines. -/
theorem prog_exact_def {p : Prog} {seen : List String} (hw : WellFormed p seen) (he : Exact p)
    {x : String} {k : Nat} {r' : Prog} (hd : DefinedAt x p k r') {pos : Nat} {s : Scope} {v : Var}
    {n : Nat} (hv : s x = some v) (hp : v.pos ≤ pos + k + 1) (hr : v.refs = needs p x + n) (c : Code) :
    clones x ((genProg p pos s).2 ++ c) =
        clones x c + (needs p x - if n = 0 ∧ 0 < needs p x then 1 else 0) ∧
    moves x ((genProg p pos s).2 ++ c) = moves x c + if n = 0 ∧ 0 < needs p x then 1 else 0 := by
  induction p generalizing seen pos s k with
  | done => cases hd
  | op ins outs acc r ih =>
    have hns : x ∉ seen := fun h => not_definedAt_seen hw h hd
    obtain ⟨h1, h2, -, -, -, h6⟩ := hw
    have h0 : accCount acc x = 0 := by
      by_cases hz : 0 < accCount acc x
      · exact absurd (h1 x (mem_of_access h2 hz)) hns
      · omega
    obtain ⟨e1, e2, e3⟩ := he
    obtain ⟨u1, u2⟩ := accesses_untouched (pos := pos) (s := s) h0
    have hneed : needs (.op ins outs acc r) x = needs r x := by simp [needs, h0]
    rw [hneed] at hr ⊢
    simp only [genProg]
    rw [accesses_append, binds_append, (u2 _).1, (u2 _).2, clones_binds.1, clones_binds.2]
    cases k with
    | zero => exact prog_exact h6 e3 (by simp [hd.1]) (u1.trans hv) hp hr c
    | succ k => exact ih h6 e3 hd (u1.trans hv) (by omega) hr
  | ite => cases hw
  | loop => cases hw

theorem needs_eq_supply {p : Prog} (h : Exact p) (x : String) : needs p x = supply p x := by
  induction p with
  | done => rfl
  | op ins outs acc r ih =>
    obtain ⟨h1, -, h3⟩ := h
    simp only [needs, supply, h1, ih h3]
  | ite => cases h
  | loop => cases h

theorem Exact.rest {p : Prog} {x : String} {k : Nat} {r' : Prog} (hd : DefinedAt x p k r') (h : Exact p) :
    Exact r' := by
  induction p generalizing k with
  | op ins outs acc r ih =>
    obtain ⟨-, -, h3⟩ := h
    cases k with
    | zero => obtain ⟨-, rfl⟩ := hd; exact h3
    | succ k => exact ih hd h3
  | _ => cases hd

/-- **C24.** In a well-formed graph whose nodes use each of their inputs once per mention, a tensor
with `n` uses (the graph output included) is moved once and cloned `n - 1` times; an unused one is
neither moved nor cloned. -/
theorem C24_clone_minimal_partial (g : Graph) (hg : WellFormedGraph g) (he : Exact g.prog) (x : String)
    (hx : x ∈ g.inputs ∨ x ∈ defs g.prog) (hs : x ∉ g.scalarOutputs) :
    clones x (forward g) = needs g.prog x + g.outputs.count x - 1 ∧
    moves x (forward g) = min 1 (needs g.prog x + g.outputs.count x) := by
  have hle : g.outputs.count x ≤ 1 :=
    List.nodup_iff_count.1 (List.nodup_append.1 hg.distinct).1 x
  have hs0 : g.scalarOutputs.count x = 0 := List.count_eq_zero.2 hs
  have key : ∀ c, clones x ((genProg g.prog 0 (buildScope g)).2 ++ c) = clones x c +
        (needs g.prog x - if g.outputs.count x = 0 ∧ 0 < needs g.prog x then 1 else 0) ∧
      moves x ((genProg g.prog 0 (buildScope g)).2 ++ c) =
        moves x c + if g.outputs.count x = 0 ∧ 0 < needs g.prog x then 1 else 0 := by
    intro c
    by_cases hi : x ∈ g.inputs
    · exact prog_exact hg.prog he hi (buildScope_input hg hi) (Nat.le_refl _)
        (by simp only; rw [needs_eq_supply he]) c
    · obtain ⟨k, r', hd⟩ := defs_definedAt hg.prog (hx.resolve_left hi)
      refine prog_exact_def hg.prog he hd (buildScope_def hg hd) (by simp only; omega) ?_ c
      simp only
      rw [(definedAt_needs hg.prog hd).1, needs_eq_supply (he.rest hd)]
  unfold forward
  rw [clones_binds.1, clones_binds.2, (key _).1, (key _).2, clones_moves.1, clones_moves.2,
    clones_moves.1, clones_moves.2, hs0]
  simp only [clones, moves]
  by_cases h1 : g.outputs.count x = 0 <;> by_cases h2 : 0 < needs g.prog x <;> simp [h1, h2] <;> omega

/-! ## A case -/

/-- `a = x + y; b = a * x; c = relu(a)`, outputs `b`, `c`, `a`. -/
def ownCase : Graph :=
  ⟨["x", "y"],
   .op ["x", "y"] ["a"] [.arg "x", .arg "y"]
   (.op ["a", "x"] ["b"] [.arg "a", .arg "x"]
   (.op ["a"] ["c"] [.arg "a"] .done)), ["b", "c", "a"], []⟩

theorem ownCase_wf : WellFormedGraph ownCase := by
  refine ⟨by decide, ⟨by decide, ?_, by simp, by decide, by decide, by decide, ?_, by simp, by decide,
    by decide, by decide, ?_, by simp, by decide, by decide, trivial⟩, by decide, by decide, by decide⟩ <;>
  · intro x
    simp [accCount, Access.name, List.count_cons]

example : Exact ownCase.prog := by
  refine ⟨?_, by simp, ?_, by simp, ?_, by simp, trivial⟩ <;>
  · intro x
    simp [accCount, Access.name, List.count_cons]

/-- `x` is cloned for its first use and moved at its last; `a` is cloned twice and returned. -/
example : Accepts (forward ownCase) ∧ clones "a" (forward ownCase) = 2 ∧ moves "a" (forward ownCase) = 1 ∧
    clones "x" (forward ownCase) = 1 ∧ clones "y" (forward ownCase) = 0 := by
  unfold Accepts; decide +kernel

/-! ## Counterexamples to C23 -/

/-- **C23 fails** for a scalar output that a node also uses: `s = sum(x); t = sqrt(s)`, both outputs.
`s` is moved into `sqrt` and then converted for the caller. -/
theorem C23_scalar_output_wrong :
    ∃ g, (∀ x ∈ g.outputs ++ g.scalarOutputs, x ∈ g.inputs ∨ x ∈ defs g.prog) ∧
      (g.outputs ++ g.scalarOutputs).Nodup ∧ WellFormed g.prog g.inputs ∧ ¬ Accepts (forward g) := by
  refine ⟨⟨["x"], .op ["x"] ["s"] [.arg "x"] (.op ["s"] ["t"] [.arg "s"] .done), [], ["s", "t"]⟩,
    by decide, by decide, ⟨by decide, ?_, by simp, by decide, by decide, by decide, ?_, by simp, by decide,
      by decide, trivial⟩, by unfold Accepts; decide +kernel⟩ <;>
  · intro x
    simp [accCount, Access.name, List.count_cons]

/-- **C23 fails** when the same tensor is returned twice (an Identity between two outputs is removed
and leaves both with one name). -/
theorem C23_duplicate_output_wrong :
    ∃ g, (∀ x ∈ g.outputs, x ∈ g.inputs ∨ x ∈ defs g.prog) ∧ WellFormed g.prog g.inputs ∧
      ¬ Accepts (forward g) := by
  refine ⟨⟨["x"], .op ["x"] ["y"] [.arg "x"] .done, ["y", "y"], []⟩, by decide,
    ⟨by decide, ?_, by simp, by decide, by decide, trivial⟩, by unfold Accepts; decide +kernel⟩
  intro x
  simp [accCount, Access.name, List.count_cons]

/-! ## Counterexamples to C25 -/

/-- **C25 fails** for If: `x` captured by both branches and used by two later nodes. The counter is
decremented once per branch, so the first later node moves `x`. -/
theorem C25_if_both_branches_wrong : ¬ Accepts (forward ⟨["c", "x"],
    .ite ["c", "x"] ["y"] [.arg "c"]
      [("x", "x")] (.op ["x"] ["t"] [.arg "x"] .done) ["t"]
      [("x", "x")] (.op ["x"] ["e"] [.arg "x"] .done) ["e"]
    (.op ["x", "y"] ["u"] [.arg "x", .arg "y"] (.op ["x", "u"] ["w"] [.arg "x", .arg "u"] .done)),
    ["w"], []⟩) := by
  unfold Accepts; decide +kernel

/-- The same graph with `x` captured by one branch only is accepted. -/
example : Accepts (forward ⟨["c", "x", "z"],
    .ite ["c", "x", "z"] ["y"] [.arg "c"]
      [("x", "x")] (.op ["x"] ["t"] [.arg "x"] .done) ["t"]
      [("z", "z")] (.op ["z"] ["e"] [.arg "z"] .done) ["e"]
    (.op ["x", "y"] ["u"] [.arg "x", .arg "y"] (.op ["x", "u"] ["w"] [.arg "x", .arg "u"] .done)),
    ["w"], []⟩) := by
  unfold Accepts; decide +kernel

/-- **C25 fails** for If: a value known in the branches as `r`, first used late in one branch and twice
early in the other. The position recorded for `r` by the first branch hides the uses of the second. -/
theorem C25_if_branch_positions_wrong : ¬ Accepts (forward ⟨["c", "x", "z"],
    .ite ["c", "x", "z"] ["y"] [.arg "c"]
      [("r", "x"), ("q", "z")] (.op ["q"] ["a1"] [.arg "q"] (.op ["a1"] ["a2"] [.arg "a1"]
        (.op ["a2", "r"] ["a3"] [.arg "a2", .arg "r"] .done))) ["a3"]
      [("r", "x")] (.op ["r"] ["b1"] [.arg "r"] (.op ["b1", "r"] ["b2"] [.arg "b1", .arg "r"] .done)) ["b2"]
    .done, ["y"], []⟩) := by
  unfold Accepts; decide +kernel

/-- **C25 fails** for Loop: the initial value of a loop variable is taken by value without asking the
scope, so a later use fails. -/
theorem C25_loop_initial_wrong : ¬ Accepts (forward ⟨["x"],
    .loop ["x"] ["y"] ["x"] ["v"] [] [] [] (.op ["v"] ["o"] [.arg "v"] .done) ["o"]
    (.op ["x", "y"] ["w"] [.arg "x", .arg "y"] .done), ["w"], []⟩) := by
  unfold Accepts; decide +kernel

/-- Without the later use it is accepted. -/
example : Accepts (forward ⟨["x"],
    .loop ["x"] ["y"] ["x"] ["v"] [] [] [] (.op ["v"] ["o"] [.arg "v"] .done) ["o"] .done, ["y"], []⟩) := by
  unfold Accepts; decide +kernel

/-- **C25 fails** for Loop: a trip count held in a tensor is taken by value in the loop's condition,
which is evaluated in every round. -/
theorem C25_loop_trip_count_wrong : ¬ Accepts (forward ⟨["m", "x"],
    .loop ["m", "x"] ["y"] ["x"] ["v"] [.arg "m"] [] [] (.op ["v"] ["o"] [.arg "v"] .done) ["o"] .done,
    ["y"], []⟩) := by
  unfold Accepts; decide +kernel

/-- **C25 fails** for Loop: two loop variables that receive the same tensor. -/
theorem C25_loop_same_result_wrong : ¬ Accepts (forward ⟨["x", "z"],
    .loop ["x", "z"] ["y1", "y2"] ["x", "z"] ["v1", "v2"] [] [] []
      (.op ["v1", "v2"] ["o"] [.arg "v1", .arg "v2"] .done) ["o", "o"] .done,
    ["y1", "y2"], []⟩) := by
  unfold Accepts; decide +kernel

/-- **C25 fails** for Loop: a variable `v2` that receives the value another one, `v1`, had before the
round (a delay). `v1 = o; v2 = v1;` leaves `v1` moved at the start of the next round. -/
theorem C25_loop_delay_wrong : ¬ Accepts (forward ⟨["x", "z"],
    .loop ["x", "z"] ["y1", "y2"] ["x", "z"] ["v1", "v2"] [] [] []
      (.op ["v1", "v2"] ["o"] [.arg "v1", .arg "v2"] .done) ["o", "v1"] .done,
    ["y1", "y2"], []⟩) := by
  unfold Accepts; decide +kernel

end OnnxIR
