import Verif.Props.Fusion
import Verif.Props.Boundary

/-!
# C45, C52: the interface and the meaning of an imported model
-/

namespace OnnxIR

variable {V : Type}

/-! ## C45: parameters and results -/

/-- The graph inputs of the file for which it has no initializer. -/
def requiredInputs (g : GraphProto V) : List String :=
  g.inputs.filter fun x => !(g.inits.map Prod.fst).any fun y => x == y || x == sanitizeName y

theorem initMap_iff (key : String) (xs : List String) :
    (mapGet (initMap 0 [] xs) key).isSome ↔ ∃ x ∈ xs, key = x ∨ key = sanitizeName x := by
  constructor
  · intro h
    obtain ⟨p, hp⟩ := Option.isSome_iff_exists.1 h
    rcases initMap_from key p xs 0 [] hp with h | ⟨j, x, h1, h2, -⟩
    · cases h
    · exact ⟨x, List.mem_of_getElem? h1, h2⟩
  · intro h
    exact initMap_isSome key xs 0 [] (.inr h)

theorem inputLoop_names (om : List (String × (Nat × Nat))) : ∀ (xs : List String) (idx : Nat)
    (args : List (Arg V)) (m : List (String × Nat)), (inputLoop om idx args m xs).1 =
      args ++ (xs.filter fun x => !(mapGet om x).isSome).map fun x => ⟨sanitizeName x, .default, .dynamic⟩
  | [], _, _, _ => by simp [inputLoop]
  | x :: xs, idx, args, m => by
    simp only [inputLoop]
    split
    · next h =>
      rw [inputLoop_names om xs, List.filter_cons, if_neg (by rw [h]; decide)]
    · next h =>
      have h' : (mapGet om x).isSome = false := by simpa using h
      rw [inputLoop_names om xs, List.filter_cons, if_pos (by rw [h']; rfl)]
      simp

theorem start_required (g : GraphProto V) : (GState.start [] g).inputs =
    (requiredInputs g).map fun x => ⟨sanitizeName x, .default, .dynamic⟩ := by
  have h : ∀ x, (!(mapGet (initMap 0 [] (g.inits.map Prod.fst)) x).isSome) =
      !(g.inits.map Prod.fst).any fun y => x == y || x == sanitizeName y := by
    intro x
    congr 1
    rw [Bool.eq_iff_iff, initMap_iff]
    simp
  simp only [GState.start, inputLoop_names, List.nil_append, requiredInputs]
  congr 1
  exact List.filter_congr fun x _ => h x

theorem nodeInputs_named {nodes : List (Node V)} {x : String} {a : Arg V}
    (h : mapGet (Gen.nodeInputs nodes) x = some a) : a.name = x := by
  have := mapGet_mem h
  simp only [Gen.nodeInputs, List.mem_reverse, List.mem_flatMap, List.mem_map, Prod.mk.injEq] at this
  obtain ⟨n, -, b, -, h1, rfl⟩ := this
  exact h1

theorem registerInputs_spec (nodes : List (Node V)) (given : List (Arg V)) : ∀ (as pre : List (Arg V)),
    given = pre ++ as → ∃ bs, Gen.registerInputs (Gen.nodeInputs nodes) given pre.length (as.map Arg.name) = some bs ∧
      bs.map Arg.name = as.map Arg.name
  | [], pre, _ => ⟨[], rfl, rfl⟩
  | a :: as, pre, hg => by
    obtain ⟨bs, h1, h2⟩ := registerInputs_spec nodes given as (pre ++ [a]) (by simp [hg])
    have hget : given[pre.length]? = some a := by simp [hg]
    simp only [List.length_append, List.length_singleton] at h1
    simp only [List.map_cons, Gen.registerInputs, h1, hget]
    cases hm : mapGet (Gen.nodeInputs nodes) a.name with
    | none => exact ⟨a :: bs, by simp, by simp [h2]⟩
    | some b => exact ⟨b :: bs, by simp, by simp [h2, nodeInputs_named hm]⟩

/-- Turning the graph into generated code keeps the names and the order of inputs and outputs. -/
theorem intoBurn_spec (nodes : List (Node V)) (ins outs : List (Arg V)) :
    ∃ ins', Gen.intoBurn nodes ins outs = some (ins', outs) ∧ ins'.map Arg.name = ins.map Arg.name := by
  unfold Gen.intoBurn Gen.registerIO
  split
  · exact ⟨ins, rfl, rfl⟩
  · obtain ⟨bs, h1, h2⟩ := registerInputs_spec nodes ins ins [] rfl
    refine ⟨bs, ?_, h2⟩
    simp only [List.length_nil] at h1
    have : Gen.registerOutputs outs (outs.map Arg.name) = outs := by
      simp only [Gen.registerOutputs]
      clear * -
      induction outs with
      | nil => rfl
      | cons o os ih => simp only [List.map_cons, List.zip_cons_cons, ih]
    simp [h1, this]

theorem results_length {st : GState V} : ∀ {xs : List String} {outs : List (Arg V)},
    st.results xs = some outs → outs.length ≤ xs.length
  | [], outs, h => by cases h; simp
  | x :: xs, outs, h => by
    simp only [GState.results] at h
    split at h
    · split at h
      · next h2 => cases h; simpa using results_length h2
      · cases h
    · split at h
      · split at h
        · next h2 => cases h; simpa using results_length h2
        · cases h
      · exact Nat.le_succ_of_le (results_length h)

theorem results_length_eq {st : GState V} : ∀ {xs : List String} {outs : List (Arg V)},
    (∀ x ∈ xs, (mapGet st.outMap (sanitizeName x)).isSome ∨ (mapGet st.inputMap (sanitizeName x)).isSome) →
    st.results xs = some outs → outs.length = xs.length
  | [], outs, _, h => by cases h; simp
  | x :: xs, outs, hx, h => by
    have hx' := fun y hy => hx y (List.mem_cons_of_mem _ hy)
    simp only [GState.results] at h
    split at h
    · split at h
      · next h2 => cases h; simpa using results_length_eq hx' h2
      · cases h
    · next h0 =>
      split at h
      · split at h
        · next h2 => cases h; simpa using results_length_eq hx' h2
        · cases h
      · next h1 =>
        have := hx x List.mem_cons_self
        rw [h0, h1] at this
        simp at this

section

variable {A B E F : Type} [DecidableEq E] [DecidableEq (CVal A B)]

/-- The phases of a successful import. -/
theorem importModel_some {o : Importer A B E F} {g : GraphProto (CVal A B)} {nodes ins outs}
    (h : importModel o g = some (nodes, ins, outs)) : ∃ st0 r outs2 s,
      GState.convertFused o.matrix false g.nodes (GState.start [] g) = some st0 ∧
      inferTypes o.rules (st0.nodes.map fun n =>
        liftNode (constTable st0.nodes) o.lifted (declareNode o.declared n)) = some r ∧
      ({ st0 with inputs := st0.inputs.map (declareArg o.declared), nodes := r.1 } : GState _).results g.outputs =
        some outs2 ∧
      frontEnd o g = some (ins, { st0 with inputs := st0.inputs.map (declareArg o.declared), nodes := r.1 },
        ⟨(applyNoop (planNoop o.noop (o.omapOrder st0.outMap) r.1)
            (o.rewireOrder (planNoop o.noop (o.omapOrder st0.outMap) r.1).rewire) r.1 outs2).1.map
            (liftNode (constTable r.1) o.lifted),
          (applyNoop (planNoop o.noop (o.omapOrder st0.outMap) r.1)
            (o.rewireOrder (planNoop o.noop (o.omapOrder st0.outMap) r.1).rewire) r.1 outs2).2,
          constTable r.1⟩) ∧
      ins = st0.inputs.map (declareArg o.declared) ∧
      simplifyPhase o ⟨(applyNoop (planNoop o.noop (o.omapOrder st0.outMap) r.1)
            (o.rewireOrder (planNoop o.noop (o.omapOrder st0.outMap) r.1).rewire) r.1 outs2).1.map
            (liftNode (constTable r.1) o.lifted),
          (applyNoop (planNoop o.noop (o.omapOrder st0.outMap) r.1)
            (o.rewireOrder (planNoop o.noop (o.omapOrder st0.outMap) r.1).rewire) r.1 outs2).2,
          constTable r.1⟩ = some s ∧
      nodes = removeUnreferencedConstants s.nodes s.outs ∧ outs = s.outs := by
  simp only [importModel, Option.bind_eq_bind, Option.bind_eq_some_iff] at h
  obtain ⟨f, hf, s, hs, he⟩ := h
  have hf' := hf
  simp only [frontEnd, Option.bind_eq_bind, Option.bind_eq_some_iff, convertPhase, inferPhase, postPhase,
    Option.map_eq_some_iff] at hf
  obtain ⟨_, ⟨st0, h0, rfl⟩, _, ⟨r, hr, rfl⟩, _, ⟨outs2, ho, rfl⟩, hfe⟩ := hf
  simp only [Option.some.injEq] at hfe
  subst hfe
  simp only [Option.some.injEq, Prod.mk.injEq] at he
  obtain ⟨h1, rfl, h3⟩ := he
  exact ⟨st0, r, outs2, s, h0, hr, ho, hf', rfl, hs, h1.symm, h3.symm⟩

theorem simplifyPhase_length {o : Importer A B E F} {s s' : GraphSt A B} (h : simplifyPhase o s = some s') :
    s'.outs.length = s.outs.length ∧ s'.outs.map Arg.name = s.outs.map Arg.name := by
  unfold simplifyPhase at h
  split at h
  · obtain ⟨-, h2, -⟩ := C09_outputs_kept _ _ h
    exact ⟨by simpa using congrArg List.length h2, h2⟩
  · cases h; exact ⟨rfl, rfl⟩

/-- **C45.** For every file and every choice of inference rules, no-op test, simplifications and hash-map orders:
a generated function has one parameter for each graph input that has no initializer, in the order of the file,
under its sanitised name. It returns at most as many values as the file lists outputs, and exactly as many, in
the order of C52, if every listed output is a graph input or bound by an initializer or a node, and is not a product
that fusion may take away.

Partial: inputs that have an initializer are not parameters (`C45_default_input_dropped`), and an output
that is found nowhere (`C45_unknown_output_dropped`) or lost in fusion (`C45_product_output_dropped`) is dropped. -/
theorem C45_interface_partial (o : Importer A B E F) (g : GraphProto (CVal A B))
    {ins outs : List (Arg (CVal A B))} (h : forwardSignature o g = some (ins, outs)) :
    ins.map Arg.name = (requiredInputs g).map sanitizeName ∧ outs.length ≤ g.outputs.length ∧
      (NamesOk g → ProductsHidden g → outs.length = g.outputs.length) := by
  simp only [forwardSignature, Option.bind_eq_bind, Option.bind_eq_some_iff] at h
  obtain ⟨⟨nodes, ins1, outs1⟩, himp, ⟨ins2, outs3⟩, hio, he⟩ := h
  simp only [Option.some.injEq, Prod.mk.injEq] at he
  obtain ⟨hins, houts⟩ := he
  obtain ⟨ins3, h3, hn3⟩ := intoBurn_spec nodes ins1 outs1
  rw [h3] at hio
  simp only [Option.some.injEq, Prod.mk.injEq] at hio
  obtain ⟨rfl, rfl⟩ := hio
  obtain ⟨st0, r, outs2, s, h0, hr, ho, -, rfl, hs, -, rfl⟩ := importModel_some himp
  have hlen : outs.length = outs2.length := by
    rw [← houts]
    simp only [Gen.convertScalars, List.length_map]
    rw [(simplifyPhase_length hs).1]
    simp [applyNoop]
  refine ⟨?_, ?_, fun hg hhid => ?_⟩
  · rw [← hins, Boundary.signature_names, hn3, convertFused_inputs h0, start_required]
    simp [declareArg, Function.comp_def]
  · rw [hlen]; exact results_length ho
  · rw [hlen]
    refine results_length_eq ?_ ho
    obtain ⟨done, hinv, hdone⟩ := convertFused_inv hg hhid g.nodes.length g.nodes (Nat.le_refl _) (pre := []) rfl
      (inv_start hg []) (by simp) h0
    intro x hx
    simp only
    obtain ⟨-, hdef⟩ := hg.outsHere x hx
    by_cases hb : x ∈ boundNames g
    · exact .inl (hinv.present x (hdone x hx hb))
    · refine .inr ?_
      rw [hinv.inputMap]
      exact start_inputs_key hg [] (hdef.resolve_right hb) (fun hm => hb (mem_bound_init hm)) (.inr rfl)

variable [Inhabited A] [Inhabited B]

/-! ## C52: the meaning of an imported model -/

/-- Conditions on the file: names stay apart (`NamesOk`), no output is left out, a `Constant` has no inputs, and
no name of the file looks like a generated one. -/
structure FileOk (g : GraphProto (CVal A B)) : Prop where
  names : NamesOk g
  nodes : NodesOk g
  notGenerated : ∀ x ∈ allNames g, ¬ Generated x ∧ ¬ Generated (sanitizeName x)

/-- The lists of map entries are lists of the entries of the map. -/
structure OrdersOk (o : Importer A B E F) : Prop where
  omap : ∀ m p, p ∈ o.omapOrder m → mapGet m p.1 = some p.2
  rewire : ∀ m k v, (k, v) ∈ o.rewireOrder m ↔ mapGet m k = some v

/-- What the phases after conversion rely on, about the graphs they get: nodes taken for no-ops are no-ops (C11),
annotations are right (C15), and the passes meet only situations in which they are right (C09). -/
structure PhasesOk (S : Sem (CVal A B)) (o : Importer A B E F) (fs : FloatSpec A B)
    (fits : CVal A B → CVal A B → Prop) (env : Env (CVal A B)) (st : GState (CVal A B)) (s : GraphSt A B) :
    Prop where
  noops : ∀ n ∈ st.nodes, o.noop n = true → ReturnsFirstInRun S env st.nodes n ∧
    ∀ i is, n.inputs = i :: is → i.src = .dynamic ∨ i.src = .constant
  typed : o.simplify = true → TypedRun S (cvalView o.simp.fo) env s.nodes
  guards : o.simplify = true → ∀ p s', Arrives o.simp s p s' → p.Guard S o.simp fs fits env s'

theorem outName_ne_const (m : String) (k : Nat) (y : String) : outName m k ≠ y ++ "_const" := by
  intro h
  have h1 := congrArg (fun s : String => s.toList.getLast?) h
  simp only [outName, String.toList_append, toList_toString] at h1
  have hne : Nat.toDigits 10 k ≠ [] := by
    intro h0
    have := Nat.length_toDigits_pos (b := 10) (n := k)
    rw [h0] at this
    simp at this
  rw [List.getLast?_append_of_ne_nil _ hne, List.getLast?_append_of_ne_nil _ (by decide)] at h1
  have hd := toDigits_digits (n := k) _ (List.mem_of_getLast? h1)
  revert hd
  decide

theorem constants_single {S : Sem V} (law : ConstantLaw S) {env E : Env V} {nodes : List (Node V)}
    (h : evalNodes S env nodes = some E) : ∀ n ∈ nodes, n.ty = .constant → n.outputs.length = 1 := by
  intro n hn ht
  obtain ⟨p, q, rfl⟩ := List.append_of_mem hn
  obtain ⟨e1, e2, h1, h2, h3⟩ := evalNodes_split h
  obtain ⟨xs, ys, -, hy, hl, -⟩ := evalNode_some h2
  rw [← hl]
  rw [ht] at hy
  exact law.single _ _ _ _ hy

theorem removeUnreferenced_sublist {nodes : List (Node V)} {outs : List (Arg V)} : (removeUnreferencedConstants nodes outs).Sublist nodes := by
  unfold removeUnreferencedConstants
  have := (List.filter_sublist (l := nodes.zipIdx) (p := fun p => !((((constantIdx nodes).filter fun p => mapGet (constantIdx nodes) p.1 = some p.2 &&
    refCount nodes outs p.1 = 0).map Prod.snd).contains p.2))).map Prod.fst
  rwa [List.zipIdx_map_fst] at this

theorem SSA.of_sublist {env : Env V} {ns ms : List (Node V)} (h : SSA env ms) (hs : ns.Sublist ms) : SSA env ns :=
  ⟨h.nodup.sublist (sublist_flatMap hs), fun n hn => h.fresh n (hs.subset hn)⟩

/-- The run of the imported graph, single assignment in it, and its inputs. -/
theorem import_run {S : OpSem (CVal A B)} (hS : ConstantOps S)
    (law : ConstantLaw fun _ => S) {o : Importer A B E F} (hord : OrdersOk o) {fs : FloatSpec A B}
    {ops : AttnOps (CVal A B) F} {fits : CVal A B → CVal A B → Prop}
    (hsem : o.simplify = true → SimpSem (fun _ => S) o.simp fs ops fits) {fitsW fitsC : CVal A B → CVal A B → Prop}
    (hlin : LinearLaw S o.matrix fitsW fitsC oneBits linearAttrs) {g : GraphProto (CVal A B)}
    (hg : FileOk g) {e f0 : Env (CVal A B)} (hfus : FusionOk S o.matrix fitsW fitsC oneBits e g)
    (hin : ∀ x ∈ g.inputs, f0 (sanitizeName x) = e x)
    (he : ∀ x v, e x = some v → x ∈ requiredInputs g)
    (hf0 : ∀ y v, f0 y = some v → ∃ x ∈ requiredInputs g, y = sanitizeName x)
    (hph : ∀ ins st s, frontEnd o g = some (ins, st, s) → PhasesOk (fun _ => S) o fs fits f0 st s)
    {nodes : List (Node (CVal A B))} {ins outs : List (Arg (CVal A B))}
    (himp : importModel o g = some (nodes, ins, outs)) {r : List (Option (CVal A B))}
    (hrun : onnxGraph S e g = some r) : evalGraph (fun _ => S) f0 nodes outs = some r ∧ SSA f0 nodes ∧
      (∀ a ∈ ins, a.src = .dynamic) ∧ ins.map Arg.name = (requiredInputs g).map sanitizeName := by
  obtain ⟨st0, q, outs2, s, h0, hq, ho2, hfe, rfl, hs, rfl, rfl⟩ := importModel_some himp
  have hph := hph _ _ _ hfe
  have hreq : ∀ x ∈ requiredInputs g, x ∈ g.inputs := fun x hx => (List.mem_filter.1 hx).1
  have hempty : f0 "" = none := by
    cases hf : f0 "" with
    | none => rfl
    | some v =>
      obtain ⟨x, hx, hy⟩ := hf0 "" v hf
      exact absurd hy.symm (hg.names.san_ne (mem_all_input (hreq x hx))
        fun hxe => hg.names.inputsNamed (hxe ▸ hreq x hx))
  -- conversion
  obtain ⟨st0', done', D', e', e2', E0, outs0, h0', hF, -, hres0, hrun0, hssa0⟩ :=
    fused_graph hS law hlin hg.names hg.nodes (fun x hx => (hg.notGenerated x hx).2) hfus (fun y v hv => by
      obtain ⟨x, hx, rfl⟩ := hf0 y v hv
      exact (hg.notGenerated x (mem_all_input (hreq x hx))).2) hin (fun x v hv => hreq x (he x v hv)) hrun
  rw [h0] at h0'
  cases h0'
  have hinv := hF.inv
  have hplain0 := hF.plain
  have hE0 := hF.eval
  -- declared types and lifting
  have hdecl := declareNodes_skel o.declared st0.nodes
  have htab1 := (constTable_for hssa0 hplain0).skel hdecl
  have hssa1 := hssa0.skel hdecl
  have hplain1 := hplain0.skel hdecl
  have hE1 : evalNodes (fun _ => S) f0 (st0.nodes.map (declareNode o.declared)) = some E0 := by
    rw [evalNodes_skel hdecl]; exact hE0
  have hE2 := evalNodes_lift (which := o.lifted) (htab1.ok law hssa1) hE1
  have hmap : (st0.nodes.map (declareNode o.declared)).map (liftNode (constTable st0.nodes) o.lifted) =
      st0.nodes.map fun n => liftNode (constTable st0.nodes) o.lifted (declareNode o.declared n) := by
    rw [List.map_map]; rfl
  -- inference
  have hskel := inferTypes_skel hq
  rw [← hmap] at hskel
  have hssa2 : SSA f0 q.1 := (hssa1.lift (which := o.lifted)).skel hskel
  have hplain2 : Plain q.1 := (hplain1.lift (which := o.lifted)).skel hskel
  have hE3 : evalNodes (fun _ => S) f0 q.1 = some E0 := by rw [evalNodes_skel hskel]; exact hE2
  -- outputs
  have hsame : SameNames st0 { st0 with inputs := st0.inputs.map (declareArg o.declared), nodes := q.1 } := by
    refine ⟨rfl, rfl, ?_, ?_⟩
    · simp only [List.map_map]; exact List.map_congr_left fun a _ => rfl
    · have h1 : ∀ {ns ms : List (Node (CVal A B))}, ns.map Node.skel = ms.map Node.skel →
          ns.map (fun n => n.outputs.map Arg.ns) = ms.map fun n => n.outputs.map Arg.ns := by
        intro ns ms h
        have := congrArg (List.map Skeleton.outputs) h
        rw [List.map_map, List.map_map] at this
        exact this
      rw [h1 hskel, List.map_map]
      exact h1 hdecl
  have hns := hsame.results hres0 ho2
  have hgraph2 : evalGraph (fun _ => S) f0 q.1 outs2 = some r := by
    simp only [evalGraph, hE3, evalArgs_ns hns]; exact hrun0
  have hinputs : ∀ a ∈ st0.inputs.map (declareArg o.declared), a.src = .dynamic ∧ a.name ≠ "" := by
    intro a ha
    rw [convertFused_inputs h0, start_required] at ha
    simp only [List.mem_map] at ha
    obtain ⟨_, ⟨x, hx, rfl⟩, rfl⟩ := ha
    exact ⟨rfl, hg.names.san_ne (mem_all_input (hreq x hx)) fun hxe => hg.names.inputsNamed (hxe ▸ hreq x hx)⟩
  have hplainO := results_plain hplain2 hinputs ho2
  -- no-ops
  have horig : OriginalNamesUnused o.noop (o.omapOrder st0.outMap) f0 q.1 := by
    intro orig idx n hmem _ _
    refine .inr ?_
    have hget := hord.omap _ _ hmem
    obtain ⟨y, hy, hk, -⟩ := hinv.entries _ _ hget
    have hyb := hinv.doneSub y hy
    have hya := mem_all_bound hyb
    have hye : y ≠ "" := by
      rintro rfl
      rcases List.mem_append.1 hyb with hb | hb
      · exact hg.names.initsNamed hb
      · obtain ⟨n, hn, hb⟩ := List.mem_flatMap.1 hb
        exact hg.nodes.outsNamed n hn hb
    have hng : ¬ Generated orig := by
      rcases hk with rfl | rfl
      · exact (hg.notGenerated _ hya).1
      · exact (hg.notGenerated _ hya).2
    refine ⟨?_, ?_, ?_⟩
    · rcases hk with rfl | rfl
      · exact hye
      · exact hg.names.san_ne hya hye
    · cases hf : f0 orig with
      | none => rfl
      | some v =>
        obtain ⟨x, hx, hxo⟩ := hf0 orig v hf
        have hxy : x = y := hg.names.key (mem_all_input (hreq x hx)) hya (.inr hxo) hk
        subst hxy
        rcases List.mem_append.1 hyb with hb | hb
        · have := (List.mem_filter.1 hx).2
          simp only [Bool.not_eq_true', List.any_eq_false] at this
          exact absurd (by simp) (this x hb)
        · obtain ⟨n, hn, hb⟩ := List.mem_flatMap.1 hb
          exact absurd (hreq x hx) (hg.names.noShadow n hn x hb)
    · intro m hm hx
      have hx' : orig ∈ st0.nodes.flatMap Node.outNames := by
        have h1 : orig ∈ q.1.flatMap Node.outNames := List.mem_flatMap.2 ⟨m, hm, hx⟩
        rw [skels_outNames hskel, flatMap_lift, skels_outNames hdecl] at h1
        exact h1
      obtain ⟨m', hm', hx'⟩ := List.mem_flatMap.1 hx'
      exact hng (hinv.generated hm' hx')
  have hgraph3 := C11_noop_elimination_in_run (fun _ => S) f0 q.1 outs2 o.noop
    (o.omapOrder st0.outMap) (o.rewireOrder (planNoop o.noop (o.omapOrder st0.outMap) q.1).rewire) hssa2
    hplain2.wf (fun n hn a ha => (hplain2.ins n hn a ha).2) hplainO (fun n hn x hx => (hplain2.outs n hn x hx).1)
    hph.noops horig (hord.rewire _) r hgraph2
  have hbind : ∀ k v, mapGet (planNoop o.noop (o.omapOrder st0.outMap) q.1).rewire k = some v →
      k ≠ "" ∧ v ≠ "" := by
    intro k v hkv
    obtain ⟨idx, n, hn, hnoop, -, hb⟩ := mem_planRewire.1 (mapGet_mem hkv)
    obtain ⟨i, is, out, os, hi, hout, rfl, hk⟩ := mem_noopBindings hb
    have hnm := List.mem_of_getElem? hn
    refine ⟨?_, fun hie => ?_⟩
    · rcases hk with rfl | hk
      · obtain ⟨-, m, j, hmj⟩ := hplain2.outs n hnm out (by rw [hout]; exact List.mem_cons_self)
        rw [hmj]; exact outName_ne_empty m j
      · rcases horig k idx n hk hn hnoop with ⟨o', os', ho', rfl⟩ | h
        · obtain ⟨-, m, j, hmj⟩ := hplain2.outs n hnm o' (by rw [ho']; exact List.mem_cons_self)
          rw [hmj]; exact outName_ne_empty m j
        · exact h.1
    · have hsrc := (hph.noops n hnm hnoop).2 i is hi
      rcases (hplain2.ins n hnm i (by rw [hi]; exact List.mem_cons_self)).1.2 hie with h | ⟨v, h⟩ <;>
        · rw [h] at hsrc; rcases hsrc with h | h <;> cases h
  have hkey : mapGet (resolveRewire (q.1.length + 2)
      (o.rewireOrder (planNoop o.noop (o.omapOrder st0.outMap) q.1).rewire)
      (planNoop o.noop (o.omapOrder st0.outMap) q.1).rewire) "" = none := by
    apply resolve_keys
    · cases hm : mapGet (planNoop o.noop (o.omapOrder st0.outMap) q.1).rewire "" with
      | none => rfl
      | some v => exact absurd rfl (hbind _ _ hm).1
    · intro v hv
      exact (hbind _ _ ((hord.rewire _ _ _).1 hv)).1 rfl
  have hval := resolve_prop (P := fun v => v ≠ "") (q.1.length + 2)
    (o.rewireOrder (planNoop o.noop (o.omapOrder st0.outMap) q.1).rewire)
    (planNoop o.noop (o.omapOrder st0.outMap) q.1).rewire (fun k v h => (hbind k v h).2)
    (fun k v h => (hbind k v ((hord.rewire _ _ _).1 h)).2)
  have hssa3 := applyNoop_ssa (plan := planNoop o.noop (o.omapOrder st0.outMap) q.1)
    (order := o.rewireOrder (planNoop o.noop (o.omapOrder st0.outMap) q.1).rewire) (outs := outs2) hssa2
  have hplain3 := applyNoop_plain (outs := outs2) hplain2 hkey hval
  have htab3 := applyNoop_table (outs := outs2) hplain2 (constTable_for hssa2 hplain2) hkey
  -- second lifting
  have hssa4 := hssa3.lift (tbl := constTable q.1) (which := o.lifted)
  have hplain4 := hplain3.lift (tbl := constTable q.1) (which := o.lifted)
  have htab4 := htab3.lift (tbl' := constTable q.1) (which := o.lifted)
  have hgraph4 : evalGraph (fun _ => S) f0
      ((applyNoop (planNoop o.noop (o.omapOrder st0.outMap) q.1)
        (o.rewireOrder (planNoop o.noop (o.omapOrder st0.outMap) q.1).rewire) q.1 outs2).1.map
        (liftNode (constTable q.1) o.lifted))
      (applyNoop (planNoop o.noop (o.omapOrder st0.outMap) q.1)
        (o.rewireOrder (planNoop o.noop (o.omapOrder st0.outMap) q.1).rewire) q.1 outs2).2 = some r := by
    unfold evalGraph at hgraph3 ⊢
    split at hgraph3
    · cases hgraph3
    · next E3 hE3 =>
      rw [evalNodes_lift (which := o.lifted) (htab3.ok law hssa3) hE3]
      exact hgraph3
  -- simplification
  have hgraph5 : evalGraph (fun _ => S) f0 s.nodes s.outs = some r ∧ SSA f0 s.nodes := by
    unfold simplifyPhase at hs
    split at hs
    · next hsimp =>
      refine simplification_run (hsem hsimp) _ s hssa4 hplain4.wf hempty ?_
        (htab4.ok law hssa4) (hph.typed hsimp) (hph.guards hsimp) hs r hgraph4
      intro n hn x hx y
      obtain ⟨m, k, rfl⟩ := hplain4.named hn hx
      exact outName_ne_const m k y
    · cases hs; exact ⟨hgraph4, hssa4⟩
  -- unreferenced constants
  obtain ⟨hgraph5, hssa5⟩ := hgraph5
  refine ⟨C12_unreferenced_constants_preserve_outputs _ f0 s.nodes s.outs ?_ r hgraph5, hssa5.of_sublist removeUnreferenced_sublist,
    fun a ha => (hinputs a ha).1, ?_⟩
  · unfold evalGraph at hgraph5
    split at hgraph5
    · cases hgraph5
    · next E5 hE5 => exact constants_single law hE5
  · rw [convertFused_inputs h0, start_required]
    simp only [List.map_map]
    rfl

/-- **C52.** For every file and all input values: if the ONNX graph, run by its own names, returns `r`, and the
importer, with or without simplification, produces a graph, then that graph returns `r`, in the same order.

`e` binds the graph inputs under their ONNX names, `f0` under sanitised ones. Partial: the conditions
`FileOk` and `FusionOk` (unchecked by the code) and `PhasesOk` (wrong in the situations of C03, C05–C08, C10 and C22). -/
theorem C52_import_preserves_meaning_partial {S : OpSem (CVal A B)} (hS : ConstantOps S)
    (law : ConstantLaw fun _ => S) {o : Importer A B E F} (hord : OrdersOk o) {fs : FloatSpec A B}
    {ops : AttnOps (CVal A B) F} {fits : CVal A B → CVal A B → Prop}
    (hsem : o.simplify = true → SimpSem (fun _ => S) o.simp fs ops fits) {fitsW fitsC : CVal A B → CVal A B → Prop}
    (hlin : LinearLaw S o.matrix fitsW fitsC oneBits linearAttrs) {g : GraphProto (CVal A B)}
    (hg : FileOk g) {e f0 : Env (CVal A B)} (hfus : FusionOk S o.matrix fitsW fitsC oneBits e g)
    (hin : ∀ x ∈ g.inputs, f0 (sanitizeName x) = e x)
    (he : ∀ x v, e x = some v → x ∈ requiredInputs g)
    (hf0 : ∀ y v, f0 y = some v → ∃ x ∈ requiredInputs g, y = sanitizeName x)
    (hph : ∀ ins st s, frontEnd o g = some (ins, st, s) → PhasesOk (fun _ => S) o fs fits f0 st s)
    {nodes : List (Node (CVal A B))} {ins outs : List (Arg (CVal A B))}
    (himp : importModel o g = some (nodes, ins, outs)) {r : List (Option (CVal A B))}
    (hrun : onnxGraph S e g = some r) : evalGraph (fun _ => S) f0 nodes outs = some r :=
  (import_run hS law hord hsem hlin hg hfus hin he hf0 hph himp hrun).1

end

end OnnxIR
