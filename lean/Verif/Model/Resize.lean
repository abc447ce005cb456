import Verif.Spec.Resize
import Verif.Spec.Burn

/-!
# Resize: configuration and generated code
-/

namespace OnnxIR

/-- The attributes of Resize (crates/onnx-ir/src/node/resize.rs:51-70 and 318-385). Names are already parsed (lines 39-50, ignoring case for
`mode`); other coordinate modes than the four are left out. -/
structure ResizeAttrs where
  mode : Option ResizeMode := none
  coord : Option CoordMode := none
  nearest : Option NearestMode := none
  cubicA : Option ℚ := none
  antialias : Option Int := none
  excludeOutside : Option Int := none
  extrapolation : Option ℚ := none
  axes : Option (List Int) := none
  stretch : Bool := true

/-- How `scales` or `sizes` reach the node: a constant, or a run-time tensor or shape with its value at run time (empty when the node has
no such input, as `none`). -/
inductive ResizeInput (β : Type)
  | const (l : List β)
  | tensor (l : List β)
  | shape (l : List Int)

/-- `ResizeScales`, `ResizeSizes` (resize.rs:88-118). -/
inductive ResizeArg (β : Type)
  | static (l : List β)
  | runtime (l : List β)

/-- `extract_scales_input`, `extract_sizes_input` (resize.rs:128-221): an empty constant is as good as none, the lengths for batch and channels are
dropped from constants; the assertion on the number of entries panics. -/
def ResizeInput.extract {β : Type} (ofInt : Int → β) (rank : Nat) : Option (ResizeInput β) → Option (Option (ResizeArg β))
  | none => some none
  | some (.const l) => if l = [] then some none else if l.length = rank then some (some (.static (l.drop 2))) else none
  | some (.tensor l) => some (some (.runtime l))
  | some (.shape l) => some (some (.runtime (l.map ofInt)))

/-- `ResizeConfig`, as far as the generated code reads it. -/
structure ResizeConfig where
  mode : ResizeMode
  align : Bool
  scales : Option (ResizeArg ℚ)
  sizes : Option (ResizeArg Int)

/-- `infer_types` and `extract_config` (resize.rs:259-508) from opset 11. `roi` is the constant input 1. -/
def resizeConfig (a : ResizeAttrs) (rank : Nat) (roi : List ℚ) (scales : Option (ResizeInput ℚ)) (sizes : Option (ResizeInput Int)) :
    Option ResizeConfig :=
  if a.antialias.getD 0 ≠ 0 ∨ a.axes.isSome ∨ a.excludeOutside.getD 0 ≠ 0 ∨ a.extrapolation.getD 0 ≠ 0 ∨ a.stretch = false ∨ roi ≠ [] then none
  else
    (ResizeInput.extract (fun n => (n : ℚ)) rank scales).bind fun sc =>
      (ResizeInput.extract id rank sizes).bind fun sz =>
        a.mode.bind fun m =>
          if sc.isNone ∧ sz.isNone then none
          else some ⟨m, a.coord.getD .halfPixel = .alignCorners, sc, sz⟩

namespace Gen

/-- A size computed as in `((d as f64) * (s as f64)) as usize`; `d` and `s` are small enough for the product to be exact. -/
def scaled (d : Nat) (s : ℚ) : Nat := ⌊d * s⌋.toNat

/-- The forward code (crates/burn-onnx/src/burn/node/resize.rs:12-233). Static sizes come before static scales in Burn's modules, which panic
without either; the module for rank 3 adds a dimension before the last and removes it. Without a field (ranks other than 3 and 4) the code does
not compile, and run-time sizes and scales are for rank 4 only. -/
def resize (f : Burn.Interp) (cfg : ResizeConfig) (x : Tensor ℚ) : Option (Tensor ℚ) :=
  match cfg.sizes, cfg.scales with
  | some (.runtime sz), _ =>
    match x.shape, sz[2]?, sz[3]? with
    | [_, _, _, _], some h, some w => f cfg.mode cfg.align h.toNat w.toNat x
    | _, _, _ => none
  | _, some (.runtime sc) =>
    match x.shape, sc[2]?, sc[3]? with
    | [_, _, h, w], some sh, some sw => f cfg.mode cfg.align (scaled h sh) (scaled w sw) x
    | _, _, _ => none
  | sz, sc =>
    match x.shape with
    | [n, c, l] =>
      let size := match sz, sc with
        | some (.static (e :: _)), _ => some e.toNat
        | _, some (.static (s :: _)) => some (scaled l s)
        | _, _ => none
      size.bind fun e => (Burn.reshape x [n, c, 1, l]).bind fun u =>
        (f cfg.mode cfg.align 1 e u).bind fun v => if v.shape.getD 2 0 = 1 then Burn.reshape v (v.shape.eraseIdx 2) else none
    | [_, _, h, w] =>
      let size := match sz, sc with
        | some (.static (e :: e' :: _)), _ => some (e.toNat, e'.toNat)
        | _, some (.static (s :: s' :: _)) => some (scaled h s, scaled w s')
        | _, _ => none
      size.bind fun p => f cfg.mode cfg.align p.1 p.2 x
    | _ => none

/-- Resize: configuration and forward code. -/
def genResize (f : Burn.Interp) (a : ResizeAttrs) (roi : List ℚ) (scales : Option (ResizeInput ℚ)) (sizes : Option (ResizeInput Int))
    (x : Tensor ℚ) : Option (Tensor ℚ) :=
  (resizeConfig a x.shape.length roi scales sizes).bind fun cfg => resize f cfg x

end Gen

end OnnxIR
