import Verif.Model.Literals
import Mathlib.Data.Rat.Defs
import Mathlib.Algebra.Field.Rat

/-!
# What Rust reads

The numbers the Rust compiler reads from a text: The Rust Reference, "Integer literals", "Floating-point literals", "Negation
operators", and the constants `f32::NAN`, `f32::INFINITY`, `f32::NEG_INFINITY` (same for `f64`). A word that is neither is an unknown
variable: `none`.
-/

namespace OnnxIR.Lit

/-- What a text stands for: a sign and a magnitude (so that -0.0 differs from 0.0), an infinity, or not a number. -/
inductive Value where
  | fin (neg : Bool) (m : Rat)
  | inf (neg : Bool)
  | nan
  deriving DecidableEq

/-- The digits a text begins with, underscores skipped, and the rest. -/
def takeDigits : Text → Text × Text
  | [] => ([], [])
  | c :: cs =>
    if c.isDigit then ((c :: (takeDigits cs).1), (takeDigits cs).2)
    else if c = '_' then takeDigits cs
    else ([], c :: cs)

/-- The number the digits stand for. -/
def number (ds : Text) : Nat := Nat.ofDigitChars 10 ds 0

/-- An integer literal with the suffix `ty`, not negative: at least one digit. -/
def readNat (ty : Text) (t : Text) : Option Nat :=
  if (takeDigits t).1 ≠ [] ∧ (takeDigits t).2 = ty then some (number (takeDigits t).1) else none

/-- An integer expression: a literal or a negated one. -/
def readInt (ty : Text) : Text → Option Int
  | '-' :: t => (readNat ty t).map fun n => -(n : Int)
  | t => (readNat ty t).map fun n => (n : Int)

/-- The power of ten in a floating-point literal, and the rest. -/
def readExp : Text → Option (Int × Text)
  | 'e' :: '-' :: t => if (takeDigits t).1 = [] then none else some (-(number (takeDigits t).1 : Int), (takeDigits t).2)
  | 'e' :: t => if (takeDigits t).1 = [] then none else some ((number (takeDigits t).1 : Int), (takeDigits t).2)
  | t => some (0, t)

/-- The digits after the point, and the rest. -/
def readFrac : Text → Option (Text × Text)
  | '.' :: t => if (takeDigits t).1 = [] then none else some (takeDigits t)
  | t => some ([], t)

/-- A floating-point literal with the suffix `ty`: digits, optional point and digits, optional power of ten. -/
def readMagnitude (ty : Text) (t : Text) : Option Rat :=
  if (takeDigits t).1 = [] then none
  else
    (readFrac (takeDigits t).2).bind fun f =>
      (readExp f.2).bind fun e =>
        if e.2 = ty then
          some (((number (takeDigits t).1 : Rat) + (number f.1 : Rat) / 10 ^ f.1.length) * (10 : Rat) ^ e.1)
        else none

/-- A floating-point expression of type `ty`; the literal carries the suffix `suf`, which is `ty` or nothing. -/
def readFloat (ty suf : Text) (t : Text) : Option Value :=
  if t = ty ++ "::NAN".toList then some .nan
  else if t = ty ++ "::INFINITY".toList then some (.inf false)
  else if t = ty ++ "::NEG_INFINITY".toList then some (.inf true)
  else match t with
    | '-' :: t => (readMagnitude suf t).map (.fin true)
    | t => (readMagnitude suf t).map (.fin false)

/-- An array of integers: elements without suffix, each followed by a comma. -/
def readItems : Nat → Text → Option (List Int)
  | _, [']'] => some []
  | 0, _ => none
  | fuel + 1, t =>
    match t.dropWhile (· ≠ ',') with
    | ',' :: rest => (readInt [] (t.takeWhile (· ≠ ','))).bind fun i => (readItems fuel rest).map (i :: ·)
    | _ => none

def readArray : Text → Option (List Int)
  | '[' :: t => readItems t.length t
  | _ => none

/-- The value of a float. -/
def Num.value : Num → Value
  | .fin d => .fin d.neg
      (((d.whole : Rat) + ((d.frac.map Fin.val).foldl (fun n k => 10 * n + k) 0 : Nat) / 10 ^ d.frac.length) *
        (10 : Rat) ^ (d.exp.getD 0))
  | .inf neg => .inf neg
  | .nan => .nan

end OnnxIR.Lit
