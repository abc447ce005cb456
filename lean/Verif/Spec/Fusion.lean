import Verif.Spec.OnnxGraph

/-!
# When a product, or a product and a sum, may become one Linear

Specification, in terms of the ONNX file and its run by name. `matrix v`: the constant `v` has rank 2. `fits w b`: `b`
is a vector with one entry for each column of the weight `w`. `fitsC w c`: a vector with one entry for each row of `w`
(`Gemm` with `transB = 1` multiplies by the transpose).
-/

namespace OnnxIR

variable {V : Type}

/-- `alpha = beta = 1`, `transB = 1` and `transA ≠ 1`, all but the last given explicitly. -/
def PlainGemm (one : Nat) (attrs : List (String × AttrVal V)) : Prop :=
  attrGet attrs "alpha" = some (.f32 one) ∧ attrGet attrs "beta" = some (.f32 one) ∧
    attrGet attrs "transB" = some (.i64 1) ∧ attrGet attrs "transA" ≠ some (.i64 1)

/-- `A` is not transposed: `transA` is absent or 0. -/
def NoTransA (attrs : List (String × AttrVal V)) : Prop :=
  attrGet attrs "transA" = none ∨ attrGet attrs "transA" = some (.i64 0)

/-- What is assumed of the meaning of `Linear`, with `lin` the attributes it gets from a `Gemm`: a `Linear` by a matrix
is the product; with a vector as a third input, the product plus that vector; the same for a plain `Gemm`. The last
three fields are about arities. -/
structure LinearLaw (S : OpSem V) (matrix : V → Bool) (fits fitsC : V → V → Prop) (one : Nat)
    (lin : List (String × AttrVal V) → List (String × AttrVal V)) : Prop where
  product : ∀ attrs x w ys, matrix w = true → S .matMul attrs [x, some w] = some ys →
    S .linear attrs [x, some w] = some ys
  biased : ∀ attrs attrs' x w b p ys, matrix w = true → fits w b → S .matMul attrs [x, some w] = some [p] →
    (S .add attrs' [some p, some b] = some ys ∨ S .add attrs' [some b, some p] = some ys) →
    S .linear attrs [x, some w, some b] = some ys
  gemm : ∀ attrs x w ys, PlainGemm one attrs → NoTransA attrs → S .gemm attrs [x, w] = some ys →
    S .linear (lin attrs) [x, w] = some ys
  gemmBiased : ∀ attrs x w c ys, PlainGemm one attrs → NoTransA attrs → fitsC w c →
    S .gemm attrs [x, some w, some c] = some ys → S .linear (lin attrs) [x, some w, some c] = some ys
  matMulArity : ∀ attrs xs ys, S .matMul attrs xs = some ys → xs.length = 2 ∧ ys.length = 1
  addArity : ∀ attrs xs ys, S .add attrs xs = some ys → ys.length = 1
  gemmArity : ∀ attrs xs ys, S .gemm attrs xs = some ys → ys.length = 1

/-- `ad` adds `b` to the product `y` of `np`, which multiplies by `w`. -/
structure AddsBias (np ad : NodeProto V) (w y b : String) : Prop where
  matMul : np.ty = .matMul
  product : ∃ x, np.inputs = [x, w]
  result : np.outputs = [y]
  add : ad.ty = .add
  reads : ad.inputs = [y, b] ∨ ad.inputs = [b, y]

/-- After the nodes `pre`, `x` is the name of a constant: an initializer, or the output of a `Constant` node. -/
def IsConst (g : GraphProto V) (pre : List (NodeProto V)) (x : String) : Prop :=
  x ∈ g.inits.map Prod.fst ∨ ∃ n ∈ pre, n.ty = .constant ∧ x ∈ n.outputs

/-- The values bound when the nodes start to run. -/
def bindInits (g : GraphProto V) (e : Env V) : Env V := onnxBind e (g.inits.map Prod.fst) (g.inits.map Prod.snd)

/-- The file has none of the situations in which fusion is wrong. If a product by a constant matrix is directly followed
by an `Add` of the product and a constant: the product is used nowhere else, and the constant is a vector that fits. A
plain `Gemm` does not transpose `A` and has two inputs, or three of which the last is a vector that fits. -/
structure FusionOk (S : OpSem V) (matrix : V → Bool) (fits fitsC : V → V → Prop) (one : Nat) (e : Env V)
    (g : GraphProto V) : Prop where
  bias : ∀ pre np ad rest w y b, g.nodes = pre ++ np :: ad :: rest → AddsBias np ad w y b → IsConst g pre w →
    IsConst g pre b → (∀ e1 wv, onnxNodes S (bindInits g e) pre = some e1 → e1 w = some wv → matrix wv = true) →
    b ≠ y ∧ y ∉ g.outputs ∧ (∀ n ∈ rest, y ∉ n.inputs) ∧
    ∀ e1 wv bv, onnxNodes S (bindInits g e) pre = some e1 → e1 w = some wv → e1 b = some bv → fits wv bv
  gemm : ∀ pre np rest, g.nodes = pre ++ np :: rest → np.ty = .gemm → PlainGemm one np.attrs →
    NoTransA np.attrs ∧ ((∃ x w, np.inputs = [x, w]) ∨ ∃ x w c, np.inputs = [x, w, c] ∧ w ≠ "" ∧ c ≠ "" ∧
      ∀ e1 wv cv, onnxNodes S (bindInits g e) pre = some e1 → e1 w = some wv → e1 c = some cv → fitsC wv cv)

end OnnxIR
