import Verif.Model.LabelledVals
import Verif.Spec.LabelledNd
import Verif.Spec.ValsOps

/-!
# What a call with labelled values and weights should give

Labelled arrays are matched by name. An array without names is matched by position.
-/

namespace Cmomy.Spec

open Labelled

variable {δ : Type} [DecidableEq δ] {K V : Type}

/-- A list without its repetitions, in order of first appearance. -/
def inOrder : List δ → List δ
  | [] => []
  | d :: l => d :: (inOrder l).filter (fun e => decide (e ≠ d))

/-- The dimensions of an operand. -/
def operandDims : Operand δ K → List δ
  | .named y => y.dims
  | .plain _ => []

/-- All dimensions of the operands but `dim`. -/
def otherDims (ops : List (Operand δ K)) (dim : δ) : List δ :=
  (inOrder (ops.flatMap operandDims)).filter (fun d => decide (d ≠ dim))

/-- How far from the end of `x` the dimension `dim` is. -/
def nameFromEnd (x : DataArray δ K) (dim : δ) : ℕ := x.dims.length - x.dims.idxOf dim

/-- The names which the axes of an array without names are taken to have, aligned at the end: `dim`
as far from the end as it is in `x`. -/
def assumedDims (loop : List δ) (dim : δ) (fe : ℕ) : List δ :=
  loop.take (loop.length + 1 - fe) ++ dim :: loop.drop (loop.length + 1 - fe)

/-- The coordinates along a list of dimensions. -/
def coordsAlong (l : List δ) (c : δ → ℕ) (p : ℕ) : ℕ := (l[p]?.map c).getD 0

/-- The number an operand contributes to sample `s` at the coordinates `c`. -/
def numberNamed (loop : List δ) (dim : δ) (fe : ℕ) (o : Operand δ K) (c : δ → ℕ) (s : ℕ) : K :=
  match o with
  | .named y => entry y (Function.update c dim s)
  | .plain a => operandAt a (loop.length + 1) (loop.length + 1 - fe)
      (coordsAlong (assumedDims loop dim fe) c) s

/-- An operand can be used: a labelled array has the sample dimension and sizes as given, and none of
the names set aside for the result; a plain array is a number, one number per sample, or an array
that fits the assumed names. -/
def GoodOperand (loop : List δ) (dim : δ) (fe : ℕ) (size : δ → ℕ) (reserved : List δ)
    (o : Operand δ K) : Prop :=
  match o with
  | .named y => y.dims.Nodup ∧ dim ∈ y.dims ∧ ∀ d ∈ y.dims, y.size d = size d ∧ d ∉ reserved
  | .plain a => Usable a fe (size dim) ∧ (2 ≤ a.shape.length →
      a.shape.length ≤ loop.length + 1 ∧ ∀ p < a.shape.length, ∀ d,
        (assumedDims loop dim fe)[p + (loop.length + 1 - a.shape.length)]? = some d →
        axisSize a p = 1 ∨ axisSize a p = size d)

/-- A call with values `x` and the other operands along `dim` is well formed; `size` are the sizes of
all dimensions, `reserved` names that occur in the result only. -/
structure GoodLabelled (x : DataArray δ K) (others : List (Operand δ K)) (dim : δ) (size : δ → ℕ)
    (reserved : List δ) : Prop where
  distinct : reserved.Nodup
  good : ∀ o ∈ .named x :: others, GoodOperand (otherDims (.named x :: others) dim) dim
    (nameFromEnd x dim) size reserved o

/-- The samples, values and weight, at the coordinates `c`; the operands taking part in the result
are `loop` and `dim`. -/
def samplesNamed (val : List K → V) (loop : List δ) (dim : δ) (fe count : ℕ) (x w : Operand δ K)
    (ys : List (Operand δ K)) (c : δ → ℕ) : List (V × K) :=
  (List.range count).map (fun s =>
    (val ((x :: ys).map (fun o => numberNamed loop dim fe o c s)), numberNamed loop dim fe w c s))

/-- Sizes of a result: `count` on `dim`, the moment dimensions as asked for, others as they were. -/
def sizesOfVals (size : δ → ℕ) (dim : δ) (count : ℕ) (moms : List δ) (mom : List ℕ) (d : δ) : ℕ :=
  if d = dim then count
  else if d ∈ moms then (mom.map (· + 1)).getD (moms.idxOf d) 0
  else size d

/-- The dimensions of a result that keeps the samples, as `dim`: those of `x` in the order of `x`,
after dimensions that `x` does not have; or the samples after the others. -/
def dimsOfVals (x : DataArray δ K) (loop : List δ) (dim new : δ) (moms : List δ) (axesToEnd : Bool) :
    List δ :=
  if axesToEnd then loop ++ new :: moms
  else loop.filter (fun d => decide (d ∉ x.dims)) ++ renamed x.dims dim new ++ moms

/-- A labelled array lacks the sample dimension, has a reserved dimension, or has another size of a
dimension than another array. -/
def Mismatched (x : DataArray δ K) (others : List (Operand δ K)) (dim : δ) (reserved : List δ) :
    Prop :=
  (∃ y, .named y ∈ others ∧ (dim ∉ y.dims ∨ ∃ d ∈ y.dims, d ≠ dim ∧ d ∈ reserved)) ∨
    (∃ d ∈ x.dims, d ≠ dim ∧ d ∈ reserved) ∨
    ∃ y z, .named y ∈ .named x :: others ∧ .named z ∈ .named x :: others ∧
      ∃ d ∈ y.dims, d ∈ z.dims ∧ y.size d ≠ z.size d

end Cmomy.Spec
