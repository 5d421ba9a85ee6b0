import Verif.Model.LabelledMake
import Verif.Spec.LabelledCollect
import Verif.Spec.LabelledStats
import Verif.Spec.ObjectMake
import Verif.Spec.Convert

/-!
# The samples that labelled values and weights stand for

Everything is said in terms of dimension names.
-/

namespace Cmomy.Spec

open Labelled

variable {δ : Type} [DecidableEq δ] {α K : Type}

/-- The weights of a call: if none are given, every sample counts once. -/
def givenOperand [One K] (weight : Option (Operand δ K)) : Operand δ K :=
  weight.getD (.plain ⟨[], fun _ => 1⟩)

/-- A weight that is matched by name, or none. -/
def ByName : Option (Operand δ K) → Prop
  | some (.plain _) => False
  | _ => True

/-- No entry of the operand is negative. -/
def NonNegOperand [Zero K] [LE K] : Operand δ K → Prop
  | .named y => ∀ c, (∀ d ∈ y.dims, c d < y.size d) → 0 ≤ entry y c
  | .plain a => NonNeg a

/-- The samples along `dim` at the coordinates `c`; `loop`, `fe` as for `numberNamed`. -/
def namedSamples (loop : List δ) (dim : δ) (fe count : ℕ) (x w : Operand δ K) (c : δ → ℕ) :
    List (Sample K) :=
  (List.range count).map (fun s => ⟨numberNamed loop dim fe w c s, numberNamed loop dim fe x c s⟩)

/-- The same for pairs of values. -/
def namedSamples2 (loop : List δ) (dim : δ) (fe count : ℕ) (x y w : Operand δ K) (c : δ → ℕ) :
    List (Sample2 K) :=
  (List.range count).map (fun s => ⟨numberNamed loop dim fe w c s, numberNamed loop dim fe x c s,
    numberNamed loop dim fe y c s⟩)

/-- All dimensions of the operands, in order of appearance. -/
def allDims (ops : List (Operand δ K)) : List δ := inOrder (ops.flatMap operandDims)

/-- The operand can be repeated to fill the dimensions `loop` of the given sizes. A labelled array has
none of the names set aside for the result. -/
def Fills (loop : List δ) (size : δ → ℕ) (reserved : List δ) : Operand δ K → Prop
  | .named y => y.dims.Nodup ∧ ∀ d ∈ y.dims, y.size d = size d ∧ d ∉ reserved
  | .plain a => a.Proper ∧ FitsInto a.shape (loop.map size)

/-- The number an operand shows at the coordinates `c`: labelled arrays are matched by name, others by
position from the last dimension. -/
def shownAt (loop : List δ) (c : δ → ℕ) : Operand δ K → K
  | .named y => entry y c
  | .plain a => stretch a loop.length (coordsAlong loop c)

/-- The array holds, at all coordinates, the weight and the raw moments up to `order` of `L c`. -/
structure RawNamed [Field K] (obj : DataArray δ K) (mom : δ) (order : ℕ)
    (L : (δ → ℕ) → List (Sample K)) : Prop where
  object : LabelledObject obj [mom] 1
  size : obj.size mom = order + 1
  positive : 1 ≤ order
  nonzero : ∀ c, InLabelled obj [mom] c → weight (L c) ≠ 0
  moments : ∀ c, InLabelled obj [mom] c →
    IsRawMoments order (L c) (fun n => entry obj (withNames [mom] [n] c))

/-- The same for comoments. -/
structure RawNamed2 [Field K] (obj : DataArray δ K) (mom0 mom1 : δ) (o0 o1 : ℕ)
    (L : (δ → ℕ) → List (Sample2 K)) : Prop where
  object : LabelledObject obj [mom0, mom1] 2
  size0 : obj.size mom0 = o0 + 1
  size1 : obj.size mom1 = o1 + 1
  positive0 : 1 ≤ o0
  positive1 : 1 ≤ o1
  nonzero : ∀ c, InLabelled obj [mom0, mom1] c → weight2 (L c) ≠ 0
  moments : ∀ c, InLabelled obj [mom0, mom1] c →
    IsRawComoments o0 o1 (L c) (fun n m => entry obj (withNames [mom0, mom1] [n, m] c))

end Cmomy.Spec
