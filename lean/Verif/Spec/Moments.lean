import Mathlib.Algebra.Field.Basic
import Mathlib.Algebra.BigOperators.Group.List.Basic

/-!
# Specification vocabulary: moments of weighted samples

Plain mathematics, no function of the model is used here.
-/

namespace Cmomy.Spec

variable {K : Type*} [Field K]

/-- A weighted sample of one variable. -/
structure Sample (K : Type*) where
  w : K
  x : K
deriving DecidableEq, Repr

/-- A weighted sample of two variables. -/
structure Sample2 (K : Type*) where
  w : K
  x : K
  y : K
deriving DecidableEq, Repr

/-- Weighted sum of `f` over the samples. -/
def wsum (L : List (Sample K)) (f : K → K) : K := (L.map (fun s => s.w * f s.x)).sum

/-- Total weight. -/
def weight (L : List (Sample K)) : K := (L.map Sample.w).sum

/-- Weighted mean `Σ w x / Σ w`. -/
def mean (L : List (Sample K)) : K := wsum L (fun x => x) / weight L

/-- Weighted raw moment `Σ w x^n / Σ w`. -/
def rawMoment (L : List (Sample K)) (n : ℕ) : K := wsum L (fun x => x ^ n) / weight L

/-- Weighted central moment `Σ w (x - mean)^n / Σ w`. -/
def central (L : List (Sample K)) (n : ℕ) : K := wsum L (fun x => (x - mean L) ^ n) / weight L

/-- `out` is the moment array of order `order` of the samples `L` (meant for `weight L ≠ 0`):
weight, mean, and all central moments from 2 to `order`. -/
structure IsMoments (order : ℕ) (L : List (Sample K)) (out : ℕ → K) : Prop where
  weight : out 0 = weight L
  mean : out 1 = mean L
  central : ∀ n, 2 ≤ n → n ≤ order → out n = central L n

/-- Two moment arrays agree on the entries of an array of order `order`. -/
def EqUpTo (order : ℕ) (a b : ℕ → K) : Prop := ∀ n, n ≤ order → a n = b n

/-- The samples as `(value, weight)` pairs, the argument order of the code. -/
def toVals (L : List (Sample K)) : List (K × K) := L.map (fun s => (s.x, s.w))

/-- No sample of non-zero weight brings the running weight to zero. -/
def Admissible (L : List (Sample K)) : Prop :=
  ∀ pre s post, L = pre ++ s :: post → s.w ≠ 0 → weight (pre ++ [s]) ≠ 0

/-- `out` stands for the samples `L`: either the samples have non-zero total weight and `out` is
their moment array, or every weighted power sum up to `order` vanishes (for instance: no sample
at all) and `out` has zero weight. -/
def Holds (order : ℕ) (L : List (Sample K)) (out : ℕ → K) : Prop :=
  (weight L ≠ 0 ∧ IsMoments order L out) ∨
    (out 0 = 0 ∧ ∀ n, n ≤ order → wsum L (fun x => x ^ n) = 0)

/-- Weighted sum of `f` over samples of two variables. -/
def wsum2 (L : List (Sample2 K)) (f : K → K → K) : K := (L.map (fun s => s.w * f s.x s.y)).sum

/-- Total weight. -/
def weight2 (L : List (Sample2 K)) : K := (L.map Sample2.w).sum

/-- Mean of the first variable. -/
def meanX (L : List (Sample2 K)) : K := wsum2 L (fun x _ => x) / weight2 L

/-- Mean of the second variable. -/
def meanY (L : List (Sample2 K)) : K := wsum2 L (fun _ y => y) / weight2 L

/-- Weighted raw comoment. -/
def rawMoment2 (L : List (Sample2 K)) (i j : ℕ) : K :=
  wsum2 L (fun x y => x ^ i * y ^ j) / weight2 L

/-- Weighted central comoment `Σ w (x - meanX)^i (y - meanY)^j / Σ w`. -/
def central2 (L : List (Sample2 K)) (i j : ℕ) : K :=
  wsum2 L (fun x y => (x - meanX L) ^ i * (y - meanY L) ^ j) / weight2 L

/-- `out` is the comoment array of orders `(o0, o1)` of the samples `L` (for `weight2 L ≠ 0`). -/
structure IsComoments (o0 o1 : ℕ) (L : List (Sample2 K)) (out : ℕ → ℕ → K) : Prop where
  weight : out 0 0 = weight2 L
  meanX : out 1 0 = meanX L
  meanY : out 0 1 = meanY L
  central : ∀ i j, i ≤ o0 → j ≤ o1 → 2 ≤ i + j → out i j = central2 L i j

/-- Two comoment arrays agree on the entries of an array of orders `(o0, o1)`. -/
def EqUpTo2 (o0 o1 : ℕ) (a b : ℕ → ℕ → K) : Prop := ∀ i j, i ≤ o0 → j ≤ o1 → a i j = b i j

/-- The samples as `((x, y), weight)`, the argument order of the code. -/
def toVals2 (L : List (Sample2 K)) : List ((K × K) × K) := L.map (fun s => ((s.x, s.y), s.w))

/-- No sample of non-zero weight brings the running weight to zero. -/
def Admissible2 (L : List (Sample2 K)) : Prop :=
  ∀ pre s post, L = pre ++ s :: post → s.w ≠ 0 → weight2 (pre ++ [s]) ≠ 0

/-- Two-variable version of `Holds`. -/
def Holds2 (o0 o1 : ℕ) (L : List (Sample2 K)) (out : ℕ → ℕ → K) : Prop :=
  (weight2 L ≠ 0 ∧ IsComoments o0 o1 L out) ∨
    (out 0 0 = 0 ∧ ∀ i j, i ≤ o0 → j ≤ o1 → wsum2 L (fun x y => x ^ i * y ^ j) = 0)

/-- Both results missing, or both present and related. -/
def OptRel {α β : Type*} (R : α → β → Prop) : Option α → Option β → Prop
  | none, none => True
  | some a, some b => R a b
  | _, _ => False

/-- Transposed matrix. -/
def transp (m : ℕ → ℕ → K) : ℕ → ℕ → K := fun i j => m j i

/-- First column of a matrix (second index 0). -/
def col (m : ℕ → ℕ → K) : ℕ → K := fun i => m i 0

/-- First row of a matrix (first index 0). -/
def row (m : ℕ → ℕ → K) : ℕ → K := fun j => m 0 j

end Cmomy.Spec
