import Verif.Model.Rounding
import Verif.Model.Grouped
import Mathlib.Algebra.Order.Field.Basic
import Mathlib.Algebra.Order.Round
import Mathlib.Data.Int.Log

/-!
# Specification for rounded arithmetic

What is assumed of a rounding, the roundings to `p` binary digits, and what is claimed of moments computed
with them. Independent of the kernels.
-/

namespace Cmomy.Spec

variable {K : Type*} [Field K] [LinearOrder K] [IsStrictOrderedRing K]

/-- A rounding: monotone, symmetric, with `0` and `1` among the numbers, and leaving the numbers alone. Holds for IEEE
rounding to nearest as long as nothing overflows. -/
structure IsRounding (fl : K → K) : Prop where
  mono : Monotone fl
  one : fl 1 = 1
  neg : ∀ x, fl (-x) = -fl x
  idem : ∀ x, fl (fl x) = fl x

/-- Two roundings, where the numbers of the first are numbers of the second. -/
structure IsPrecision (R : Precision K) : Prop where
  lo : IsRounding R.lo
  hi : IsRounding R.hi
  wider : ∀ x, R.hi (R.lo x) = R.lo x

/-- `x` can be stored. -/
def IsNum (R : Precision K) (x : K) : Prop := R.lo x = x

/-- `w` can be stored and is not negative. -/
def IsWeight (R : Precision K) (w : K) : Prop := IsNum R w ∧ 0 ≤ w

/-- Moments with a weight and a variance that are not negative. -/
structure Sound (R : Precision K) (m : Mom K) : Prop where
  weight : IsWeight R (m 0)
  var : 0 ≤ m 2

/-- Comoments with a weight and variances that are not negative. -/
structure SoundCov (R : Precision K) (m : Com K) : Prop where
  weight : IsWeight R (m 0 0)
  var0 : 0 ≤ m 2 0
  var1 : 0 ≤ m 0 2

/-- Moments of samples which are all `v`; nothing has been counted as long as the average is `0` instead. -/
structure Constant (R : Precision K) (order : ℕ) (v : K) (m : Mom K) : Prop where
  weight : IsWeight R (m 0)
  mean : m 1 = v ∨ m 0 = 0 ∧ m 1 = 0
  rest : ∀ i, 2 ≤ i → i ≤ order → m i = 0

/-- Comoments of samples which are all `(v0, v1)`. -/
structure ConstantCov (R : Precision K) (order0 order1 : ℕ) (v0 v1 : K) (m : Com K) : Prop where
  weight : IsWeight R (m 0 0)
  mean : m 1 0 = v0 ∧ m 0 1 = v1 ∨ m 0 0 = 0 ∧ m 1 0 = 0 ∧ m 0 1 = 0
  rest : ∀ i j, 2 ≤ i + j → i ≤ order0 → j ≤ order1 → m i j = 0

/-- Moments whose average is a number of the interval, if anything has been counted. -/
structure MeanWithin (R : Precision K) (a b : K) (m : Mom K) : Prop where
  weight : IsWeight R (m 0)
  mean : IsNum R (m 1) ∧ a ≤ m 1 ∧ m 1 ≤ b ∨ m 0 = 0 ∧ m 1 = 0

/-- Differences of numbers of the interval are numbers. -/
def ExactSub (R : Precision K) (a b : K) : Prop :=
  ∀ x y, IsNum R x → IsNum R y → a ≤ x → x ≤ b → a ≤ y → y ≤ b → IsNum R (x - y)

/-- The rounding commutes with multiplication by `c`, as with a power of two. -/
def Commutes (R : Precision K) (c : K) : Prop :=
  ∀ x, R.lo (c * x) = c * R.lo x ∧ R.hi (c * x) = c * R.hi x

/-- The moments when all samples are multiplied by `c` and all weights by `s`. -/
def rescaled (c s : K) (m : Mom K) : Mom K := fun i => if i = 0 then s * m 0 else c ^ i * m i

/-- The comoments when all samples are multiplied by `c0` and `c1` and all weights by `s`. -/
def rescaledCov (c0 c1 s : K) (m : Com K) : Com K :=
  fun i j => if i = 0 ∧ j = 0 then s * m 0 0 else c0 ^ i * c1 ^ j * m i j

/-- `P` holds of the results of every function that only adds samples, none of which fails: `reduce_vals`, `reduce_data`,
`cumulative`, `resample_data`, `resample_vals`, `reduce_data_grouped`, `reduce_data_indexed`, `rolling_exp_data`,
`rolling_exp_vals`. `okV` are the allowed values; weights, frequencies and scales are numbers that are not negative. -/
structure LoopsKeep {V M : Type*} (R : Precision K) (k : Kernel K V M) (setWeight : M → K → M) (okV : V → Prop)
    (P : M → Prop) : Prop where
  reduceVals : ∀ (xs : List (V × K)) (out : M), (∀ p ∈ xs, okV p.1 ∧ IsWeight R p.2) → P out →
    ∃ m, k.reduceVals xs out = some m ∧ P m
  reduceData : ∀ (ds : List M) (out : M), (∀ d ∈ ds, P d) → P out → ∃ m, k.reduceData ds out = some m ∧ P m
  fromZero : P k.zero
  cumulative : ∀ ds : List M, (∀ d ∈ ds, P d) →
    ∃ rs, k.cumulative ds = some rs ∧ rs.length = ds.length ∧ ∀ r ∈ rs, P r
  resampleData : ∀ (freq : List (List K)) (ds : List M), (∀ row ∈ freq, ∀ f ∈ row, IsWeight R f) →
    (∀ d ∈ ds, P d) → ∀ r ∈ k.resampleData freq ds, ∃ m, r = some m ∧ P m
  resampleVals : ∀ (freq : List (List K)) (xs : List (V × K)), (∀ row ∈ freq, ∀ f ∈ row, IsWeight R f) →
    (∀ p ∈ xs, okV p.1 ∧ IsWeight R p.2) → ∀ r ∈ R.resampleVals k freq xs, ∃ m, r = some m ∧ P m
  grouped : ∀ (ds : List M) (by_ : List ℤ) (nout : Option ℕ) (out : List (Option M)), (∀ d ∈ ds, P d) →
    k.reduceDataGrouped ds by_ nout = .ok out → ∀ r ∈ out, ∃ m, r = some m ∧ P m
  indexed : ∀ (ds : List M) (index start stop : List ℤ) (scale : Option (List K)) (out : List (Option M)),
    (∀ d ∈ ds, P d) → (∀ l, scale = some l → ∀ f ∈ l, IsWeight R f) →
    Indexed.reduceDataIndexed k ds index start stop scale = .ok out → ∀ r ∈ out, ∃ m, r = some m ∧ P m
  expData : ∀ (adjust : Bool) (minPeriods : Option ℤ) (alpha : List K) (ds : List M),
    (∀ a ∈ alpha, IsWeight R a ∧ a ≤ 1 ∧ (adjust = false → a ≠ 0)) → (∀ d ∈ ds, P d) →
    ∃ rs, R.rollingExpData k setWeight adjust minPeriods alpha ds = some rs ∧
      rs.length = min alpha.length ds.length ∧ ∀ r ∈ rs, r = none ∨ ∃ m, r = some m ∧ P m
  expVals : ∀ (adjust : Bool) (minPeriods : Option ℤ) (alpha : List K) (xs : List (V × K)),
    (∀ a ∈ alpha, IsWeight R a ∧ a ≤ 1 ∧ (adjust = false → a ≠ 0)) → (∀ p ∈ xs, okV p.1 ∧ IsWeight R p.2) →
    ∃ rs, R.rollingExpVals k setWeight adjust minPeriods alpha xs = some rs ∧
      rs.length = min alpha.length xs.length ∧ ∀ r ∈ rs, r = none ∨ ∃ m, r = some m ∧ P m

/-- The results of every function for data in other units are the results in other units: `φ` of the moments, `ψ` of the
values, `s` of the weights. Also where samples are subtracted, and where the functions fail. -/
structure LoopsRescale {V M : Type*} (R : Precision K) (k : Kernel K V M) (setWeight : M → K → M) (φ : M → M)
    (ψ : V → V) (s : K) : Prop where
  reduceVals : ∀ (xs : List (V × K)) (out : M),
    k.reduceVals (xs.map fun p => (ψ p.1, s * p.2)) (φ out) = (k.reduceVals xs out).map φ
  reduceData : ∀ (ds : List M) (out : M), k.reduceData (ds.map φ) (φ out) = (k.reduceData ds out).map φ
  fromZero : φ k.zero = k.zero
  cumulative : ∀ ds : List M, k.cumulative (ds.map φ) = (k.cumulative ds).map (List.map φ)
  cumulativeInverse : ∀ ds : List M, k.cumulativeInverse (ds.map φ) = (k.cumulativeInverse ds).map (List.map φ)
  resampleData : ∀ (freq : List (List K)) (ds : List M),
    k.resampleData freq (ds.map φ) = (k.resampleData freq ds).map (Option.map φ)
  resampleVals : ∀ (freq : List (List K)) (xs : List (V × K)),
    R.resampleVals k freq (xs.map fun p => (ψ p.1, s * p.2)) = (R.resampleVals k freq xs).map (Option.map φ)
  jackknifeData : ∀ ds : List M,
    k.jackknifeData (ds.map φ) = (k.jackknifeData ds).map (List.map (Option.map φ))
  jackknifeVals : ∀ xs : List (V × K),
    k.jackknifeVals (xs.map fun p => (ψ p.1, s * p.2)) = (k.jackknifeVals xs).map (List.map (Option.map φ))
  grouped : ∀ (ds : List M) (by_ : List ℤ) (nout : Option ℕ),
    k.reduceDataGrouped (ds.map φ) by_ nout = (k.reduceDataGrouped ds by_ nout).map (List.map (Option.map φ))
  rollingData : ∀ (window : ℕ) (minPeriods : Option ℤ) (center : Bool) (ds : List M),
    k.rollingData window minPeriods center (ds.map φ)
      = (k.rollingData window minPeriods center ds).map (List.map (Option.map φ))
  rollingVals : ∀ (x0 : V) (window : ℕ) (minPeriods : Option ℤ) (center : Bool) (xs : List (V × K)), ψ x0 = x0 →
    k.rollingVals x0 window minPeriods center (xs.map fun p => (ψ p.1, s * p.2))
      = (k.rollingVals x0 window minPeriods center xs).map (List.map (Option.map φ))
  expData : ∀ (adjust : Bool) (minPeriods : Option ℤ) (alpha : List K) (ds : List M),
    R.rollingExpData k setWeight adjust minPeriods alpha (ds.map φ)
      = (R.rollingExpData k setWeight adjust minPeriods alpha ds).map (List.map (Option.map φ))
  expVals : ∀ (adjust : Bool) (minPeriods : Option ℤ) (alpha : List K) (xs : List (V × K)),
    R.rollingExpVals k setWeight adjust minPeriods alpha (xs.map fun p => (ψ p.1, s * p.2))
      = (R.rollingExpVals k setWeight adjust minPeriods alpha xs).map (List.map (Option.map φ))

/-- A rounding to integers. -/
structure IsIntRounding (r : K → ℤ) : Prop where
  mono : Monotone r
  int : ∀ n : ℤ, r n = n

variable [FloorRing K]

/-- The exponent of the last digit of `x > 0` with `p` binary digits, of which none is below `2 ^ emin`. -/
def lastDigit (p : ℕ) (emin : Option ℤ) (x : K) : ℤ :=
  match emin with
  | none => Int.log 2 x - p + 1
  | some e => max e (Int.log 2 x - p + 1)

/-- Rounding to `p` binary digits by the rounding `r` to integers: floating point numbers without overflow, with gradual underflow
if `emin` is given. -/
def toDigits (r : K → ℤ) (p : ℕ) (emin : Option ℤ) (x : K) : K :=
  if 0 < x then r (x / 2 ^ lastDigit p emin x) * 2 ^ lastDigit p emin x
  else if x < 0 then -(r (-x / 2 ^ lastDigit p emin (-x)) * 2 ^ lastDigit p emin (-x))
  else 0

/-- Rounding to the nearest integer, to the even one of two. -/
def nearestEven (x : K) : ℤ :=
  if Int.fract x < 1 / 2 then ⌊x⌋
  else if 1 / 2 < Int.fract x then ⌊x⌋ + 1
  else if Even ⌊x⌋ then ⌊x⌋ else ⌊x⌋ + 1

end Cmomy.Spec
