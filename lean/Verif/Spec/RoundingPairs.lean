import Verif.Spec.RoundingError

/-!
# Specification for the errors of covariances
-/

namespace Cmomy.Spec

variable {K : Type*} [Field K]

/-- The entries of second order of comoments. -/
inductive Second
  /-- `[1, 1]` -/
  | cov
  /-- `[2, 0]` -/
  | var0
  /-- `[0, 2]` -/
  | var1
deriving DecidableEq

namespace Second

/-- The entry. -/
def entry : Second → (ℕ → ℕ → K) → K
  | cov, m => m 1 1
  | var0, m => m 2 0
  | var1, m => m 0 2

/-- The average of the first of the two factors. -/
def fst : Second → (ℕ → ℕ → K) → K
  | cov, m => m 1 0
  | var0, m => m 1 0
  | var1, m => m 0 1

/-- The average of the second of the two factors. -/
def snd : Second → (ℕ → ℕ → K) → K
  | cov, m => m 0 1
  | var0, m => m 1 0
  | var1, m => m 0 1

/-- The bound of the first factor. -/
def bound1 : Second → K → K → K
  | cov, B0, _ => B0
  | var0, B0, _ => B0
  | var1, _, B1 => B1

/-- The bound of the second factor. -/
def bound2 : Second → K → K → K
  | cov, _, B1 => B1
  | var0, B0, _ => B0
  | var1, _, B1 => B1

/-- Arrays of these orders have the entry. -/
def Has : Second → ℕ → ℕ → Prop
  | cov, _, _ => True
  | var0, o0, _ => 2 ≤ o0
  | var1, _, o1 => 2 ≤ o1

end Second

/-- Comoments counted with the weight `w` instead of their own. -/
structure Weighted (K : Type*) where
  w : K
  m : ℕ → ℕ → K

/-- Total weight. -/
def wtdWeight (L : List (Weighted K)) : K := (L.map Weighted.w).sum

/-- The average of `f` over the records. -/
def wtdMean (L : List (Weighted K)) (f : (ℕ → ℕ → K) → K) : K := (L.map fun a => a.w * f a.m).sum / wtdWeight L

/-- Variance or covariance of all samples: within the records, and between them. -/
def wtdSecond (L : List (Weighted K)) (p : Second) : K :=
  (L.map fun a => a.w * (p.entry a.m + (p.fst a.m - wtdMean L p.fst) * (p.snd a.m - wtdMean L p.snd))).sum
    / wtdWeight L

variable [LinearOrder K] [IsStrictOrderedRing K]

/-- Averages, variances and covariances of `m` are those of the records, up to roundings. The averages are off by at
most `16 (n + 5) u B`, the others by at most `450 (n + 5) u B B'`, where `n` is the number of records and `B` and `B'`
are bounds of the averages. -/
structure AlmostCov (u B0 B1 : K) (o0 o1 : ℕ) (L : List (Weighted K)) (m : Com K) : Prop where
  mean0 : |m 1 0 - wtdMean L (fun d => d 1 0)| ≤ 16 * ((L.length + 5) * u) * B0
  mean1 : |m 0 1 - wtdMean L (fun d => d 0 1)| ≤ 16 * ((L.length + 5) * u) * B1
  second : ∀ p : Second, p.Has o0 o1 → 450 * ((L.length + 5) * u) ≤ 1 →
    |p.entry m - wtdSecond L p| ≤ 450 * ((L.length + 5) * u) * (p.bound1 B0 B1 * p.bound2 B0 B1)

/-- Comoments that may be pushed: bounded averages, and no second moment larger than bounded samples have. -/
structure OkCov (B0 B1 : K) (o0 o1 : ℕ) (d : ℕ → ℕ → K) : Prop where
  mean0 : |d 1 0| ≤ B0
  mean1 : |d 0 1| ≤ B1
  second : ∀ p : Second, p.Has o0 o1 → |p.entry d| ≤ p.bound1 B0 B1 * p.bound2 B0 B1

end Cmomy.Spec
