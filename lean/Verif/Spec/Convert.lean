import Verif.Spec.Moments

/-!
# Specification vocabulary: raw moment arrays
-/

namespace Cmomy.Spec

variable {K : Type*} [Field K]

/-- `r` is the raw-moment array of the samples `L`: total weight, then `Σ w x^n / Σ w`. -/
def IsRawMoments (order : ℕ) (L : List (Sample K)) (r : ℕ → K) : Prop :=
  r 0 = weight L ∧ ∀ n, 1 ≤ n → n ≤ order → r n = rawMoment L n

/-- Two-variable version: total weight, then `Σ w x^i y^j / Σ w`. -/
def IsRawComoments (o0 o1 : ℕ) (L : List (Sample2 K)) (r : ℕ → ℕ → K) : Prop :=
  r 0 0 = weight2 L ∧
    ∀ i j, i ≤ o0 → j ≤ o1 → 1 ≤ i + j → r i j = rawMoment2 L i j

/-- The sample of the pairs `(x, x)`. -/
def diagonal (L : List (Sample K)) : List (Sample2 K) := L.map (fun s => ⟨s.w, s.x, s.x⟩)

end Cmomy.Spec
