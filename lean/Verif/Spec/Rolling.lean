import Verif.Spec.Moments
import Mathlib.Data.List.Basic
import Mathlib.Algebra.Field.Basic
import Mathlib.Algebra.BigOperators.Group.List.Basic
import Mathlib.Order.Defs.LinearOrder

/-!
# Specification vocabulary: windows and decaying weights
-/

namespace Cmomy.Spec

variable {K : Type*} [Field K]

/-- The elements at positions `i - window + 1, ..., i` that exist. -/
def windowRows {α : Type*} (window i : ℕ) (l : List α) : List α :=
  (l.take (i + 1)).drop (i + 1 - window)

/-- The elements at positions `i - window / 2, ..., i + (window - 1) / 2` that exist. -/
def centredRows {α : Type*} (window i : ℕ) (l : List α) : List α :=
  (l.take (i + (window - 1) / 2 + 1)).drop (i - window / 2)

/-- How many of the weights are not zero. -/
def validCount [DecidableEq K] (ws : List K) : ℕ := ws.countP (fun w => decide (w ≠ 0))

/-- Coefficient of each sample after all of them: the product of `1 - alpha` over the later
samples. -/
def decayCoefs : List K → List K
  | [] => []
  | _ :: as => (as.map (fun a => 1 - a)).prod :: decayCoefs as

/-- Coefficients of an unadjusted exponential average. An entry is `(alpha, valid)`; the state is
the coefficients so far and the remaining weight of the past. A gap only decays the past. At a
valid sample the decayed past and the new sample of weight `alpha` are normalised to total 1. -/
def unadjustedStep (s : List K × K) (p : K × Bool) : List K × K :=
  let past := s.1.map (fun c => c * (1 - p.1))
  let rem := s.2 * (1 - p.1)
  if p.2 then ((past ++ [p.1]).map (fun c => c / (rem + p.1)), 1) else (past ++ [0], rem)

/-- Coefficient of each sample after all of them, unadjusted. -/
def unadjustedCoefs (l : List (K × Bool)) : List K := (l.foldl unadjustedStep ([], 0)).1

/-- One row per position below `n`: row `i` is present and satisfies `P i`, or it is missing,
according to `present i`. -/
def RowsSpec {M : Type*} (n : ℕ) (present : ℕ → Prop) (P : ℕ → M → Prop)
    (rows : List (Option M)) : Prop :=
  rows.length = n ∧ ∀ i, i < n →
    (present i ∧ ∃ r, rows[i]? = some (some r) ∧ P i r) ∨ (¬ present i ∧ rows[i]? = some none)

/-- All samples, group `j` with its weights multiplied by the `j`-th coefficient. -/
def reweight (cs : List K) (Ls : List (List (Sample K))) : List (Sample K) :=
  (List.zipWith (fun c L => L.map (fun s => ⟨s.w * c, s.x⟩)) cs Ls).flatten

/-- Two-variable version of `reweight`. -/
def reweight2 (cs : List K) (Ls : List (List (Sample2 K))) : List (Sample2 K) :=
  (List.zipWith (fun c L => L.map (fun s => ⟨s.w * c, s.x, s.y⟩)) cs Ls).flatten

/-- Samples with their weights multiplied by a coefficient each. -/
def scaleBy (cs : List K) (L : List (Sample K)) : List (Sample K) :=
  List.zipWith (fun c s => ⟨s.w * c, s.x⟩) cs L

/-- Two-variable version of `scaleBy`. -/
def scaleBy2 (cs : List K) (L : List (Sample2 K)) : List (Sample2 K) :=
  List.zipWith (fun c s => ⟨s.w * c, s.x, s.y⟩) cs L

/-- `Σ_j c_j w_j`. -/
def sumCW (cs ws : List K) : K := (List.zipWith (fun c w => c * w) cs ws).sum

/-- `Σ_j c_j² w_j`. -/
def sumC2W (cs ws : List K) : K := (List.zipWith (fun c w => c * c * w) cs ws).sum

/-- `v1² / (v1² - v2)`, missing unless the denominator is positive. -/
def biasValue [LinearOrder K] (v1 v2 : K) : Option K :=
  if v2 < v1 ^ 2 then some (v1 ^ 2 / (v1 ^ 2 - v2)) else none

end Cmomy.Spec
