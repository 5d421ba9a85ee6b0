import Verif.Spec.ObjectOps
import Verif.Spec.ValsOps

/-!
# The samples that values and weights of any shape stand for
-/

namespace Cmomy.Spec

open Nd

variable {K : Type*}

/-- The samples at index `i` of the common shape, which has `n` axes and the samples on axis `ax`. -/
def valueSamples (x w : Arr K) (n ax count : ℕ) (i : ℕ → ℕ) : List (Sample K) :=
  (List.range count).map (fun s => ⟨operandAt w n ax i s, operandAt x n ax i s⟩)

/-- The same for pairs of values. -/
def valueSamples2 (x y w : Arr K) (n ax count : ℕ) (i : ℕ → ℕ) : List (Sample2 K) :=
  (List.range count).map
    (fun s => ⟨operandAt w n ax i s, operandAt x n ax i s, operandAt y n ax i s⟩)

/-- The weights of a call: if none are given, every sample counts once. -/
def givenWeight [One K] (weight : Option (Arr K)) : Arr K := weight.getD ⟨[], fun _ => 1⟩

/-- No entry of the array is negative. -/
def NonNeg [Zero K] [LE K] (w : Arr K) : Prop := ∀ i, InBounds w.shape i → 0 ≤ w.get i

end Cmomy.Spec
