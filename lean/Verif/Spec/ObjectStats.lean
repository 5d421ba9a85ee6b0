import Verif.Spec.Select
import Verif.Spec.Moments

/-!
# Array objects that hold the moments of samples
-/

namespace Cmomy.Spec

open Nd

variable {K : Type*}

/-- The index with coordinates `i` on the first `n` axes and `ms` on the following ones. -/
def atMom (n : ℕ) (i : ℕ → ℕ) (ms : List ℕ) : ℕ → ℕ := fun p =>
  if p < n then i p else ms.getD (p - n) 0

/-- An array with axes of sizes `vs`, then moment axes of sizes `ms` (one or two, each with at least
the moments 0 and 1). -/
structure IsObject (obj : Arr K) (vs ms : List ℕ) : Prop where
  proper : obj.Proper
  shape : obj.shape = vs ++ ms
  count : ms.length = 1 ∨ ms.length = 2
  orders : ∀ m ∈ ms, 2 ≤ m

/-- The array holds, at every index `i`, the moments up to `order` of the samples `L i`. -/
structure ObjectOf [Field K] (obj : Arr K) (vs : List ℕ) (order : ℕ)
    (L : (ℕ → ℕ) → List (Sample K)) : Prop where
  object : IsObject obj vs [order + 1]
  nonzero : ∀ i, InBounds vs i → weight (L i) ≠ 0
  moments : ∀ i, InBounds vs i →
    IsMoments order (L i) (fun n => obj.get (atMom vs.length i [n]))

/-- The array holds, at every index `i`, the comoments up to `(o0, o1)` of the samples `L i`. -/
structure ObjectOf2 [Field K] (obj : Arr K) (vs : List ℕ) (o0 o1 : ℕ)
    (L : (ℕ → ℕ) → List (Sample2 K)) : Prop where
  object : IsObject obj vs [o0 + 1, o1 + 1]
  nonzero : ∀ i, InBounds vs i → weight2 (L i) ≠ 0
  moments : ∀ i, InBounds vs i →
    IsComoments o0 o1 (L i) (fun n m => obj.get (atMom vs.length i [n, m]))

/-- The array has axes of sizes `vs`, then axes of sizes `ms`, and the value `F i m` at index `i` of the
former and `m` of the latter. -/
structure HasValues (out : Arr K) (vs ms : List ℕ) (F : (ℕ → ℕ) → List ℕ → K) : Prop where
  shape : out.shape = vs ++ ms
  value : ∀ i, InBounds vs i → ∀ m, Within ms m → out.get (atMom vs.length i m) = F i m

end Cmomy.Spec
