import Verif.Model.Comoments
import Verif.Spec.Convert
import Verif.Spec.ObjectStats
import Verif.Spec.LabelledPush

/-!
# Which comoments are asked for, and where the moments are found
-/

namespace Cmomy.Spec

open Labelled

/-- The pair `mom` asks for comoments of orders `a` and `b`, made from moments up to `orig`: both are
given, or one is and the other is what is left. -/
def OrdersFor (mom : List ℤ) (orig a b : ℕ) : Prop :=
  1 ≤ a ∧ 1 ≤ b ∧ a + b ≤ orig ∧ ∃ m0 m1, mom = [m0, m1] ∧
    ((m0 = a ∧ m1 = b) ∨ (m0 < 0 ∧ m1 = b ∧ a + b = orig) ∨ (m0 = a ∧ m1 < 0 ∧ a + b = orig))

variable {δ : Type} [DecidableEq δ]

/-- Sizes with those of two dimensions replaced. -/
def sizesPair (size : δ → ℕ) (e f : δ) (n0 n1 : ℕ) : δ → ℕ := fun d =>
  if d = e then n0 else if d = f then n1 else size d

/-- The names of the new moment dimensions are free, and so is the temporary name, if it is needed. -/
structure FreeNames {K : Type} (x : DataArray δ K) (moms outs : List δ) (tmp : δ → δ) : Prop where
  distinct : outs.Nodup
  free : ∀ e ∈ outs, e ∉ valDims x moms
  temporary : ∀ d ∈ moms, d ∈ outs → tmp d ∉ x.dims ∧ tmp d ∉ outs

end Cmomy.Spec
