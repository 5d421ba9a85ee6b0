import Verif.Model.Options

/-!
# What the options may be
-/

namespace Cmomy.Spec

open Options

/-- The four options. -/
def optionNames : List String := ["nmax", "cache", "parallel", "fastmath"]

/-- A value fit for an option: `nmax` an integer (Python counts `True` and `False` as integers), the
others `True` or `False`. -/
def Fit (k : String) (v : OptVal) : Prop :=
  (k = "nmax" ∧ ∃ z, v = .int z) ∨ (k ∈ optionNames ∧ ∃ b, v = .bool b)

/-- Exactly the four options, each with a fit value. -/
def GoodOptions (d : Dict) : Prop :=
  d.map Prod.fst = optionNames ∧ ∀ p ∈ d, Fit p.1 p.2

/-- The program sets options in `with` blocks only. -/
def OnlyWith : Prog → Prop
  | .pass => True
  | .raise _ => True
  | .seq p q => OnlyWith p ∧ OnlyWith q
  | .ite _ p q => OnlyWith p ∧ OnlyWith q
  | .setOptions _ => False
  | .withOptions _ body => OnlyWith body
  | .tryExcept body handler => OnlyWith body ∧ OnlyWith handler

end Cmomy.Spec
