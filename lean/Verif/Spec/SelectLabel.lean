import Verif.Model.SelectLabel
import Verif.Spec.LabelledObject

/-!
# Specification of selecting by label
-/

namespace Cmomy.Spec

open Labelled

variable {δ α κ : Type} [DecidableEq δ]

/-- The position `old` along a dimension with these labels is what is asked for at the position `new` of the result. -/
def LabelAsked (labels : List κ) : LabelSel κ → ℕ → ℕ → Prop
  | .one l, _, old => labels[old]? = some l
  | .many ls, new, old => ∃ l, ls[new]? = some l ∧ labels[old]? = some l
  | .upto first _, new, old => ∃ i, labels[i]? = some first ∧ old = i + new

/-- The size of the dimension in the result, if it is kept. -/
def AskedSize (labels : List κ) : LabelSel κ → ℕ → Prop
  | .one _, _ => True
  | .many ls, n => n = ls.length
  | .upto first last, n => ∃ i j, labels[i]? = some first ∧ labels[j]? = some last ∧ n = j + 1 - i

/-- All labels asked for are there. -/
def Known (labels : List κ) : LabelSel κ → Prop
  | .one l => l ∈ labels
  | .many ls => ∀ l ∈ ls, l ∈ labels
  | .upto first last => first ∈ labels ∧ last ∈ labels

/-- A single label. -/
def isLabel : LabelSel κ → Bool
  | .one _ => true
  | _ => false

/-- A selection from different dimensions, each with different labels, where all labels asked for are there. -/
structure GoodLabels (obj : DataArray δ α) (moms : List δ) (labels : δ → Option (List κ)) (sel : List (δ × LabelSel κ)) :
    Prop where
  distinct : (sel.map Prod.fst).Nodup
  present : ∀ p ∈ sel, p.1 ∈ valDims obj moms
  labelled : ∀ p ∈ sel, ∃ ls, labels p.1 = some ls ∧ ls.Nodup ∧ ls.length = obj.size p.1 ∧ Known ls p.2

/-- The old coordinates `c'` are those asked for at the new coordinates `c`. -/
def AskedAt (obj : DataArray δ α) (moms : List δ) (labels : δ → Option (List κ)) (sel : List (δ × LabelSel κ))
    (c c' : δ → ℕ) : Prop :=
  (∀ p ∈ sel, ∀ ls, labels p.1 = some ls → LabelAsked ls p.2 (c p.1) (c' p.1)) ∧
    ∀ d ∈ valDims obj moms, d ∉ sel.map Prod.fst → c' d = c d

/-- What the two objects hold is the same, label by label: along the dimensions in `by_` positions count as equal when their
labels are, along the others when they are the same. -/
def SameByLabel (obj obj' : DataArray δ α) (moms : List δ) (labels labels' : δ → Option (List κ)) (by_ : List δ) : Prop :=
  ∀ c c', InLabelled obj moms c → InLabelled obj' moms c' →
    (∀ d ∈ by_, ∀ ls ls', labels d = some ls → labels' d = some ls' → ls[c d]? = ls'[c' d]?) →
    (∀ d ∈ valDims obj moms, d ∉ by_ → c d = c' d) →
    ∀ ms, entry obj (withNames moms ms c) = entry obj' (withNames moms ms c')

end Cmomy.Spec
