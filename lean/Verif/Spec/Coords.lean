import Verif.Model.Coords
import Verif.Spec.Dataset
import Verif.Spec.LabelledCollect

/-!
# Which labels the coordinates of a result should have
-/

namespace Cmomy.Spec

open Labelled

variable {δ : Type} [DecidableEq δ] {α γ : Type}

/-- An array with coordinates: different names, and each coordinate along dimensions of the array. A
coordinate called like a dimension runs along that dimension alone. -/
structure GoodCoords (x : Coorded δ γ α) : Prop where
  names : (x.coords.map Prod.fst).Nodup
  distinct : ∀ c ∈ x.coords, c.2.dims.Nodup
  within : ∀ c ∈ x.coords, ∀ d ∈ c.2.dims, d ∈ x.arr.dims ∧ c.2.size d = x.arr.size d
  own : ∀ c ∈ x.coords, c.1 ∈ x.arr.dims → c.2.dims = [c.1]

/-- The new name for dimension `d`, if there is one, is `d` again, or neither a dimension nor a
coordinate. -/
def FreeName (x : Coorded δ γ α) (d : δ) (new : Option δ) : Prop :=
  ∀ n, new = some n → n = d ∨ (n ∉ x.arr.dims ∧ ∀ c ∈ x.coords, c.1 ≠ n)

/-- The coordinates in `out` are those in `coords` along none of the dimensions `ds`. -/
def CoordsWithout (coords out : List (δ × DataArray δ γ)) (ds : List δ) : Prop :=
  (∀ c ∈ coords, (∀ d ∈ ds, d ∉ c.2.dims) → ∃ c' ∈ out, c'.1 = c.1 ∧ Alike c'.2 c.2) ∧
  (∀ c' ∈ out, ∃ c ∈ coords, (∀ d ∈ ds, d ∉ c.2.dims) ∧ c'.1 = c.1 ∧ Alike c'.2 c.2) ∧
  (out.map Prod.fst).Nodup

/-- The coordinate `c` after the samples along `old` have been replaced by `n` others, which are found
along `new`: the label at place `j` is that of sample `pick j`. -/
def CoordPicked (c c' : DataArray δ γ) (old new : δ) (n : ℕ) (pick : ℕ → ℕ) : Prop :=
  (old ∉ c.dims → Alike c' c) ∧
  (old ∈ c.dims → ShowsNamed c' (renamed c.dims old new) (fun d => if d = new then n else c.size d)
    (fun p => entry c (Function.update p old (pick (p new)))))

/-- All coordinates, each as in `CoordPicked`; the coordinate called `old` is now called `new`. -/
def CoordsPicked (coords out : List (δ × DataArray δ γ)) (old new : δ) (n : ℕ) (pick : ℕ → ℕ) : Prop :=
  List.Forall₂ (fun c c' => c'.1 = (if c.1 = old then new else c.1) ∧ CoordPicked c.2 c'.2 old new n pick)
    coords out

/-- The coordinates along other dimensions than `old`, and besides a coordinate called `new` along
`new` with the given labels. -/
def CoordsLabelled (coords out : List (δ × DataArray δ γ)) (old new : δ) (labels : List γ) : Prop :=
  ∃ rest l, out = rest ++ [(new, l)] ∧ CoordsWithout coords rest [old] ∧ new ∉ rest.map Prod.fst ∧
    l.dims = [new] ∧ l.size new = labels.length ∧
    ∀ j (h : j < labels.length), entry l (fun _ => j) = labels[j]

/-- The labels of a coordinate along `d`. -/
def labelsOf (x : Coorded δ ℤ α) (c : DataArray δ ℤ) (d : δ) : List (Option ℤ) :=
  (List.range (x.arr.size d)).map (fun i => some (entry c (fun _ => i)))

/-- The place in `index` where the sample is found that gives group `j` its label: where the group
begins, or before the place where it ends. -/
def pickPlace (last : Bool) (index start stop : List ℤ) (j : ℕ) : ℕ :=
  if last then
    if stop.getD j 0 = 0 then index.length - 1 else (stop.getD j 0 - 1).toNat
  else (start.getD j 0).toNat

/-- Sample `i` is the first one with label `g`, or the last one. -/
def EndWith (last : Bool) (labels : List (Option ℤ)) (g : ℤ) (i : ℕ) : Prop :=
  labels[i]? = some (some g) ∧
  ∀ i', labels[i']? = some (some g) → if last then i' ≤ i else i ≤ i'

/-- A sort that keeps the order of equal values. -/
def IsStableArgsort (argsort : List ℤ → List ℕ) : Prop :=
  ∀ l : List ℤ, (argsort l).Perm (List.range l.length) ∧
    (argsort l).Pairwise (fun i j => (l[i]?).getD 0 < (l[j]?).getD 0 ∨
      ((l[i]?).getD 0 = (l[j]?).getD 0 ∧ i < j))

end Cmomy.Spec
