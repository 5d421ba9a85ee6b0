import Verif.Model.Sampler
import Verif.Spec.Freq

/-!
# Specification vocabulary: samplers
-/

namespace Cmomy.Spec

open Sampler

/-- The two tables describe the same draw: row by row, position `k` was drawn as often as the
frequency says. A negative index counts from the end, as in Python. -/
def SameDraw (i : IdxTab) (f : FreqTab) : Prop :=
  List.Forall₂ (fun r c => (∀ x ∈ r, -(f.ndat : ℤ) ≤ x ∧ x < f.ndat) ∧
    c = counts f.ndat (r.map (fun x => (x % (f.ndat : ℤ)).toNat))) i.rows f.rows

/-- All rows of a table have the table's width. -/
def IdxShape (i : IdxTab) : Prop := ∀ r ∈ i.rows, r.length = i.nsamp

/-- All rows of a table have the table's width. -/
def FreqShape (f : FreqTab) : Prop := ∀ r ∈ f.rows, r.length = f.ndat

/-- `shuffle` rearranges columns. -/
def GoodOrder (e : Env) : Prop := ∀ n, (e.order n).Perm (List.range n)

/-- What `choice` promises when it does not fail. -/
def GoodChoice (e : Env) : Prop := ∀ ndat nrep nsamp replace,
  (e.choice ndat nrep nsamp replace).length = nrep ∧
  (∀ r ∈ e.choice ndat nrep nsamp replace, r.length = nsamp ∧ (0 < ndat → ∀ x ∈ r, x < ndat)) ∧
  (replace = false → nrep * nsamp ≤ ndat → (e.choice ndat nrep nsamp replace).flatten.Nodup)

/-- At most one table was given, and it is a table. -/
def OneTable (indices : Option IdxTab) (freq : Option FreqTab) : Prop :=
  (indices = none ∨ freq = none) ∧ (∀ i, indices = some i → IdxShape i) ∧
    (∀ f, freq = some f → FreqShape f)

end Cmomy.Spec
