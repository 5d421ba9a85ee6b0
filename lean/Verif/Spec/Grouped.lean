import Mathlib.Data.List.Basic
import Mathlib.Data.Int.Notation
import Mathlib.Algebra.Order.Ring.Int

/-!
# Specification vocabulary: groups, selections, sorting permutations
-/

namespace Cmomy.Spec

/-- The samples labelled `g`, in order. -/
def groupRows {α : Type*} (g : ℤ) (labels : List ℤ) (data : List α) : List α :=
  (labels.zip data).filterMap (fun p => if p.1 = g then some p.2 else none)

/-- The samples with a non-negative label, in order. -/
def keptRows {α : Type*} (labels : List ℤ) (data : List α) : List α :=
  (labels.zip data).filterMap (fun p => if 0 ≤ p.1 then some p.2 else none)

/-- `l[a:b]`. -/
def slice {α : Type*} (l : List α) (a b : ℕ) : List α := (l.take b).drop a

/-- The samples picked by `index[a:b]`. -/
def selectRows {α : Type*} (data : List α) (index : List ℤ) (a b : ℤ) : List α :=
  (slice index a.toNat b.toNat).filterMap (fun i => data[i.toNat]?)

/-- The samples picked by `index[a:b]`, each with its entry of `scale`. -/
def selectScaled {α K : Type*} (data : List α) (index : List ℤ) (scale : List K) (a b : ℤ) :
    List (K × α) :=
  (slice (index.zip scale) a.toNat b.toNat).filterMap
    (fun p => (data[p.1.toNat]?).map (fun d => (p.2, d)))

/-- What `np.argsort` promises whatever algorithm it uses: a permutation of the positions along
which the values do not decrease. -/
def IsArgsort (argsort : List ℤ → List ℕ) : Prop :=
  ∀ l : List ℤ, (argsort l).Perm (List.range l.length) ∧
    ((argsort l).map (fun i => (l[i]?).getD 0)).Pairwise (· ≤ ·)

/-- Positions `i` with `p l[i]`, in increasing order. -/
def positionsWhere {α : Type*} (p : α → Bool) (l : List α) : List ℕ :=
  (List.range l.length).filter (fun i => (l[i]?).any p)

/-- The samples a block reduction uses: dropping modes lose the remainder at one end. -/
def blockKept {α : Type*} (dropFirst dropLast : Bool) (block : ℕ) (data : List α) : List α :=
  if dropFirst then data.drop (data.length % block)
  else if dropLast then data.take (data.length / block * block)
  else data

end Cmomy.Spec
