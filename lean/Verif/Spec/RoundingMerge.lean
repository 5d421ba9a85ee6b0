import Verif.Spec.RoundingError
import Verif.Model.Tree

/-!
# Specification for the errors of merged records
-/

namespace Cmomy.Spec

variable {K : Type*} [Field K]

/-- The greatest number of pushes that follow each other: those within a chunk, and one for every merge above it. -/
def mergeDepth {M : Type*} : MergeTree M → ℕ
  | .leaf c => c.length
  | .node l r => max (mergeDepth l) (mergeDepth r) + 1

/-- Chunks of at most `c` records, below at most `k` levels of merges. -/
inductive MergeLevels {M : Type*} (c : ℕ) : ℕ → MergeTree M → Prop
  | leaf {k : ℕ} {l : List M} : l.length ≤ c → MergeLevels c k (.leaf l)
  | node {k : ℕ} {l r : MergeTree M} : MergeLevels c k l → MergeLevels c k r → MergeLevels c (k + 1) (.node l r)

/-- The same merges of other records. -/
def mapTree {M N : Type*} (f : M → N) : MergeTree M → MergeTree N
  | .leaf c => .leaf (c.map f)
  | .node l r => .node (mapTree f l) (mapTree f r)

/-- A sample as a record. -/
def sampleRecord (s : Sample K) : Record K := ⟨s.w, s.x, 0⟩

variable [LinearOrder K] [IsStrictOrderedRing K]

/-- A record of samples between `-B` and `B`: a weight that can be stored, a variance that is not negative, and a mean
square of at most `B ^ 2`. -/
structure Bounded (R : Precision K) (B : K) (m : Mom K) : Prop where
  weight : IsWeight R (m 0)
  var : 0 ≤ m 2
  square : m 2 + m 1 ^ 2 ≤ B ^ 2

/-- Weight, average and variance of `m` are those of the records, up to `n` roundings of each kind. -/
structure MergeOf (u B : K) (order n : ℕ) (L : List (Record K)) (m : Mom K) : Prop where
  weight : |m 0 - recWeight L| ≤ 4 * (n * u) * recWeight L
  mean : recWeight L ≠ 0 → |m 1 - recMean L| ≤ 80 * (n * u) * B
  var : recWeight L ≠ 0 → order ≠ 1 → |m 2 - recVar L| ≤ 1800 * (n * u) * B ^ 2

end Cmomy.Spec
