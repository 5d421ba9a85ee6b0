import Mathlib.Data.List.Basic

/-!
# Specification vocabulary: draws
-/

namespace Cmomy.Spec

/-- Sample `k` repeated `fs[k]` times, in order: what a frequency row means. -/
def drawn {α : Type*} (fs : List ℕ) (data : List α) : List α :=
  (fs.zip data).flatMap (fun p => List.replicate p.1 p.2)

/-- `data[i]` for every listed index (indices beyond the data are dropped). -/
def takeAt {α : Type*} (data : List α) (idx : List ℕ) : List α :=
  idx.filterMap (fun i => data[i]?)

/-- How often each of `0 .. n-1` occurs. -/
def counts (n : ℕ) (idx : List ℕ) : List ℕ := (List.range n).map (fun k => idx.count k)

/-- Position `k` listed `fs[k]` times, in increasing order. -/
def positions (fs : List ℕ) : List ℕ := drawn fs (List.range fs.length)

end Cmomy.Spec
