import Verif.Model.Loops

/-!
# Merging separately reduced chunks

How user code combines partial results: each chunk is reduced from zeros
(`reduction.py:563-647` `_reduce_data`), partial results are merged with `push_data`
(`wrapper/wrap_np.py:364-412`, or `+`, `wrapper/wrap_abc.py:499-502`).
-/

namespace Cmomy

/-- A way of chunking and merging. `node l r` computes `r.push_data(l)`. -/
inductive MergeTree (M : Type*) where
  | leaf (chunk : List M)
  | node (l r : MergeTree M)

/-- All records below a node. -/
def MergeTree.records {M : Type*} : MergeTree M → List M
  | .leaf c => c
  | .node l r => l.records ++ r.records

variable {K V M : Type*} [Field K] [DecidableEq K]

/-- Evaluate: leaves by `reduce_data_fromzero` (`push.py:96-102`), nodes by `push_data`
(`push.py:61-62`). -/
def Kernel.evalTree (k : Kernel K V M) : MergeTree M → Option M
  | .leaf c => k.reduceDataFromZero c
  | .node l r => do
    let a ← k.evalTree l
    let b ← k.evalTree r
    k.pushData a b

end Cmomy
