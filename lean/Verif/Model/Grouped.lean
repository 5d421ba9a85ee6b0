import Verif.Model.Loops
import Verif.Model.Errors
import Mathlib.Data.Int.Notation
import Mathlib.Algebra.Order.Ring.Int
import Mathlib.Data.List.Sort

/-!
# Grouped and indexed reduction, block labels, factorisation

`_lib/indexed.py`, `indexed_cov.py`, `_lib/utils.py:22-51`, `reduction.py:652-1630`.
Output rows are `Option M`: `none` once a division by zero has hit that row.
-/

namespace Cmomy

namespace Kernel

variable {K V M : Type*} [Field K] [DecidableEq K] (k : Kernel K V M)

/-- Loop body of `_lib/indexed.py:43-47`, `indexed_cov.py:44-48`:
`if group >= 0: push_data(data[s], out[group, :])`. -/
def groupedStep (out : List (Option M)) (p : ℤ × M) : List (Option M) :=
  if 0 ≤ p.1 then out.modify p.1.toNat (fun o => o.bind (k.pushData p.2)) else out

/-- `_lib/indexed.py:38-47`, `indexed_cov.py:39-48` `reduce_data_grouped(data, group_idx, out)`.
`group_idx.max()` of an empty array raises `ValueError`. `data` and `group_idx` share the gufunc
dimension `sample`, so they have the same length. -/
def groupedKernel (data : List M) (by_ : List ℤ) (out : List (Option M)) :
    Py (List (Option M)) :=
  match by_.max? with
  | none => .error .valueError
  | some m =>
    if m < out.length then .ok ((by_.zip data).foldl k.groupedStep out)
    else .error .assertion

/-- `reduction.py:1051-1097` `_reduce_data_grouped`. `nout` is the number of rows of a passed
`out` array (its contents are overwritten by `out.fill(0.0)`), `none` when `out` is not given and
`by.max() + 1` rows are allocated; allocating a negative number of rows is a `ValueError`. -/
def reduceDataGrouped (data : List M) (by_ : List ℤ) (nout : Option ℕ) :
    Py (List (Option M)) :=
  if by_.length ≠ data.length then .error .valueError
  else
    match nout with
    | some n => k.groupedKernel data by_ (List.replicate n (some k.zero))
    | none =>
      match by_.max? with
      | none => .error .valueError
      | some m =>
        if m + 1 < 0 then .error .valueError
        else k.groupedKernel data by_ (List.replicate (m + 1).toNat (some k.zero))

end Kernel

namespace Indexed

/-- Read `arr[i]` in compiled code, without a bounds check: anything outside `0 ≤ i < len` is
`undefined` (compiled code would also wrap negative indices; validation never lets them through,
so the model does not distinguish them). -/
def readAt {α : Type*} (arr : List α) (i : ℤ) : Py α :=
  if 0 ≤ i then
    match arr[i.toNat]? with
    | some a => .ok a
    | none => .error .undefined
  else .error .undefined

section

variable {K V M : Type*} [Field K] [DecidableEq K] (k : Kernel K V M)

/-- Loop body of `_lib/indexed.py:91-94`, `indexed_cov.py:92-95`. -/
def rowStep (data : List M) (index : List ℤ) (scale : List K) (o : Option M) (i : ℤ) :
    Py (Option M) :=
  (readAt index i).bind fun s =>
  (readAt scale i).bind fun f =>
  (readAt data s).bind fun d =>
  .ok (o.bind (k.pushScale d f))

/-- `_lib/indexed.py:72-96`, `indexed_cov.py:73-97` `reduce_data_indexed_fromzero`, one group. -/
def row (data : List M) (index : List ℤ) (scale : List K) (start stop : ℤ) : Py (Option M) :=
  if start < stop then
    (readAt index start).bind fun s =>
    (readAt scale start).bind fun f =>
    (readAt data s).bind fun d =>
    (List.range (stop - (start + 1)).toNat).foldlM
      (fun o (j : ℕ) => rowStep k data index scale o (start + 1 + j)) (some (k.mulWeight d f))
  else .ok (some k.zero)

/-- `_lib/indexed.py:72-96` over all groups. -/
def kernel (data : List M) (index : List ℤ) (scale : List K) (start stop : List ℤ) :
    Py (List (Option M)) :=
  (start.zip stop).mapM (fun p => row k data index scale p.1 p.2)

end

/-- Inner `_validate` of `reduction.py:1187-1195`: `.min()`/`.max()` of an empty array raise
`ValueError`. -/
def validateRange (xs : List ℤ) (upper : ℤ) : Py Unit :=
  match xs.min?, xs.max? with
  | some lo, some hi =>
    if lo < 0 then .error .valueError
    else if upper ≤ hi then .error .valueError
    else .ok ()
  | _, _ => .error .valueError

/-- `reduction.py:1181-1222` `_validate_index`. -/
def validateIndex (ndat : ℕ) (index start stop : List ℤ) : Py Unit :=
  (if index.length = 0 then
    if start.any (· ≠ 0) || stop.any (· ≠ 0) then .error .valueError else .ok ()
  else
    (validateRange index ndat).bind fun _ =>
    (validateRange start index.length).bind fun _ =>
    validateRange stop (index.length + 1)).bind fun _ =>
  if start.length ≠ stop.length then .error .valueError
  else if (start.zip stop).any (fun p => p.2 < p.1) then .error .valueError
  else .ok ()

/-- `reduction.py:1380-1563` `reduce_data_indexed`: validate, default or check `scale`, run the
kernel. -/
def reduceDataIndexed {K V M : Type*} [Field K] [DecidableEq K] (k : Kernel K V M)
    (data : List M) (index start stop : List ℤ) (scale : Option (List K)) :
    Py (List (Option M)) :=
  (validateIndex data.length index start stop).bind fun _ =>
  match scale with
  | none => kernel k data index (List.replicate index.length 1) start stop
  | some sc =>
    if sc.length ≠ index.length then .error .valueError
    else kernel k data index sc start stop

/-- State of the loops in `freq_to_index_start_end_scales`. -/
structure FreqState where
  index : List ℤ
  scale : List ℤ
  idx : ℕ
deriving DecidableEq

/-- `_lib/utils.py:41-48`, inner loop over `k`, from position `d`. -/
def freqRow : List ℤ → ℕ → FreqState → FreqState
  | [], _, s => s
  | f :: fs, d, s =>
    freqRow fs (d + 1)
      (if 0 < f then ⟨s.index.set s.idx d, s.scale.set s.idx f, s.idx + 1⟩ else s)

/-- `_lib/utils.py:38-49`, outer loop; returns `start`, `end` and the final state. The code's
`count` is the number of entries written in this row, i.e. the advance of `idx`. -/
def freqRows : List (List ℤ) → FreqState → List ℤ × List ℤ × FreqState
  | [], s => ([], [], s)
  | r :: rs, s =>
    let s' := freqRow r 0 s
    let rest := freqRows rs s'
    ((s.idx : ℤ) :: rest.1, ((s.idx : ℤ) + ((s'.idx - s.idx : ℕ) : ℤ)) :: rest.2.1, rest.2.2)

/-- `_lib/utils.py:22-51` `freq_to_index_start_end_scales`; returns `(index, start, end, scale)`.
`junkI`, `junkS` are the uninitialised contents of `np.empty`. -/
def freqToIndexed (junkI junkS : ℕ → ℤ) (freq : List (List ℤ)) :
    List ℤ × List ℤ × List ℤ × List ℤ :=
  let size := (freq.map (fun r => r.countP (· ≠ 0))).sum
  let s : FreqState := ⟨(List.range size).map junkI, (List.range size).map junkS, 0⟩
  let r := freqRows freq s
  (r.2.2.index, r.1, r.2.1, r.2.2.scale)

/-- `reduction.py:1567-1628` `resample_data_indexed`, for a sampler whose table is `freq`. -/
def resampleDataIndexed {K V M : Type*} [Field K] [DecidableEq K] (k : Kernel K V M)
    (junkI junkS : ℕ → ℤ) (freq : List (List ℤ)) (data : List M) : Py (List (Option M)) :=
  let t := freqToIndexed junkI junkS freq
  reduceDataIndexed k data t.1 t.2.1 t.2.2.1 (some (t.2.2.2.map (fun z : ℤ => (z : K))))

end Indexed

namespace Block

/-- The `mode` argument of `block_by`; `unknown` is any other string. -/
inductive Mode
  | dropFirst
  | dropLast
  | expandFirst
  | expandLast
  | unknown
deriving DecidableEq, Repr

/-- `np.arange(nblock).repeat(block)`. -/
def arangeRepeat (nblock block : ℕ) : List ℤ :=
  (List.range nblock).flatMap (fun (b : ℕ) => List.replicate block (b : ℤ))

/-- `np.pad(by, pad_width, mode="edge")`; not called on an empty array (`0 < block < ndat` gives at least one block). -/
def padEdge (xs : List ℤ) (before after : ℕ) : List ℤ :=
  List.replicate before (xs.headD 0) ++ xs ++ List.replicate after (xs.getLastD 0)

/-- `np.pad(by, pad_width, mode="constant", constant_values=-1)`. -/
def padConst (xs : List ℤ) (before after : ℕ) : List ℤ :=
  List.replicate before (-1) ++ xs ++ List.replicate after (-1)

/-- `reduction.py:697-718` `block_by(ndat, block, mode)`. -/
def blockBy (ndat : ℕ) (block : ℤ) (mode : Mode) : Py (List ℤ) :=
  if block ≤ 0 ∨ block = ndat then .ok (List.replicate ndat 0)
  else if (ndat : ℤ) < block then .error .valueError
  else if mode = .unknown then .error .valueError
  else
    let nblock := (ndat : ℤ) / block
    let by_ := arangeRepeat nblock.toNat block.toNat
    if by_.length = ndat then .ok by_
    else
      let shift := ndat - by_.length
      let pad : ℕ × ℕ :=
        if mode = .dropFirst ∨ mode = .expandFirst then (shift, 0) else (0, shift)
      if mode = .dropFirst ∨ mode = .dropLast then .ok (padConst by_ pad.1 pad.2)
      else .ok (padEdge by_ pad.1 pad.2)

end Block

namespace Factor

/-- `reduction.py:786-790`: `None` if negative, for sequences of integers and `None`; this is the
branch for anything that is not a `pd.Index`. -/
def dropNegative (xs : List (Option ℤ)) : List (Option ℤ) :=
  xs.map (fun x => x.bind (fun z => if z < 0 then none else some z))

/-- Distinct values in order of first appearance. -/
def firstSeen {α : Type*} [DecidableEq α] : List α → List α
  | [] => []
  | a :: as => a :: (firstSeen as).filter (· ≠ a)

/-- Code of one entry: `-1` when missing, else the position of the value among the groups. -/
def codeOf {α : Type*} [DecidableEq α] (groups : List α) : Option α → ℤ
  | none => -1
  | some a => (groups.idxOf a : ℤ)

/-- Contract of `pandas.factorize(xs, sort=...)`: distinct non-missing values, sorted or in
order of first appearance; the code of a value is its position, `-1` for missing values. -/
def factorize {α : Type*} [LinearOrder α] (sort : Bool) (xs : List (Option α)) :
    List ℤ × List α :=
  let seen := firstSeen (xs.filterMap id)
  let groups := if sort then seen.insertionSort (· ≤ ·) else seen
  (xs.map (codeOf groups), groups)

/-- `reduction.py:721-805` `factor_by` for integer labels; returns `(groups, codes)`.
`isIndex`: a `pd.Index` keeps its negative labels. -/
def factorBy (sort isIndex : Bool) (xs : List (Option ℤ)) : List ℤ × List ℤ :=
  let r := factorize sort (if isIndex then xs else dropNegative xs)
  (r.2, r.1)

/-- `np.where(keep)[0]` for `keep = codes >= 0`. -/
def keptPositions (codes : List ℤ) : List ℕ :=
  (List.range codes.length).filter (fun i => 0 ≤ (codes[i]?).getD (-1))

/-- `np.unique(sorted, return_index=True, return_counts=True)`: for each distinct value in
increasing order its first position and its number of occurrences. -/
def uniqueStartCount (sorted : List ℤ) : List (ℕ × ℕ) :=
  ((firstSeen sorted).insertionSort (· ≤ ·)).map (fun v => (sorted.idxOf v, sorted.count v))

/-- `reduction.py:1156-1178`, the part of `factor_by_to_index` after `factor_by`; `argsort` is
`np.argsort`. Returns `(index, start, end)`. -/
def codesToIndex (argsort : List ℤ → List ℕ) (codes : List ℤ) :
    List ℕ × List ℕ × List ℕ :=
  let keep := keptPositions codes
  let all := codes.all (fun c => 0 ≤ c)
  let kcodes := if all then codes else codes.filter (fun c => 0 ≤ c)
  let perm := argsort kcodes
  let sorted := perm.map (fun i => (kcodes[i]?).getD 0)
  let u := uniqueStartCount sorted
  let index := if all then perm else perm.map (fun i => (keep[i]?).getD 0)
  (index, u.map (fun p => p.1), u.map (fun p => p.1 + p.2))

/-- `reduction.py:1103-1178` `factor_by_to_index` for integer labels. -/
def factorByToIndex (argsort : List ℤ → List ℕ) (isIndex : Bool) (xs : List (Option ℤ)) :
    List ℤ × List ℕ × List ℕ × List ℕ :=
  let r := factorBy true isIndex xs
  (r.1, codesToIndex argsort r.2)

end Factor

end Cmomy
