import Verif.Model.Errors
import Mathlib.Data.List.Basic
import Mathlib.Data.Int.Notation

/-!
# Frequency tables and index tables

`_lib/resample.py:30-47` and `resample/sampler.py:699-861`.
Frequencies are natural numbers (the code accepts any int64; negative frequencies are outside the
model). Indices are integers, since the code lets negative ones through.
-/

namespace Cmomy.Freq

/-- numpy slice assignment `arr[a:b] = v` for `0 ≤ a ≤ b`; out-of-range parts are clipped. -/
def sliceAssign (arr : List ℕ) (a b v : ℕ) : List ℕ :=
  arr.mapIdx (fun i old => if a ≤ i ∧ i < b then v else old)

/-- `_lib/resample.py:30-35` `freq_to_indices`, from loop variable `d` with running `count`. -/
def freqToIndicesGo : List ℕ → ℕ → ℕ → List ℕ → List ℕ
  | [], _, _, out => out
  | f :: fs, d, count, out =>
    freqToIndicesGo fs (d + 1) (count + f) (sliceAssign out count (count + f) d)

/-- `_lib/resample.py:30-35` `freq_to_indices(freq, indices)`, one row. -/
def freqToIndicesRow (freq indices : List ℕ) : List ℕ := freqToIndicesGo freq 0 0 indices

/-- `resample/sampler.py:735-758` `freq_to_indices` with `shuffle=False`. `junk r i` is the
uninitialised memory of `np.empty`. -/
def freqToIndices (junk : ℕ → ℕ → ℕ) (freq : List (List ℕ)) : Py (List (List ℕ)) :=
  let nsamps := freq.map List.sum
  match nsamps with
  | [] => .error .indexError
  | nsamp :: _ =>
    if nsamps.any (fun n => n ≠ nsamp) then .error .valueError
    else .ok (freq.mapIdx (fun r f => freqToIndicesRow f ((List.range nsamp).map (junk r))))

/-- Array index `i` into an axis of length `n`, negative indices counting from the end; anything
else is an unchecked out-of-bounds access in compiled code. -/
def wrapIndex (n : ℕ) (i : ℤ) : Option ℕ :=
  if 0 ≤ i ∧ i < n then some i.toNat
  else if -(n : ℤ) ≤ i ∧ i < 0 then some (i + n).toNat
  else none

/-- `_lib/resample.py:45-47` `indices_to_freq(indices, freq)`, one row. -/
def indicesToFreqRow : List ℤ → List ℕ → Option (List ℕ)
  | [], freq => some freq
  | i :: is, freq =>
    match wrapIndex freq.length i with
    | none => none
    | some j => indicesToFreqRow is (freq.modify j (· + 1))

/-- All rows or nothing. -/
def rows {α β : Type} (f : α → Option β) : List α → Option (List β)
  | [] => some []
  | a :: as =>
    match f a, rows f as with
    | some b, some bs => some (b :: bs)
    | _, _ => none

/-- `resample/sampler.py:800-817` `indices_to_freq`, plain-array branch. `nsamp` is
`indices.shape[1]`. `indices.max()` of an empty array raises `ValueError`. -/
def indicesToFreq (indices : List (List ℤ)) (nsamp : ℕ) (ndat? : Option ℕ) :
    Py (List (List ℕ)) :=
  let ndat := ndat?.getD nsamp
  if indices.flatten = [] then .error .valueError
  else if indices.flatten.any (fun i => (ndat : ℤ) ≤ i) then .error .valueError
  else
    match rows (fun r => indicesToFreqRow r (List.replicate ndat 0)) indices with
    | none => .error .undefined
    | some f => .ok f

/-- `resample/sampler.py:822-861` `jackknife_freq(ndat)`: ones, then zeros on the diagonal. -/
def jackknifeFreq (ndat : ℕ) : List (List ℕ) :=
  (List.range ndat).map (fun r => (List.range ndat).map (fun c => if c = r then 0 else 1))

end Cmomy.Freq
