import Verif.Model.PushCov
import Verif.Model.Errors
import Mathlib.Data.Int.Notation

/-!
# Central/raw conversion and moments/comoments conversion

`_lib/convert.py`, `_lib/convert_cov.py`, `convert.py:546-897`.
Outputs are written into an array of arbitrary previous content.
-/

namespace Cmomy.Convert

open Cmomy

variable {K : Type*} [Field K]

/-- `_lib/convert.py:36-44`: the value stored in `raw[n]`; the state is `(tmp, ave_i)`. -/
def centralToRawEntry (ave : K) (central : Mom K) (n : ℕ) : K :=
  let s := (List.range (n - 1)).foldl
    (fun s i => (s.1 + central (n - i) * s.2 * binom n i, s.2 * ave)) ((0 : K), (1 : K))
  s.1 + s.2 * ave

/-- `_lib/convert.py:31-45` `central_to_raw(central, raw)`. -/
def centralToRaw (order : ℕ) (central raw : Mom K) : Mom K :=
  let ave := central 1
  let raw := Function.update raw 0 (central 0)
  let raw := Function.update raw 1 ave
  (List.range' 2 (order + 1 - 2)).foldl
    (fun raw n => Function.update raw n (centralToRawEntry ave central n)) raw

/-- `_lib/convert.py:61-69`: the value stored in `central[n]`. -/
def rawToCentralEntry (ave : K) (raw : Mom K) (n : ℕ) : K :=
  let s := (List.range (n - 1)).foldl
    (fun s i => (s.1 + raw (n - i) * s.2 * binom n i, s.2 * -ave)) ((0 : K), (1 : K))
  s.1 + ave * s.2 * ((n : K) - 1)

/-- `_lib/convert.py:56-70` `raw_to_central(raw, central)`. -/
def rawToCentral (order : ℕ) (raw central : Mom K) : Mom K :=
  let ave := raw 1
  let central := Function.update central 0 (raw 0)
  let central := Function.update central 1 ave
  (List.range' 2 (order + 1 - 2)).foldl
    (fun central n => Function.update central n (rawToCentralEntry ave raw n)) central

/-- `_lib/convert_cov.py:45-60`: innermost loop over `j`, state `(tmp, ave_j)`. -/
def centralToRawCovRow (ave1 : K) (central : Com K) (n m i : ℕ) (ave_i tmp : K) : K :=
  ((List.range (m + 1)).foldl (fun s j =>
    let nm_ij := n + m - (i + j)
    let tmp :=
      if nm_ij = 0 then s.1 + ave_i * s.2
      else if nm_ij = 1 then s.1
      else s.1 + central (n - i) (m - j) * ave_i * s.2 * binom n i * binom m j
    (tmp, s.2 * ave1)) (tmp, (1 : K))).1

/-- `_lib/convert_cov.py:35-63`: the value stored in `raw[n, m]`, state `(tmp, ave_i)`. -/
def centralToRawCovEntry (ave0 ave1 : K) (central : Com K) (n m : ℕ) : K :=
  if n + m ≤ 1 then central n m
  else
    ((List.range (n + 1)).foldl (fun s i =>
      (centralToRawCovRow ave1 central n m i s.2 s.1, s.2 * ave0)) ((0 : K), (1 : K))).1

/-- `for n in range(shape[0]): for m in range(shape[1]): out[n, m] = f(n, m)`. -/
def fillCov (o0 o1 : ℕ) (f : ℕ → ℕ → K) (out : Com K) : Com K :=
  (List.range (o0 + 1)).foldl (fun out n =>
    (List.range (o1 + 1)).foldl (fun out m => setAt out n m (f n m)) out) out

/-- `_lib/convert_cov.py:31-63` `central_to_raw(central, raw)`. -/
def centralToRawCov (o0 o1 : ℕ) (central raw : Com K) : Com K :=
  fillCov o0 o1 (centralToRawCovEntry (central 1 0) (central 0 1) central) raw

/-- `_lib/convert_cov.py:87-101`: innermost loop over `j`. -/
def rawToCentralCovRow (ave1 : K) (raw : Com K) (n m i : ℕ) (ave_i tmp : K) : K :=
  ((List.range (m + 1)).foldl (fun s j =>
    let nm_ij := n + m - (i + j)
    let tmp :=
      if nm_ij = 0 then s.1 + ave_i * s.2
      else s.1 + raw (n - i) (m - j) * ave_i * s.2 * binom n i * binom m j
    (tmp, s.2 * -ave1)) (tmp, (1 : K))).1

/-- `_lib/convert_cov.py:78-103`: the value stored in `central[n, m]`. -/
def rawToCentralCovEntry (ave0 ave1 : K) (raw : Com K) (n m : ℕ) : K :=
  if n + m ≤ 1 then raw n m
  else
    ((List.range (n + 1)).foldl (fun s i =>
      (rawToCentralCovRow ave1 raw n m i s.2 s.1, s.2 * -ave0)) ((0 : K), (1 : K))).1

/-- `_lib/convert_cov.py:74-103` `raw_to_central(raw, central)`. -/
def rawToCentralCov (o0 o1 : ℕ) (raw central : Com K) : Com K :=
  fillCov o0 o1 (rawToCentralCovEntry (raw 1 0) (raw 0 1) raw) central

/-- `convert.py:548-567` `_validate_mom_moments_to_comoments(mom, mom_orig)`. A non-sequence
argument is not modelled. -/
def validateMom (mom : List ℤ) (momOrig : ℤ) : Py (ℤ × ℤ) :=
  match mom with
  | [m0, m1] =>
    let out := if m0 < 0 then (momOrig - m1, m1)
      else if m1 < 0 then (m0, momOrig - m0)
      else (m0, m1)
    if out.1 < 1 ∨ out.2 < 1 ∨ out.1 + out.2 > momOrig then .error .valueError
    else .ok out
  | _ => .error .valueError

/-- `convert.py:735-750` `moments_to_comoments` for one value position, with the resolved `mom`. -/
def momentsToComoments (m0 m1 : ℕ) (data : Mom K) (out : Com K) : Com K :=
  fillCov m0 m1 (fun i j => data (i + j)) out

/-- `np.ndindex(n0, n1)`: row-major pairs. -/
def ndindex (n0 n1 : ℕ) : List (ℕ × ℕ) :=
  (List.range n0).flatMap (fun i => (List.range n1).map (fun j => (i, j)))

/-- `convert.py:884-897` `comoments_to_moments` for one value position; the state is
`(sampled, out)`, `out` starting from uninitialised memory. -/
def comomentsToMoments (o0 o1 : ℕ) (data : Com K) (out : Mom K) : Mom K :=
  ((ndindex (o0 + 1) (o1 + 1)).foldl (fun (s : (ℕ → Bool) × Mom K) p =>
    let k := p.1 + p.2
    if !s.1 k then (Function.update s.1 k true, Function.update s.2 k (data p.1 p.2)) else s)
    ((fun _ => false), out)).2

end Cmomy.Convert
