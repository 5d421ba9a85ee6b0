import Verif.Model.Kernel

/-!
# Sample loops: reduce, cumulative, resample, jackknife

`/repo/src/cmomy/_lib/push.py`, `push_cov.py`, `resample.py`, `resample_cov.py`.
A sample axis is a `List`. `none` is "divided by zero": nothing is claimed about the numbers.
-/

namespace Cmomy.Kernel

variable {K V M : Type*} [Field K] [DecidableEq K] (k : Kernel K V M)

/-- `push.py:45-51`, `push_cov.py:46-53` `reduce_vals(out, x, w)`; samples are `(value, weight)`. -/
def reduceVals (xs : List (V × K)) (out : M) : Option M :=
  xs.foldlM (fun o p => k.pushVal p.1 p.2 o) out

/-- `reduction.py:283-328` `_reduce_vals`: `out.fill(0.0)` then the kernel. -/
def reduceValsFromZero (xs : List (V × K)) : Option M := k.reduceVals xs k.zero

/-- `push.py:72-74`, `push_cov.py:74-76` `reduce_data(data, out)`. -/
def reduceData (data : List M) (out : M) : Option M :=
  data.foldlM (fun o d => k.pushData d o) out

/-- `push.py:96-102`, `push_cov.py:98-101` `reduce_data_fromzero(data)`. -/
def reduceDataFromZero (data : List M) : Option M := k.reduceData data k.zero

/-- Rows `1..` of `cumulative`, given row `i-1` of the output. -/
def cumulativeGo (prev : M) : List M → Option (List M)
  | [] => some []
  | d :: ds => do
    let r ← k.pushData prev d
    let rs ← cumulativeGo r ds
    return r :: rs

/-- `push.py:113-119`, `push_cov.py:112-118` `cumulative`: `out = data`, then
`push_data(out[i-1], out[i])` for `i = 1, 2, ...`. One division by zero makes the result `none`. -/
def cumulative : List M → Option (List M)
  | [] => some []
  | d :: ds => do
    let rs ← k.cumulativeGo d ds
    return d :: rs

/-- Rows `1..` of `cumulative_inverse`, given row `i-1` of the *input*. -/
def cumulativeInverseGo (prev : M) : List M → Option (List M)
  | [] => some []
  | d :: ds => do
    let r ← k.pushScale prev (-1) d
    let rs ← cumulativeInverseGo d ds
    return r :: rs

/-- `push.py:130-136`, `push_cov.py:129-135` `cumulative_inverse`: `out = data`, then
`push_data_scale(data[i-1], -1.0, out[i])`. -/
def cumulativeInverse : List M → Option (List M)
  | [] => some []
  | d :: ds => do
    let rs ← k.cumulativeInverseGo d ds
    return d :: rs

/-- Second loop of `resample_data_fromzero` for one replicate, `resample.py:76-79`. -/
def resampleRest (fd : List (K × M)) (out : M) : Option M :=
  fd.foldlM (fun o p => if p.1 ≠ 0 then k.pushScale p.2 p.1 o else some o) out

/-- `resample.py:58-79`, `resample_cov.py:30-51` `resample_data_fromzero`, one replicate `irep`;
the argument pairs `freq[irep, isamp]` with `data[isamp]`. -/
def resampleDataRow : List (K × M) → Option M
  | [] => some k.zero
  | (f, d) :: rest =>
    if f ≠ 0 then k.resampleRest rest (k.mulWeight d f)
    else resampleDataRow rest

/-- `resample_data_fromzero`, all replicates. -/
def resampleData (freq : List (List K)) (data : List M) : List (Option M) :=
  freq.map (fun fs => k.resampleDataRow (fs.zip data))

/-- `resample.py:100-111`, `resample_cov.py:74-86` `resample_vals`, one replicate, starting from
`out[irep]`. -/
def resampleValsRow (fx : List (K × V × K)) (out : M) : Option M :=
  fx.foldlM (fun o p => if p.1 = 0 then some o else k.pushVal p.2.1 (p.2.2 * p.1) o) out

/-- `resample/resample.py:578-627` `_resample_vals`: `out.fill(0.0)` then the kernel. -/
def resampleVals (freq : List (List K)) (xs : List (V × K)) : List (Option M) :=
  freq.map (fun fs => k.resampleValsRow (fs.zip xs) k.zero)

/-- `resample.py:126-136`, `resample_cov.py:101-109` `jackknife_data_fromzero`. -/
def jackknifeDataKernel (reduced : M) (data : List M) : List (Option M) :=
  data.map (fun d => k.pushScale d (-1) reduced)

/-- `resample.py:147-157`, `resample_cov.py:132-143` `jackknife_vals_fromzero`. -/
def jackknifeValsKernel (reduced : M) (xs : List (V × K)) : List (Option M) :=
  xs.map (fun p => k.pushVal p.1 (-p.2) reduced)

/-- `resample/resample.py:685-950` with `data_reduced=None`: reduce, then subtract each row.
`none` when the reduction itself divides by zero. -/
def jackknifeData (data : List M) : Option (List (Option M)) := do
  let reduced ← k.reduceDataFromZero data
  return k.jackknifeDataKernel reduced data

/-- `resample/resample.py:1013-1245` with `data_reduced=None`. -/
def jackknifeVals (xs : List (V × K)) : Option (List (Option M)) := do
  let reduced ← k.reduceValsFromZero xs
  return k.jackknifeValsKernel reduced xs

end Cmomy.Kernel
