import Verif.Model.PushCov

/-!
# The record of pushers used by the sample loops

The sample loops in `_lib/push.py`, `resample.py`, `indexed.py`, `_rolling.py` and their `_cov`
twins are textually identical except for the pusher module they import (`_push` or `_push_cov`)
and for how the weight entry is indexed (`[0]` or `[0, 0]`). They are modelled once, over this
record, and instantiated with `kernel1` and `kernel2`. The `*_parallel.py` modules contain the same text again.
-/

namespace Cmomy

/-- `K` numbers, `V` values (`x` or `(x0, x1)`), `M` moment arrays. -/
structure Kernel (K V M : Type*) where
  /-- `out[0]` / `out[0, 0]` -/
  weight : M → K
  /-- `out[...] = 0.0` -/
  zero : M
  /-- `out[0] *= f` / `out[0, 0] *= f` -/
  mulWeight : M → K → M
  /-- `_push.push_val(x, w, out)` -/
  pushVal : V → K → M → Option M
  /-- `_push.push_data(data, out)` -/
  pushData : M → M → Option M
  /-- `_push.push_data_scale(data, scale, out)` -/
  pushScale : M → K → M → Option M
  /-- one row of `utils.py:996-1026` `_vals_to_data`: zeros, then weight and averages assigned. -/
  ofVal : V → K → M

variable {K : Type*} [Field K] [DecidableEq K]

/-- `utils.py:1008-1026` with `mom_ndim = 1`: `out = zeros; out[0] = w; out[1] = x`. -/
def valToData (x w : K) : Mom K :=
  Function.update (Function.update (fun _ => 0) 0 w) 1 x

/-- `utils.py:1008-1026` with `mom_ndim = 2`. -/
def valToDataCov (x y w : K) : Com K :=
  setAt (setAt (setAt (fun _ _ => 0) 0 0 w) 1 0 x) 0 1 y

/-- One variable, `_lib/_push.py`. -/
def kernel1 (order : ℕ) : Kernel K K (Mom K) where
  weight m := m 0
  zero := fun _ => 0
  mulWeight m f := Function.update m 0 (m 0 * f)
  pushVal x w out := pushVal order x w out
  pushData data out := pushData order data out
  pushScale data s out := pushDataScale order data s out
  ofVal x w := valToData x w

/-- Two variables, `_lib/_push_cov.py`. -/
def kernel2 (order0 order1 : ℕ) : Kernel K (K × K) (Com K) where
  weight m := m 0 0
  zero := fun _ _ => 0
  mulWeight m f := setAt m 0 0 (m 0 0 * f)
  pushVal x w out := pushValCov order0 order1 x.1 x.2 w out
  pushData data out := pushDataCov order0 order1 data out
  pushScale data s out := pushDataScaleCov order0 order1 data s out
  ofVal x w := valToDataCov x.1 x.2 w

end Cmomy
