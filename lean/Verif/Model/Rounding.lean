import Verif.Model.Rolling

/-!
# The kernels in rounded arithmetic

`_lib/_push.py` and `_lib/_push_cov.py` once more, now with every operation followed by a rounding, in the
order of the source, and the places of the sample loops that compute with numbers themselves
(`_lib/resample.py`, `_lib/_rolling.py`). Numbers are elements of an ordered field, of which the
floating point numbers are those which the rounding leaves alone.

There are two roundings: `lo` for the type of the arrays and `hi` for double precision. In the kernels for
`float32`, literals such as `1.0` and the table `BINOMIAL_FACTOR` are double precision, and so is every
result computed from them, until it is stored; for `float64` both are the same rounding.

Not modelled: overflow, nan, and `fastmath=True` (the default of `options.py:28`), with which the compiler may
change the order of the operations. As before, dividing by zero gives `none`.
-/

namespace Cmomy

variable {K : Type*} [Field K] [DecidableEq K]

/-- The rounding of the type of the arrays, and of double precision. -/
structure Precision (K : Type*) where
  lo : K → K
  hi : K → K

namespace Precision

/-- No rounding. -/
def exact : Precision K := ⟨id, id⟩

variable (R : Precision K)

/-- `_binomial.py:27-34` `BINOMIAL_FACTOR[n, k]` -/
def factor (n k : ℕ) : K := R.hi (binom n k)

/-- `_push.py:53-63` Body of `for b in range(a - 1)` in `push_val`. -/
def pushValInner (a : ℕ) (delta alpha one_alpha : K) (out : Mom K) (s : PAcc K) (b : ℕ) : PAcc K :=
  let c := a - b
  { tmp := R.hi (s.tmp + R.hi (R.hi (R.factor a b * s.delta_b)
      * R.hi (R.hi (R.hi (s.minus_b * s.alpha_b) * one_alpha) * out c)))
    delta_b := R.hi (s.delta_b * delta)
    alpha_b := R.hi (s.alpha_b * alpha)
    one_alpha_b := R.hi (s.one_alpha_b * one_alpha)
    minus_b := R.hi (s.minus_b * (-1)) }

/-- `_push.py:65`, `_push.py:122` Last term, and the sum. -/
def pushLast (delta alpha one_alpha : K) (s : PAcc K) : K :=
  R.hi (s.tmp + R.hi (R.hi (R.hi (R.lo (delta * alpha) * one_alpha) * s.delta_b)
    * R.hi (R.hi (-s.minus_b * s.alpha_b) + s.one_alpha_b)))

/-- `_push.py:46-67` Value stored in `out[a]` by `push_val`. -/
def pushValTmp (a : ℕ) (delta alpha one_alpha : K) (out : Mom K) : K :=
  R.lo (R.pushLast delta alpha one_alpha
    ((List.range (a - 1)).foldl (R.pushValInner a delta alpha one_alpha out) PAcc.init))

/-- `_push.py:28-69` `push_val(x, w, out)` -/
def pushVal (order : ℕ) (x w : K) (out : Mom K) : Option (Mom K) :=
  if w = 0 then some out
  else
    let out := Function.update out 0 (R.lo (out 0 + w))
    if out 0 = 0 then none
    else
      let alpha := R.lo (w / out 0)
      let one_alpha := R.hi (1 - alpha)
      let delta := R.lo (x - out 1)
      let incr := R.lo (delta * alpha)
      let out := Function.update out 1 (R.lo (out 1 + incr))
      if order = 1 then some out
      else
        let out := (rangeDown order 2).foldl
          (fun out a => Function.update out a (R.pushValTmp a delta alpha one_alpha out)) out
        some (Function.update out 2 (R.lo (R.hi (one_alpha * R.lo (out 2 + R.lo (delta * incr))))))

/-- `_push.py:107-120` Body of `for b in range(a1 - 1)` in `push_data`. -/
def pushDataInner (a : ℕ) (delta alpha one_alpha : K) (data out : Mom K) (s : PAcc K) (b : ℕ) :
    PAcc K :=
  let c := a - b
  { tmp := R.hi (s.tmp + R.hi (R.hi (R.factor a b * s.delta_b)
      * R.hi (R.hi (R.hi (R.hi (s.minus_b * s.alpha_b) * one_alpha) * out c)
          + R.hi (R.hi (s.one_alpha_b * alpha) * data c))))
    delta_b := R.hi (s.delta_b * delta)
    alpha_b := R.hi (s.alpha_b * alpha)
    one_alpha_b := R.hi (s.one_alpha_b * one_alpha)
    minus_b := R.hi (s.minus_b * (-1)) }

/-- `_push.py:101-123` Value stored in `out[a1]` (identical text `156-179`). -/
def pushDataTmp (a : ℕ) (delta alpha one_alpha : K) (data out : Mom K) : K :=
  R.lo (R.pushLast delta alpha one_alpha
    ((List.range (a - 1)).foldl (R.pushDataInner a delta alpha one_alpha data out) PAcc.init))

/-- The common text of `push_data` (`_push.py:85-126`) and `push_data_scale` (`_push.py:140-181`) after
`w` has been computed. -/
def pushDataBody (order : ℕ) (w : K) (data out : Mom K) : Option (Mom K) :=
  if w = 0 then some out
  else
    let out := Function.update out 0 (R.lo (out 0 + w))
    if out 0 = 0 then none
    else
      let alpha := R.lo (w / out 0)
      let one_alpha := R.hi (1 - alpha)
      let delta := R.lo (data 1 - out 1)
      let incr := R.lo (delta * alpha)
      let out := Function.update out 1 (R.lo (out 1 + incr))
      if order = 1 then some out
      else
        let out := (rangeDown order 2).foldl
          (fun out a => Function.update out a (R.pushDataTmp a delta alpha one_alpha data out)) out
        some (Function.update out 2 (R.lo (R.hi (R.lo (data 2 * alpha)
          + R.hi (one_alpha * R.lo (out 2 + R.lo (delta * incr)))))))

/-- `_push_cov.py:70-89` Body of the `b1` loop of `push_val`. -/
def pushValCovInner1 (a0 a1 b0 : ℕ) (delta0_b0 delta1 alpha one_alpha : K) (out : Com K)
    (s : CAcc1 K) (b1 : ℕ) : CAcc1 K :=
  let c0 := a0 - b0
  let f0 : K := R.factor a0 b0
  let c1 := a1 - b1
  let cs := c0 + c1
  let tmp :=
    if cs = 0 then
      R.hi (s.tmp + R.hi (R.hi (delta0_b0 * s.delta1_b1)
        * R.hi (R.hi (R.hi (s.minus_bb * s.alpha_bb) * one_alpha) + R.hi (s.one_alpha_bb * alpha))))
    else if cs ≠ 1 then
      R.hi (s.tmp + R.hi (R.hi (R.hi (R.hi (f0 * R.factor a1 b1) * delta0_b0) * s.delta1_b1)
        * R.hi (R.hi (R.hi (s.minus_bb * s.alpha_bb) * one_alpha) * out c0 c1)))
    else s.tmp
  { tmp := tmp
    delta1_b1 := R.hi (s.delta1_b1 * delta1)
    alpha_bb := R.hi (s.alpha_bb * alpha)
    one_alpha_bb := R.hi (s.one_alpha_bb * one_alpha)
    minus_bb := R.hi (s.minus_bb * (-1)) }

/-- `_push_cov.py:62-94` Body of the `b0` loop of `push_val`. -/
def pushValCovInner0 (a0 a1 : ℕ) (delta0 delta1 alpha one_alpha : K) (out : Com K)
    (s : CAcc0 K) (b0 : ℕ) : CAcc0 K :=
  let t := (List.range (a1 + 1)).foldl
    (R.pushValCovInner1 a0 a1 b0 s.delta0_b0 delta1 alpha one_alpha out)
    ⟨s.tmp, 1, s.alpha_b0, s.minus_b0, s.one_alpha_b0⟩
  { tmp := t.tmp
    delta0_b0 := R.hi (s.delta0_b0 * delta0)
    alpha_b0 := R.hi (s.alpha_b0 * alpha)
    minus_b0 := R.hi (s.minus_b0 * (-1))
    one_alpha_b0 := R.hi (s.one_alpha_b0 * one_alpha) }

/-- `_push_cov.py:56-96` Value stored in `out[a0, a1]` by `push_val`. -/
def pushValCovTmp (a0 a1 : ℕ) (delta0 delta1 alpha one_alpha : K) (out : Com K) : K :=
  R.lo ((List.range (a0 + 1)).foldl (R.pushValCovInner0 a0 a1 delta0 delta1 alpha one_alpha out)
    CAcc0.init).tmp

/-- `_push_cov.py:27-96` `push_val(x0, x1, w, out)` -/
def pushValCov (order0 order1 : ℕ) (x0 x1 w : K) (out : Com K) : Option (Com K) :=
  if w = 0 then some out
  else
    let out := setAt out 0 0 (R.lo (out 0 0 + w))
    if out 0 0 = 0 then none
    else
      let alpha := R.lo (w / out 0 0)
      let one_alpha := R.hi (1 - alpha)
      let delta0 := R.lo (x0 - out 1 0)
      let delta1 := R.lo (x1 - out 0 1)
      let incr0 := R.lo (delta0 * alpha)
      let incr1 := R.lo (delta1 * alpha)
      let out := setAt out 1 0 (R.lo (out 1 0 + incr0))
      let out := setAt out 0 1 (R.lo (out 0 1 + incr1))
      let a0_min := max 0 (2 - order1)
      some ((rangeDownTo order0 a0_min).foldl (fun out a0 =>
        let a1_min := max 0 (2 - a0)
        (rangeDownTo order1 a1_min).foldl (fun out a1 =>
          setAt out a0 a1 (R.pushValCovTmp a0 a1 delta0 delta1 alpha one_alpha out)) out) out)

/-- `_push_cov.py:146-168` Body of the `b1` loop of `push_data` (identical text `227-249`). -/
def pushDataCovInner1 (a0 a1 b0 : ℕ) (delta0_b0 delta1 alpha one_alpha : K) (data out : Com K)
    (s : CAcc1 K) (b1 : ℕ) : CAcc1 K :=
  let c0 := a0 - b0
  let f0 : K := R.factor a0 b0
  let c1 := a1 - b1
  let cs := c0 + c1
  let tmp :=
    if cs = 0 then
      R.hi (s.tmp + R.hi (R.hi (delta0_b0 * s.delta1_b1)
        * R.hi (R.hi (R.hi (s.minus_bb * s.alpha_bb) * one_alpha) + R.hi (s.one_alpha_bb * alpha))))
    else if cs ≠ 1 then
      R.hi (s.tmp + R.hi (R.hi (R.hi (R.hi (f0 * R.factor a1 b1) * delta0_b0) * s.delta1_b1)
        * R.hi (R.hi (R.hi (R.hi (s.minus_bb * s.alpha_bb) * one_alpha) * out c0 c1)
            + R.hi (R.hi (s.one_alpha_bb * alpha) * data c0 c1))))
    else s.tmp
  { tmp := tmp
    delta1_b1 := R.hi (s.delta1_b1 * delta1)
    alpha_bb := R.hi (s.alpha_bb * alpha)
    one_alpha_bb := R.hi (s.one_alpha_bb * one_alpha)
    minus_bb := R.hi (s.minus_bb * (-1)) }

/-- `_push_cov.py:138-173` Body of the `b0` loop of `push_data` (identical text `219-254`). -/
def pushDataCovInner0 (a0 a1 : ℕ) (delta0 delta1 alpha one_alpha : K) (data out : Com K)
    (s : CAcc0 K) (b0 : ℕ) : CAcc0 K :=
  let t := (List.range (a1 + 1)).foldl
    (R.pushDataCovInner1 a0 a1 b0 s.delta0_b0 delta1 alpha one_alpha data out)
    ⟨s.tmp, 1, s.alpha_b0, s.minus_b0, s.one_alpha_b0⟩
  { tmp := t.tmp
    delta0_b0 := R.hi (s.delta0_b0 * delta0)
    alpha_b0 := R.hi (s.alpha_b0 * alpha)
    minus_b0 := R.hi (s.minus_b0 * (-1))
    one_alpha_b0 := R.hi (s.one_alpha_b0 * one_alpha) }

/-- `_push_cov.py:132-175` Value stored in `out[a0, a1]` (identical text `213-256`). -/
def pushDataCovTmp (a0 a1 : ℕ) (delta0 delta1 alpha one_alpha : K) (data out : Com K) : K :=
  R.lo ((List.range (a0 + 1)).foldl (R.pushDataCovInner0 a0 a1 delta0 delta1 alpha one_alpha data out)
    CAcc0.init).tmp

/-- The common text of `push_data` (`_push_cov.py:108-175`) and `push_data_scale`
(`_push_cov.py:189-256`) after `w` has been computed. -/
def pushDataCovBody (order0 order1 : ℕ) (w : K) (data out : Com K) : Option (Com K) :=
  if w = 0 then some out
  else
    let out := setAt out 0 0 (R.lo (out 0 0 + w))
    if out 0 0 = 0 then none
    else
      let alpha := R.lo (w / out 0 0)
      let one_alpha := R.hi (1 - alpha)
      let delta0 := R.lo (data 1 0 - out 1 0)
      let delta1 := R.lo (data 0 1 - out 0 1)
      let incr0 := R.lo (delta0 * alpha)
      let incr1 := R.lo (delta1 * alpha)
      let out := setAt out 1 0 (R.lo (out 1 0 + incr0))
      let out := setAt out 0 1 (R.lo (out 0 1 + incr1))
      let a0_min := max 0 (2 - order1)
      some ((rangeDownTo order0 a0_min).foldl (fun out a0 =>
        let a1_min := max 0 (2 - a0)
        (rangeDownTo order1 a1_min).foldl (fun out a1 =>
          setAt out a0 a1 (R.pushDataCovTmp a0 a1 delta0 delta1 alpha one_alpha data out)) out) out)

/-- One variable, `_lib/_push.py`, for the sample loops. `push_data` (`_push.py:79-126`) starts with
`w = data[0]`, `push_data_scale` (`_push.py:136-181`) with `w = data[0] * scale`. -/
def kernel1 (order : ℕ) : Kernel K K (Mom K) where
  weight m := m 0
  zero := fun _ => 0
  mulWeight m f := Function.update m 0 (R.lo (m 0 * f))
  pushVal x w out := R.pushVal order x w out
  pushData data out := R.pushDataBody order (data 0) data out
  pushScale data s out := R.pushDataBody order (R.lo (data 0 * s)) data out
  ofVal x w := valToData x w

/-- Two variables, `_lib/_push_cov.py`. -/
def kernel2 (order0 order1 : ℕ) : Kernel K (K × K) (Com K) where
  weight m := m 0 0
  zero := fun _ _ => 0
  mulWeight m f := setAt m 0 0 (R.lo (m 0 0 * f))
  pushVal x w out := R.pushValCov order0 order1 x.1 x.2 w out
  pushData data out := R.pushDataCovBody order0 order1 (data 0 0) data out
  pushScale data s out := R.pushDataCovBody order0 order1 (R.lo (data 0 0 * s)) data out
  ofVal x w := valToDataCov x.1 x.2 w

section loops

variable {V M : Type*} (k : Kernel K V M)

/-- `resample.py:100-111`, `resample_cov.py:74-86` `resample_vals`, one replicate: the weight of a value is
`w[isamp] * f`. -/
def resampleValsRow (fx : List (K × V × K)) (out : M) : Option M :=
  fx.foldlM (fun o p => if p.1 = 0 then some o else k.pushVal p.2.1 (R.lo (p.2.2 * p.1)) o) out

/-- `resample/resample.py:578-627` `_resample_vals` -/
def resampleVals (freq : List (List K)) (xs : List (V × K)) : List (Option M) :=
  freq.map (fun fs => R.resampleValsRow k (fs.zip xs) k.zero)

end loops

/-- `_rolling.py:184` `dummy_mom[..., 0] *= decay`, `_rolling.py:193` `dummy_mom[..., 0] /= old_weight`, where
the result is `w`. -/
def setWeight1 (m : Mom K) (w : K) : Mom K := Function.update m 0 w

/-- `_rolling_cov.py:188`, `_rolling_cov.py:196` -/
def setWeight2 (m : Com K) (w : K) : Com K := setAt m 0 0 w

section exponential

variable {K : Type*} [Field K] [LinearOrder K] (R : Precision K)
variable {V M : Type*} (k : Kernel K V M) (setWeight : M → K → M)

open Kernel (ExpState expEmit)

/-- `_rolling.py:187-194` After the push, when `not adjust`. -/
def expRenorm (alpha : K) (s : ExpState K M) : Option (ExpState K M) :=
  let ow := R.hi (s.oldWeight + alpha)
  if ow = 0 then none
  else some ⟨setWeight s.dummy (R.lo (R.hi (k.weight s.dummy / ow))), s.count, 1⟩

/-- `_rolling.py:176-199` Loop body of `rolling_exp_data` on `(alpha[i], data[i])`. -/
def expStep (adjust : Bool) (s : ExpState K M) (p : K × M) : Option (ExpState K M) :=
  let decay := R.hi (1 - p.1)
  let s : ExpState K M := ⟨setWeight s.dummy (R.lo (R.hi (k.weight s.dummy * decay))), s.count,
    R.hi (s.oldWeight * decay)⟩
  if k.weight p.2 ≠ 0 then
    let scale := if adjust then 1 else p.1
    (k.pushScale p.2 scale s.dummy).bind fun m =>
      let s : ExpState K M := ⟨m, s.count + 1, s.oldWeight⟩
      if !adjust then R.expRenorm k setWeight p.1 s else some s
  else some s

/-- `_rolling.py:163-199`, `_rolling_cov.py:167-202` `rolling_exp_data`, with the default `min_periods` of
`rolling.py:1152` and the `max(min_count, 1)` of `_lib/rolling.py:108`. -/
def rollingExpData (adjust : Bool) (minPeriods : Option ℤ) (alpha : List K) (data : List M) :
    Option (List (Option M)) :=
  let minCount := max (max 1 (minPeriods.getD 1)) 1
  (scanEmit (R.expStep k setWeight adjust) (expEmit minCount) (alpha.zip data) ⟨k.zero, 0, 0⟩).map Prod.fst

/-- `_rolling.py:237-261` Loop body of `rolling_exp_vals` on `(alpha[i], x[i], w[i])`. -/
def expStepVal (adjust : Bool) (s : ExpState K M) (p : K × V × K) : Option (ExpState K M) :=
  let decay := R.hi (1 - p.1)
  let s : ExpState K M := ⟨setWeight s.dummy (R.lo (R.hi (k.weight s.dummy * decay))), s.count,
    R.hi (s.oldWeight * decay)⟩
  if p.2.2 ≠ 0 then
    let scale := if adjust then p.2.2 else R.lo (p.2.2 * p.1)
    (k.pushVal p.2.1 scale s.dummy).bind fun m =>
      let s : ExpState K M := ⟨m, s.count + 1, s.oldWeight⟩
      if !adjust then R.expRenorm k setWeight p.1 s else some s
  else some s

/-- `_rolling.py:223-261`, `_rolling_cov.py:228-265` `rolling_exp_vals` -/
def rollingExpVals (adjust : Bool) (minPeriods : Option ℤ) (alpha : List K) (xs : List (V × K)) :
    Option (List (Option M)) :=
  let minCount := max (max 1 (minPeriods.getD 1)) 1
  (scanEmit (R.expStepVal k setWeight adjust) (expEmit minCount) (alpha.zip xs) ⟨k.zero, 0, 0⟩).map Prod.fst

end exponential

end Precision

end Cmomy
