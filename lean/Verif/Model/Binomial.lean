import Verif.Model.Convert

/-!
# The binomial table and the kernels that read it

`_lib/_binomial.py:16-37`, and the kernels of `_lib/_push.py`, `_lib/_push_cov.py`,
`_lib/convert.py`, `_lib/convert_cov.py` once more, now reading their binomial factors from the
table. A read outside the table is `.error .undefined` (numba does not check bounds); a division by
zero is `.error .zeroDivision`.
-/

namespace Cmomy.Binomial

open Cmomy

variable {K : Type*} [Field K] [DecidableEq K]

/-- A square table. -/
structure Table (K : Type*) where
  size : ℕ
  data : Com K

/-- `_binomial.py:27-34` `factory_binomial(order)`. A negative size is a `ValueError` of numpy. -/
def factory (order : ℤ) : Py (Table K) :=
  if order + 1 < 0 then .error .valueError
  else
    let size := (order + 1).toNat
    .ok ⟨size, (List.range size).foldl (fun out n =>
      (List.range size).foldl (fun out k => setAt out n k (binom n k)) out) (fun _ _ => 0)⟩

/-- `BINOMIAL_FACTOR[n, k]` -/
def Table.lookup (t : Table K) (n k : ℕ) : Py K :=
  if n < t.size ∧ k < t.size then .ok (t.data n k) else .error .undefined

/-! ### `_push.py` -/

/-- `_push.py:53-63`, see `pushValInner`. -/
def pushValInnerT (t : Table K) (a : ℕ) (delta alpha one_alpha : K) (out : Mom K) (s : PAcc K)
    (b : ℕ) : Py (PAcc K) := do
  let f ← t.lookup a b
  let c := a - b
  return { tmp := s.tmp + f * s.delta_b * (s.minus_b * s.alpha_b * one_alpha * out c)
           delta_b := s.delta_b * delta
           alpha_b := s.alpha_b * alpha
           one_alpha_b := s.one_alpha_b * one_alpha
           minus_b := s.minus_b * (-1) }

/-- `_push.py:46-66`, see `pushValTmp`. -/
def pushValTmpT (t : Table K) (a : ℕ) (delta alpha one_alpha : K) (out : Mom K) : Py K := do
  let s ← (List.range (a - 1)).foldlM (pushValInnerT t a delta alpha one_alpha out) PAcc.init
  return s.tmp + delta * alpha * one_alpha * s.delta_b * (-s.minus_b * s.alpha_b + s.one_alpha_b)

/-- `_push.py:28-68`, see `pushVal`. -/
def pushValT (t : Table K) (order : ℕ) (x w : K) (out : Mom K) : Py (Mom K) :=
  if w = 0 then .ok out
  else
    let out := Function.update out 0 (out 0 + w)
    if out 0 = 0 then .error .zeroDivision
    else
      let alpha := w / out 0
      let one_alpha := 1 - alpha
      let delta := x - out 1
      let incr := delta * alpha
      let out := Function.update out 1 (out 1 + incr)
      if order = 1 then .ok out
      else do
        let out ← (rangeDown order 2).foldlM (fun out a => do
          let v ← pushValTmpT t a delta alpha one_alpha out
          return Function.update out a v) out
        return Function.update out 2 (one_alpha * (out 2 + delta * incr))

/-- `_push.py:107-120`, see `pushDataInner`. -/
def pushDataInnerT (t : Table K) (a : ℕ) (delta alpha one_alpha : K) (data out : Mom K)
    (s : PAcc K) (b : ℕ) : Py (PAcc K) := do
  let f ← t.lookup a b
  let c := a - b
  return { tmp := s.tmp + f * s.delta_b *
             (s.minus_b * s.alpha_b * one_alpha * out c + s.one_alpha_b * alpha * data c)
           delta_b := s.delta_b * delta
           alpha_b := s.alpha_b * alpha
           one_alpha_b := s.one_alpha_b * one_alpha
           minus_b := s.minus_b * (-1) }

/-- `_push.py:101-123`, see `pushDataTmp`. -/
def pushDataTmpT (t : Table K) (a : ℕ) (delta alpha one_alpha : K) (data out : Mom K) : Py K := do
  let s ← (List.range (a - 1)).foldlM (pushDataInnerT t a delta alpha one_alpha data out) PAcc.init
  return s.tmp + delta * alpha * one_alpha * s.delta_b * (-s.minus_b * s.alpha_b + s.one_alpha_b)

/-- `_push.py:85-126` and `140-181`, see `pushDataBody`. -/
def pushDataBodyT (t : Table K) (order : ℕ) (w : K) (data out : Mom K) : Py (Mom K) :=
  if w = 0 then .ok out
  else
    let out := Function.update out 0 (out 0 + w)
    if out 0 = 0 then .error .zeroDivision
    else
      let alpha := w / out 0
      let one_alpha := 1 - alpha
      let delta := data 1 - out 1
      let incr := delta * alpha
      let out := Function.update out 1 (out 1 + incr)
      if order = 1 then .ok out
      else do
        let out ← (rangeDown order 2).foldlM (fun out a => do
          let v ← pushDataTmpT t a delta alpha one_alpha data out
          return Function.update out a v) out
        return Function.update out 2 (data 2 * alpha + one_alpha * (out 2 + delta * incr))

/-- `_push.py:79-126` -/
def pushDataT (t : Table K) (order : ℕ) (data out : Mom K) : Py (Mom K) :=
  pushDataBodyT t order (data 0) data out

/-- `_push.py:136-181` -/
def pushDataScaleT (t : Table K) (order : ℕ) (data : Mom K) (scale : K) (out : Mom K) : Py (Mom K) :=
  pushDataBodyT t order (data 0 * scale) data out

/-! ### `_push_cov.py` -/

/-- `_push_cov.py:70-89`, see `pushValCovInner1`; `f0` has been read before the loop. -/
def pushValCovInner1T (t : Table K) (a0 a1 b0 : ℕ) (f0 delta0_b0 delta1 alpha one_alpha : K)
    (out : Com K) (s : CAcc1 K) (b1 : ℕ) : Py (CAcc1 K) := do
  let c0 := a0 - b0
  let c1 := a1 - b1
  let cs := c0 + c1
  let tmp ←
    if cs = 0 then
      pure (s.tmp + delta0_b0 * s.delta1_b1 *
        (s.minus_bb * s.alpha_bb * one_alpha + s.one_alpha_bb * alpha))
    else if cs ≠ 1 then do
      let f1 ← t.lookup a1 b1
      pure (s.tmp + f0 * f1 * delta0_b0 * s.delta1_b1 *
        (s.minus_bb * s.alpha_bb * one_alpha * out c0 c1))
    else pure s.tmp
  return { tmp := tmp
           delta1_b1 := s.delta1_b1 * delta1
           alpha_bb := s.alpha_bb * alpha
           one_alpha_bb := s.one_alpha_bb * one_alpha
           minus_bb := s.minus_bb * (-1) }

/-- `_push_cov.py:62-94`, see `pushValCovInner0`. -/
def pushValCovInner0T (t : Table K) (a0 a1 : ℕ) (delta0 delta1 alpha one_alpha : K) (out : Com K)
    (s : CAcc0 K) (b0 : ℕ) : Py (CAcc0 K) := do
  let f0 ← t.lookup a0 b0
  let r ← (List.range (a1 + 1)).foldlM
    (pushValCovInner1T t a0 a1 b0 f0 s.delta0_b0 delta1 alpha one_alpha out)
    ⟨s.tmp, 1, s.alpha_b0, s.minus_b0, s.one_alpha_b0⟩
  return { tmp := r.tmp
           delta0_b0 := s.delta0_b0 * delta0
           alpha_b0 := s.alpha_b0 * alpha
           minus_b0 := s.minus_b0 * (-1)
           one_alpha_b0 := s.one_alpha_b0 * one_alpha }

/-- `_push_cov.py:56-96`, see `pushValCovTmp`. -/
def pushValCovTmpT (t : Table K) (a0 a1 : ℕ) (delta0 delta1 alpha one_alpha : K) (out : Com K) :
    Py K := do
  let r ← (List.range (a0 + 1)).foldlM (pushValCovInner0T t a0 a1 delta0 delta1 alpha one_alpha out)
    CAcc0.init
  return r.tmp

/-- `_push_cov.py:27-96`, see `pushValCov`. -/
def pushValCovT (t : Table K) (order0 order1 : ℕ) (x0 x1 w : K) (out : Com K) : Py (Com K) :=
  if w = 0 then .ok out
  else
    let out := setAt out 0 0 (out 0 0 + w)
    if out 0 0 = 0 then .error .zeroDivision
    else
      let alpha := w / out 0 0
      let one_alpha := 1 - alpha
      let delta0 := x0 - out 1 0
      let delta1 := x1 - out 0 1
      let incr0 := delta0 * alpha
      let incr1 := delta1 * alpha
      let out := setAt out 1 0 (out 1 0 + incr0)
      let out := setAt out 0 1 (out 0 1 + incr1)
      let a0_min := max 0 (2 - order1)
      (rangeDownTo order0 a0_min).foldlM (fun out a0 =>
        let a1_min := max 0 (2 - a0)
        (rangeDownTo order1 a1_min).foldlM (fun out a1 => do
          let v ← pushValCovTmpT t a0 a1 delta0 delta1 alpha one_alpha out
          return setAt out a0 a1 v) out) out

/-- `_push_cov.py:146-168`, see `pushDataCovInner1`. -/
def pushDataCovInner1T (t : Table K) (a0 a1 b0 : ℕ) (f0 delta0_b0 delta1 alpha one_alpha : K)
    (data out : Com K) (s : CAcc1 K) (b1 : ℕ) : Py (CAcc1 K) := do
  let c0 := a0 - b0
  let c1 := a1 - b1
  let cs := c0 + c1
  let tmp ←
    if cs = 0 then
      pure (s.tmp + delta0_b0 * s.delta1_b1 *
        (s.minus_bb * s.alpha_bb * one_alpha + s.one_alpha_bb * alpha))
    else if cs ≠ 1 then do
      let f1 ← t.lookup a1 b1
      pure (s.tmp + f0 * f1 * delta0_b0 * s.delta1_b1 *
        (s.minus_bb * s.alpha_bb * one_alpha * out c0 c1 + s.one_alpha_bb * alpha * data c0 c1))
    else pure s.tmp
  return { tmp := tmp
           delta1_b1 := s.delta1_b1 * delta1
           alpha_bb := s.alpha_bb * alpha
           one_alpha_bb := s.one_alpha_bb * one_alpha
           minus_bb := s.minus_bb * (-1) }

/-- `_push_cov.py:138-173`, see `pushDataCovInner0`. -/
def pushDataCovInner0T (t : Table K) (a0 a1 : ℕ) (delta0 delta1 alpha one_alpha : K)
    (data out : Com K) (s : CAcc0 K) (b0 : ℕ) : Py (CAcc0 K) := do
  let f0 ← t.lookup a0 b0
  let r ← (List.range (a1 + 1)).foldlM
    (pushDataCovInner1T t a0 a1 b0 f0 s.delta0_b0 delta1 alpha one_alpha data out)
    ⟨s.tmp, 1, s.alpha_b0, s.minus_b0, s.one_alpha_b0⟩
  return { tmp := r.tmp
           delta0_b0 := s.delta0_b0 * delta0
           alpha_b0 := s.alpha_b0 * alpha
           minus_b0 := s.minus_b0 * (-1)
           one_alpha_b0 := s.one_alpha_b0 * one_alpha }

/-- `_push_cov.py:132-175`, see `pushDataCovTmp`. -/
def pushDataCovTmpT (t : Table K) (a0 a1 : ℕ) (delta0 delta1 alpha one_alpha : K)
    (data out : Com K) : Py K := do
  let r ← (List.range (a0 + 1)).foldlM
    (pushDataCovInner0T t a0 a1 delta0 delta1 alpha one_alpha data out) CAcc0.init
  return r.tmp

/-- `_push_cov.py:108-175` and `189-256`, see `pushDataCovBody`. -/
def pushDataCovBodyT (t : Table K) (order0 order1 : ℕ) (w : K) (data out : Com K) : Py (Com K) :=
  if w = 0 then .ok out
  else
    let out := setAt out 0 0 (out 0 0 + w)
    if out 0 0 = 0 then .error .zeroDivision
    else
      let alpha := w / out 0 0
      let one_alpha := 1 - alpha
      let delta0 := data 1 0 - out 1 0
      let delta1 := data 0 1 - out 0 1
      let incr0 := delta0 * alpha
      let incr1 := delta1 * alpha
      let out := setAt out 1 0 (out 1 0 + incr0)
      let out := setAt out 0 1 (out 0 1 + incr1)
      let a0_min := max 0 (2 - order1)
      (rangeDownTo order0 a0_min).foldlM (fun out a0 =>
        let a1_min := max 0 (2 - a0)
        (rangeDownTo order1 a1_min).foldlM (fun out a1 => do
          let v ← pushDataCovTmpT t a0 a1 delta0 delta1 alpha one_alpha data out
          return setAt out a0 a1 v) out) out

/-- `_push_cov.py:106-175` -/
def pushDataCovT (t : Table K) (order0 order1 : ℕ) (data out : Com K) : Py (Com K) :=
  pushDataCovBodyT t order0 order1 (data 0 0) data out

/-- `_push_cov.py:185-256` -/
def pushDataScaleCovT (t : Table K) (order0 order1 : ℕ) (data : Com K) (scale : K) (out : Com K) :
    Py (Com K) :=
  pushDataCovBodyT t order0 order1 (data 0 0 * scale) data out

/-! ### `convert.py` -/

/-- `_lib/convert.py:36-44`, see `Convert.centralToRawEntry`. -/
def centralToRawEntryT (t : Table K) (ave : K) (central : Mom K) (n : ℕ) : Py K := do
  let s ← (List.range (n - 1)).foldlM (fun s i => do
    let f ← t.lookup n i
    return (s.1 + central (n - i) * s.2 * f, s.2 * ave)) ((0 : K), (1 : K))
  return s.1 + s.2 * ave

/-- `_lib/convert.py:31-45` -/
def centralToRawT (t : Table K) (order : ℕ) (central raw : Mom K) : Py (Mom K) :=
  let ave := central 1
  let raw := Function.update raw 0 (central 0)
  let raw := Function.update raw 1 ave
  (List.range' 2 (order + 1 - 2)).foldlM (fun raw n => do
    let v ← centralToRawEntryT t ave central n
    return Function.update raw n v) raw

/-- `_lib/convert.py:61-69`, see `Convert.rawToCentralEntry`. -/
def rawToCentralEntryT (t : Table K) (ave : K) (raw : Mom K) (n : ℕ) : Py K := do
  let s ← (List.range (n - 1)).foldlM (fun s i => do
    let f ← t.lookup n i
    return (s.1 + raw (n - i) * s.2 * f, s.2 * -ave)) ((0 : K), (1 : K))
  return s.1 + ave * s.2 * ((n : K) - 1)

/-- `_lib/convert.py:56-70` -/
def rawToCentralT (t : Table K) (order : ℕ) (raw central : Mom K) : Py (Mom K) :=
  let ave := raw 1
  let central := Function.update central 0 (raw 0)
  let central := Function.update central 1 ave
  (List.range' 2 (order + 1 - 2)).foldlM (fun central n => do
    let v ← rawToCentralEntryT t ave raw n
    return Function.update central n v) central

/-! ### `convert_cov.py` -/

/-- `_lib/convert_cov.py:45-60`, see `Convert.centralToRawCovRow`. -/
def centralToRawCovRowT (t : Table K) (ave1 : K) (central : Com K) (n m i : ℕ) (ave_i tmp : K) :
    Py K := do
  let s ← (List.range (m + 1)).foldlM (fun s j => do
    let nm_ij := n + m - (i + j)
    let tmp ←
      if nm_ij = 0 then pure (s.1 + ave_i * s.2)
      else if nm_ij = 1 then pure s.1
      else do
        let f ← t.lookup n i
        let g ← t.lookup m j
        pure (s.1 + central (n - i) (m - j) * ave_i * s.2 * f * g)
    return (tmp, s.2 * ave1)) (tmp, (1 : K))
  return s.1

/-- `_lib/convert_cov.py:35-63`, see `Convert.centralToRawCovEntry`. -/
def centralToRawCovEntryT (t : Table K) (ave0 ave1 : K) (central : Com K) (n m : ℕ) : Py K :=
  if n + m ≤ 1 then .ok (central n m)
  else do
    let s ← (List.range (n + 1)).foldlM (fun s i => do
      let v ← centralToRawCovRowT t ave1 central n m i s.2 s.1
      return (v, s.2 * ave0)) ((0 : K), (1 : K))
    return s.1

/-- See `Convert.fillCov`. -/
def fillCovT (o0 o1 : ℕ) (f : ℕ → ℕ → Py K) (out : Com K) : Py (Com K) :=
  (List.range (o0 + 1)).foldlM (fun out n =>
    (List.range (o1 + 1)).foldlM (fun out m => do
      let v ← f n m
      return setAt out n m v) out) out

/-- `_lib/convert_cov.py:31-63` -/
def centralToRawCovT (t : Table K) (o0 o1 : ℕ) (central raw : Com K) : Py (Com K) :=
  fillCovT o0 o1 (centralToRawCovEntryT t (central 1 0) (central 0 1) central) raw

/-- `_lib/convert_cov.py:87-101`, see `Convert.rawToCentralCovRow`. -/
def rawToCentralCovRowT (t : Table K) (ave1 : K) (raw : Com K) (n m i : ℕ) (ave_i tmp : K) :
    Py K := do
  let s ← (List.range (m + 1)).foldlM (fun s j => do
    let nm_ij := n + m - (i + j)
    let tmp ←
      if nm_ij = 0 then pure (s.1 + ave_i * s.2)
      else do
        let f ← t.lookup n i
        let g ← t.lookup m j
        pure (s.1 + raw (n - i) (m - j) * ave_i * s.2 * f * g)
    return (tmp, s.2 * -ave1)) (tmp, (1 : K))
  return s.1

/-- `_lib/convert_cov.py:78-103`, see `Convert.rawToCentralCovEntry`. -/
def rawToCentralCovEntryT (t : Table K) (ave0 ave1 : K) (raw : Com K) (n m : ℕ) : Py K :=
  if n + m ≤ 1 then .ok (raw n m)
  else do
    let s ← (List.range (n + 1)).foldlM (fun s i => do
      let v ← rawToCentralCovRowT t ave1 raw n m i s.2 s.1
      return (v, s.2 * -ave0)) ((0 : K), (1 : K))
    return s.1

/-- `_lib/convert_cov.py:74-103` -/
def rawToCentralCovT (t : Table K) (o0 o1 : ℕ) (raw central : Com K) : Py (Com K) :=
  fillCovT o0 o1 (rawToCentralCovEntryT t (raw 1 0) (raw 0 1) raw) central

end Cmomy.Binomial
