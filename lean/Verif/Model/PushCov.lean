import Verif.Model.Push

/-!
# Model of the comoment pushers

`/repo/src/cmomy/_lib/_push_cov.py`. A comoment array of orders `(order0, order1)` is a function
`ℕ → ℕ → K`.
-/

namespace Cmomy

variable {K : Type*} [Field K] [DecidableEq K]

/-- A comoment array: entry `(0,0)` the weight, `(1,0)` and `(0,1)` the averages, any other
`(i,j)` the central comoment. -/
abbrev Com (K : Type*) := ℕ → ℕ → K

/-- `out[i, j] = v`. -/
def setAt (out : Com K) (i j : ℕ) (v : K) : Com K :=
  Function.update out i (Function.update (out i) j v)

/-- Running variables of the `b1` loop, `_push_cov.py:65-68`, `141-144`, `222-225`. -/
structure CAcc1 (K : Type*) where
  tmp : K
  delta1_b1 : K
  alpha_bb : K
  minus_bb : K
  one_alpha_bb : K

/-- Running variables of the `b0` loop, `_push_cov.py:56-60`, `132-136`, `213-217`. -/
structure CAcc0 (K : Type*) where
  tmp : K
  delta0_b0 : K
  alpha_b0 : K
  minus_b0 : K
  one_alpha_b0 : K

/-- Initial values, `_push_cov.py:56-60`, `132-136`, `213-217`. -/
def CAcc0.init : CAcc0 K := ⟨0, 1, 1, 1, 1⟩

/-- Body of the `b1` loop of `push_val`, `_push_cov.py:70-89`. -/
def pushValCovInner1 (a0 a1 b0 : ℕ) (delta0_b0 delta1 alpha one_alpha : K) (out : Com K)
    (s : CAcc1 K) (b1 : ℕ) : CAcc1 K :=
  let c0 := a0 - b0
  let f0 : K := binom a0 b0
  let c1 := a1 - b1
  let cs := c0 + c1
  let tmp :=
    if cs = 0 then
      s.tmp + delta0_b0 * s.delta1_b1 * (s.minus_bb * s.alpha_bb * one_alpha + s.one_alpha_bb * alpha)
    else if cs ≠ 1 then
      s.tmp + f0 * binom a1 b1 * delta0_b0 * s.delta1_b1 *
        (s.minus_bb * s.alpha_bb * one_alpha * out c0 c1)
    else s.tmp
  { tmp := tmp
    delta1_b1 := s.delta1_b1 * delta1
    alpha_bb := s.alpha_bb * alpha
    one_alpha_bb := s.one_alpha_bb * one_alpha
    minus_bb := s.minus_bb * (-1) }

/-- Body of the `b0` loop of `push_val`, `_push_cov.py:62-94`. -/
def pushValCovInner0 (a0 a1 : ℕ) (delta0 delta1 alpha one_alpha : K) (out : Com K)
    (s : CAcc0 K) (b0 : ℕ) : CAcc0 K :=
  let t := (List.range (a1 + 1)).foldl
    (pushValCovInner1 a0 a1 b0 s.delta0_b0 delta1 alpha one_alpha out)
    ⟨s.tmp, 1, s.alpha_b0, s.minus_b0, s.one_alpha_b0⟩
  { tmp := t.tmp
    delta0_b0 := s.delta0_b0 * delta0
    alpha_b0 := s.alpha_b0 * alpha
    minus_b0 := s.minus_b0 * (-1)
    one_alpha_b0 := s.one_alpha_b0 * one_alpha }

/-- Value stored in `out[a0, a1]` by `push_val`, `_push_cov.py:56-96`. -/
def pushValCovTmp (a0 a1 : ℕ) (delta0 delta1 alpha one_alpha : K) (out : Com K) : K :=
  ((List.range (a0 + 1)).foldl (pushValCovInner0 a0 a1 delta0 delta1 alpha one_alpha out)
    CAcc0.init).tmp

/-- Python `range(hi, lo - 1, -1)`: `hi, hi-1, ..., lo`. -/
def rangeDownTo (hi lo : ℕ) : List ℕ := (List.range (hi + 1 - lo)).map (fun i => hi - i)

/-- `_push_cov.py:27-96` `push_val(x0, x1, w, out)`. -/
def pushValCov (order0 order1 : ℕ) (x0 x1 w : K) (out : Com K) : Option (Com K) :=
  if w = 0 then some out
  else
    let out := setAt out 0 0 (out 0 0 + w)
    if out 0 0 = 0 then none
    else
      let alpha := w / out 0 0
      let one_alpha := 1 - alpha
      let delta0 := x0 - out 1 0
      let delta1 := x1 - out 0 1
      let incr0 := delta0 * alpha
      let incr1 := delta1 * alpha
      let out := setAt out 1 0 (out 1 0 + incr0)
      let out := setAt out 0 1 (out 0 1 + incr1)
      let a0_min := max 0 (2 - order1)
      some ((rangeDownTo order0 a0_min).foldl (fun out a0 =>
        let a1_min := max 0 (2 - a0)
        (rangeDownTo order1 a1_min).foldl (fun out a1 =>
          setAt out a0 a1 (pushValCovTmp a0 a1 delta0 delta1 alpha one_alpha out)) out) out)

/-- Body of the `b1` loop of `push_data`, `_push_cov.py:146-168` (identical text in
`push_data_scale`, `227-249`). -/
def pushDataCovInner1 (a0 a1 b0 : ℕ) (delta0_b0 delta1 alpha one_alpha : K) (data out : Com K)
    (s : CAcc1 K) (b1 : ℕ) : CAcc1 K :=
  let c0 := a0 - b0
  let f0 : K := binom a0 b0
  let c1 := a1 - b1
  let cs := c0 + c1
  let tmp :=
    if cs = 0 then
      s.tmp + delta0_b0 * s.delta1_b1 * (s.minus_bb * s.alpha_bb * one_alpha + s.one_alpha_bb * alpha)
    else if cs ≠ 1 then
      s.tmp + f0 * binom a1 b1 * delta0_b0 * s.delta1_b1 *
        (s.minus_bb * s.alpha_bb * one_alpha * out c0 c1 + s.one_alpha_bb * alpha * data c0 c1)
    else s.tmp
  { tmp := tmp
    delta1_b1 := s.delta1_b1 * delta1
    alpha_bb := s.alpha_bb * alpha
    one_alpha_bb := s.one_alpha_bb * one_alpha
    minus_bb := s.minus_bb * (-1) }

/-- Body of the `b0` loop of `push_data`, `_push_cov.py:138-173` (identical text `219-254`). -/
def pushDataCovInner0 (a0 a1 : ℕ) (delta0 delta1 alpha one_alpha : K) (data out : Com K)
    (s : CAcc0 K) (b0 : ℕ) : CAcc0 K :=
  let t := (List.range (a1 + 1)).foldl
    (pushDataCovInner1 a0 a1 b0 s.delta0_b0 delta1 alpha one_alpha data out)
    ⟨s.tmp, 1, s.alpha_b0, s.minus_b0, s.one_alpha_b0⟩
  { tmp := t.tmp
    delta0_b0 := s.delta0_b0 * delta0
    alpha_b0 := s.alpha_b0 * alpha
    minus_b0 := s.minus_b0 * (-1)
    one_alpha_b0 := s.one_alpha_b0 * one_alpha }

/-- Value stored in `out[a0, a1]`, `_push_cov.py:132-175` (identical text `213-256`). -/
def pushDataCovTmp (a0 a1 : ℕ) (delta0 delta1 alpha one_alpha : K) (data out : Com K) : K :=
  ((List.range (a0 + 1)).foldl (pushDataCovInner0 a0 a1 delta0 delta1 alpha one_alpha data out)
    CAcc0.init).tmp

/-- The common text of `push_data` (`_push_cov.py:108-175`) and `push_data_scale`
(`_push_cov.py:189-256`) after `w` has been computed. -/
def pushDataCovBody (order0 order1 : ℕ) (w : K) (data out : Com K) : Option (Com K) :=
  if w = 0 then some out
  else
    let out := setAt out 0 0 (out 0 0 + w)
    if out 0 0 = 0 then none
    else
      let alpha := w / out 0 0
      let one_alpha := 1 - alpha
      let delta0 := data 1 0 - out 1 0
      let delta1 := data 0 1 - out 0 1
      let incr0 := delta0 * alpha
      let incr1 := delta1 * alpha
      let out := setAt out 1 0 (out 1 0 + incr0)
      let out := setAt out 0 1 (out 0 1 + incr1)
      let a0_min := max 0 (2 - order1)
      some ((rangeDownTo order0 a0_min).foldl (fun out a0 =>
        let a1_min := max 0 (2 - a0)
        (rangeDownTo order1 a1_min).foldl (fun out a1 =>
          setAt out a0 a1 (pushDataCovTmp a0 a1 delta0 delta1 alpha one_alpha data out)) out) out)

/-- `_push_cov.py:106-175` `push_data(data, out)`. -/
def pushDataCov (order0 order1 : ℕ) (data out : Com K) : Option (Com K) :=
  pushDataCovBody order0 order1 (data 0 0) data out

/-- `_push_cov.py:185-256` `push_data_scale(data, scale, out)`. -/
def pushDataScaleCov (order0 order1 : ℕ) (data : Com K) (scale : K) (out : Com K) :
    Option (Com K) :=
  pushDataCovBody order0 order1 (data 0 0 * scale) data out

end Cmomy
