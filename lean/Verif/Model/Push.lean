import Mathlib.Algebra.Field.Basic
import Mathlib.Data.Nat.Factorial.Basic
import Mathlib.Logic.Function.Basic

/-!
# Model of the one-variable pushers

`/repo/src/cmomy/_lib/_binomial.py` and `/repo/src/cmomy/_lib/_push.py`.

A moment array `out` of order `order = out.shape[0] - 1` is a function `ℕ → K`; only the entries
`0..order` are meaningful (theorem C13 shows that no other entry is read or written).
Floating point numbers are replaced by elements of a field.
A kernel that would divide by zero returns `none`.
-/

namespace Cmomy

open Nat (factorial)

variable {K : Type*} [Field K] [DecidableEq K]

/-- A one-variable moment array: entry 0 the weight, entry 1 the average, entry `n ≥ 2` the
central moment of order `n`. -/
abbrev Mom (K : Type*) := ℕ → K

/-- `_binomial.py:16-24` `_binom`. Same three branches. Simplification: exact division. -/
def binom (n k : ℕ) : K :=
  if n > k then (factorial n : K) / ((factorial k : K) * (factorial (n - k) : K))
  else if n = k then 1
  else 0

/-- Python `range(hi, lo, -1)` for `hi, lo ≥ 0`: `hi, hi-1, ..., lo+1`. -/
def rangeDown (hi lo : ℕ) : List ℕ := (List.range (hi - lo)).map (fun i => hi - i)

/-- Running local variables of the inner loop, `_push.py:48-52` and `_push.py:102-106`. -/
structure PAcc (K : Type*) where
  tmp : K
  delta_b : K
  alpha_b : K
  minus_b : K
  one_alpha_b : K

/-- Initial values, `_push.py:48-52`, `102-106`, `157-161`. -/
def PAcc.init : PAcc K := ⟨0, 1, 1, 1, 1⟩

/-- Body of `for b in range(a - 1)` in `push_val`, `_push.py:53-63`. -/
def pushValInner (a : ℕ) (delta alpha one_alpha : K) (out : Mom K) (s : PAcc K) (b : ℕ) : PAcc K :=
  let c := a - b
  { tmp := s.tmp + binom a b * s.delta_b * (s.minus_b * s.alpha_b * one_alpha * out c)
    delta_b := s.delta_b * delta
    alpha_b := s.alpha_b * alpha
    one_alpha_b := s.one_alpha_b * one_alpha
    minus_b := s.minus_b * (-1) }

/-- Value stored in `out[a]` by `push_val`, `_push.py:46-66`. -/
def pushValTmp (a : ℕ) (delta alpha one_alpha : K) (out : Mom K) : K :=
  let s := (List.range (a - 1)).foldl (pushValInner a delta alpha one_alpha out) PAcc.init
  s.tmp + delta * alpha * one_alpha * s.delta_b * (-s.minus_b * s.alpha_b + s.one_alpha_b)

/-- `_push.py:28-68` `push_val(x, w, out)`. The result is the new content of `out`;
`none` when `w / out[0]` divides by zero. -/
def pushVal (order : ℕ) (x w : K) (out : Mom K) : Option (Mom K) :=
  if w = 0 then some out
  else
    let out := Function.update out 0 (out 0 + w)
    if out 0 = 0 then none
    else
      let alpha := w / out 0
      let one_alpha := 1 - alpha
      let delta := x - out 1
      let incr := delta * alpha
      let out := Function.update out 1 (out 1 + incr)
      if order = 1 then some out
      else
        let out := (rangeDown order 2).foldl
          (fun out a => Function.update out a (pushValTmp a delta alpha one_alpha out)) out
        some (Function.update out 2 (one_alpha * (out 2 + delta * incr)))

/-- Body of `for b in range(a1 - 1)` in `push_data`, `_push.py:107-120` (identical text in
`push_data_scale`, `_push.py:162-175`). -/
def pushDataInner (a : ℕ) (delta alpha one_alpha : K) (data out : Mom K) (s : PAcc K) (b : ℕ) :
    PAcc K :=
  let c := a - b
  { tmp := s.tmp + binom a b * s.delta_b *
      (s.minus_b * s.alpha_b * one_alpha * out c + s.one_alpha_b * alpha * data c)
    delta_b := s.delta_b * delta
    alpha_b := s.alpha_b * alpha
    one_alpha_b := s.one_alpha_b * one_alpha
    minus_b := s.minus_b * (-1) }

/-- Value stored in `out[a1]`, `_push.py:101-123` (identical text `156-179`). -/
def pushDataTmp (a : ℕ) (delta alpha one_alpha : K) (data out : Mom K) : K :=
  let s := (List.range (a - 1)).foldl (pushDataInner a delta alpha one_alpha data out) PAcc.init
  s.tmp + delta * alpha * one_alpha * s.delta_b * (-s.minus_b * s.alpha_b + s.one_alpha_b)

/-- The common text of `push_data` (`_push.py:85-126`) and `push_data_scale`
(`_push.py:140-181`) after `w` has been computed. -/
def pushDataBody (order : ℕ) (w : K) (data out : Mom K) : Option (Mom K) :=
  if w = 0 then some out
  else
    let out := Function.update out 0 (out 0 + w)
    if out 0 = 0 then none
    else
      let alpha := w / out 0
      let one_alpha := 1 - alpha
      let delta := data 1 - out 1
      let incr := delta * alpha
      let out := Function.update out 1 (out 1 + incr)
      if order = 1 then some out
      else
        let out := (rangeDown order 2).foldl
          (fun out a => Function.update out a (pushDataTmp a delta alpha one_alpha data out)) out
        some (Function.update out 2 (data 2 * alpha + one_alpha * (out 2 + delta * incr)))

/-- `_push.py:79-126` `push_data(data, out)`. -/
def pushData (order : ℕ) (data out : Mom K) : Option (Mom K) :=
  pushDataBody order (data 0) data out

/-- `_push.py:136-181` `push_data_scale(data, scale, out)`. -/
def pushDataScale (order : ℕ) (data : Mom K) (scale : K) (out : Mom K) : Option (Mom K) :=
  pushDataBody order (data 0 * scale) data out

end Cmomy
