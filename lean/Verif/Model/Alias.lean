import Verif.Model.PushCov

/-!
# Pushing an array into itself

`a += a` and `a.push_data(a.obj)` pass the same memory as `data` and as `out`
(`wrapper/wrap_abc.py:494-497`, `wrapper/wrap_np.py:364-412`). NumPy may or may not copy
overlapping gufunc operands. With a copy this is `pushData order m m`. Without one, every read of
`data[...]` sees what has been written so far: these definitions.
-/

namespace Cmomy

variable {K : Type*} [Field K] [DecidableEq K]

/-- `_push.py:79-126` with `data is out`: every `data[c]` is read from the current buffer. -/
def pushDataAliased (order : ℕ) (out : Mom K) : Option (Mom K) :=
  let w := out 0
  if w = 0 then some out
  else
    let out := Function.update out 0 (out 0 + w)
    if out 0 = 0 then none
    else
      let alpha := w / out 0
      let one_alpha := 1 - alpha
      let delta := out 1 - out 1
      let incr := delta * alpha
      let out := Function.update out 1 (out 1 + incr)
      if order = 1 then some out
      else
        let out := (rangeDown order 2).foldl
          (fun out a => Function.update out a (pushDataTmp a delta alpha one_alpha out out)) out
        some (Function.update out 2 (out 2 * alpha + one_alpha * (out 2 + delta * incr)))

/-- `_push_cov.py:106-175` with `data is out`. -/
def pushDataCovAliased (order0 order1 : ℕ) (out : Com K) : Option (Com K) :=
  let w := out 0 0
  if w = 0 then some out
  else
    let out := setAt out 0 0 (out 0 0 + w)
    if out 0 0 = 0 then none
    else
      let alpha := w / out 0 0
      let one_alpha := 1 - alpha
      let delta0 := out 1 0 - out 1 0
      let delta1 := out 0 1 - out 0 1
      let incr0 := delta0 * alpha
      let incr1 := delta1 * alpha
      let out := setAt out 1 0 (out 1 0 + incr0)
      let out := setAt out 0 1 (out 0 1 + incr1)
      let a0_min := max 0 (2 - order1)
      some ((rangeDownTo order0 a0_min).foldl (fun out a0 =>
        let a1_min := max 0 (2 - a0)
        (rangeDownTo order1 a1_min).foldl (fun out a1 =>
          setAt out a0 a1 (pushDataCovTmp a0 a1 delta0 delta1 alpha one_alpha out out)) out) out)

end Cmomy
