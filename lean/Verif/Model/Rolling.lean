import Verif.Model.Kernel
import Mathlib.Data.Int.Notation
import Mathlib.Order.Lattice
import Mathlib.Order.Defs.LinearOrder

/-!
# Rolling and exponential averages

`_lib/_rolling.py`, `_lib/_rolling_cov.py` (same text over the two pusher modules), the wrappers in
`_lib/rolling.py`, `_lib/rolling_cov.py`, and the driver code in `rolling.py`.
A row is `some m` (moments written) or `none` (`np.nan` written). The result of a whole run is
`none` when some step divided by zero: nothing is claimed about the numbers then.
-/

namespace Cmomy

/-- `for a in xs: state = step(state, a); out[i] = emit(state)`. -/
def scanEmit {σ α β : Type*} (step : σ → α → Option σ) (emit : σ → β) :
    List α → σ → Option (List β × σ)
  | [], s => some ([], s)
  | a :: as, s =>
    (step s a).bind fun s' =>
      (scanEmit step emit as s').map fun p => (emit s' :: p.1, p.2)

namespace Kernel

variable {K V M : Type*} [Field K] [LinearOrder K] (k : Kernel K V M)

/-- Local variables `dummy_mom`, `count`. -/
structure RollState (M : Type*) where
  dummy : M
  count : ℤ

/-- `_rolling.py:43-46`: `out[i] = dummy_mom if count >= min_count else nan`. -/
def rollEmit (minCount : ℤ) (s : RollState M) : Option M :=
  if s.count ≥ minCount then some s.dummy else none

/-- `_rolling.py:37-41`: body of the first loop. -/
def rollAdd (s : RollState M) (d : M) : Option (RollState M) :=
  if k.weight d ≠ 0 then do
    let m ← k.pushData d s.dummy
    return ⟨m, s.count + 1⟩
  else some s

/-- `_rolling.py:48-67`: body of the second loop, on `(data[i], data[i - window])`. Lines
57-59 do what the first loop does with row `i`. -/
def rollStep (s : RollState M) (p : M × M) : Option (RollState M) := do
  let wold := k.weight p.2
  let s ← k.rollAdd s p.1
  if wold ≠ 0 then
    if wold < k.weight s.dummy then do
      let m ← k.pushScale p.2 (-1) s.dummy
      return ⟨m, s.count - 1⟩
    else return ⟨k.zero, s.count - 1⟩
  else return s

/-- `_rolling.py:29-72`, `_rolling_cov.py:29-72` `rolling_data(window, min_count, data, out)`.
The first loop runs over `data[:window]`; the second over `i >= window`, paired with
`data[i - window]`, which is `data` read from its start. `window` is not negative. -/
def rollingKernel (window : ℕ) (minCount : ℤ) (data : List M) : Option (List (Option M)) := do
  let first ← scanEmit k.rollAdd (rollEmit minCount) (data.take window) ⟨k.zero, 0⟩
  let rest ← scanEmit k.rollStep (rollEmit minCount) ((data.drop window).zip data) first.2
  return first.1 ++ rest.1

/-- `_rolling.py:106-110`: body of the first loop over values. -/
def rollAddVal (s : RollState M) (p : V × K) : Option (RollState M) :=
  if p.2 ≠ 0 then do
    let m ← k.pushVal p.1 p.2 s.dummy
    return ⟨m, s.count + 1⟩
  else some s

/-- `_rolling.py:117-136`: body of the second loop over values. -/
def rollStepVal (s : RollState M) (p : (V × K) × (V × K)) : Option (RollState M) := do
  let wold := p.2.2
  let s ← k.rollAddVal s p.1
  if wold ≠ 0 then
    if wold < k.weight s.dummy then do
      let m ← k.pushVal p.2.1 (-wold) s.dummy
      return ⟨m, s.count - 1⟩
    else return ⟨k.zero, s.count - 1⟩
  else return s

/-- `_rolling.py:94-141`, `_rolling_cov.py:96-145` `rolling_vals`. -/
def rollingValsKernel (window : ℕ) (minCount : ℤ) (xs : List (V × K)) :
    Option (List (Option M)) := do
  let first ← scanEmit k.rollAddVal (rollEmit minCount) (xs.take window) ⟨k.zero, 0⟩
  let rest ← scanEmit k.rollStepVal (rollEmit minCount) ((xs.drop window).zip xs) first.2
  return first.1 ++ rest.1

/-- `rolling.py:530,810`: `shift = (-window // 2) + 1`, floor division. -/
def centerShift (window : ℕ) : ℤ := (-(window : ℤ)) / 2 + 1

/-- `rolling.py:511-574` `_rolling_data` for one value position: default of `min_periods`
(`window`), `max(min_count, 1)` of `_lib/rolling.py:45`, padding at the end with zeros
(`_pad_along_axis`, `rolling.py:298-308`) and dropping the first `-shift` rows when centred.
A positive shift (only `window = 0`) makes `np.pad` raise; the model is meant for `1 ≤ window`. -/
def rollingData (window : ℕ) (minPeriods : Option ℤ) (center : Bool) (data : List M) :
    Option (List (Option M)) :=
  let minPeriods := minPeriods.getD window
  if center then do
    let pad := (-centerShift window).toNat
    let rows ← k.rollingKernel window (max minPeriods 1) (data ++ List.replicate pad k.zero)
    return rows.drop pad
  else k.rollingKernel window (max minPeriods 1) data

/-- `rolling.py:787-856` `_rolling_vals` for one value position; `x0` is the padding value 0. -/
def rollingVals (x0 : V) (window : ℕ) (minPeriods : Option ℤ) (center : Bool)
    (xs : List (V × K)) : Option (List (Option M)) :=
  let minPeriods := minPeriods.getD window
  if center then do
    let pad := (-centerShift window).toNat
    let rows ← k.rollingValsKernel window (max minPeriods 1) (xs ++ List.replicate pad (x0, 0))
    return rows.drop pad
  else k.rollingValsKernel window (max minPeriods 1) xs

/-- Local variables `dummy_mom`, `count`, `old_weight`. -/
structure ExpState (K M : Type*) where
  dummy : M
  count : ℤ
  oldWeight : K

/-- `_rolling.py:196-199`. -/
def expEmit (minCount : ℤ) (s : ExpState K M) : Option M :=
  if s.count ≥ minCount then some s.dummy else none

/-- `_rolling.py:187-194`, after the push, when `not adjust`. -/
def expRenorm (alpha : K) (s : ExpState K M) : Option (ExpState K M) :=
  let ow := s.oldWeight + alpha
  if ow = 0 then none else some ⟨k.mulWeight s.dummy ow⁻¹, s.count, 1⟩

/-- `_rolling.py:176-199`: loop body of `rolling_exp_data` on `(alpha[i], data[i])`. -/
def expStep (adjust : Bool) (s : ExpState K M) (p : K × M) : Option (ExpState K M) :=
  let decay := 1 - p.1
  let s : ExpState K M := ⟨k.mulWeight s.dummy decay, s.count, s.oldWeight * decay⟩
  if k.weight p.2 ≠ 0 then
    let scale := if adjust then 1 else p.1
    (k.pushScale p.2 scale s.dummy).bind fun m =>
      let s : ExpState K M := ⟨m, s.count + 1, s.oldWeight⟩
      if !adjust then k.expRenorm p.1 s else some s
  else some s

/-- `_rolling.py:163-199`, `_rolling_cov.py:167-202` `rolling_exp_data`, with the
default `min_periods` of `rolling.py:1152` and the `max(min_count, 1)` of `_lib/rolling.py:108`. -/
def rollingExpData (adjust : Bool) (minPeriods : Option ℤ) (alpha : List K) (data : List M) :
    Option (List (Option M)) :=
  let minCount := max (max 1 (minPeriods.getD 1)) 1
  (scanEmit (k.expStep adjust) (expEmit minCount) (alpha.zip data) ⟨k.zero, 0, 0⟩).map Prod.fst

/-- `_rolling.py:237-261`: loop body of `rolling_exp_vals` on `(alpha[i], x[i], w[i])`. -/
def expStepVal (adjust : Bool) (s : ExpState K M) (p : K × V × K) : Option (ExpState K M) :=
  let decay := 1 - p.1
  let s : ExpState K M := ⟨k.mulWeight s.dummy decay, s.count, s.oldWeight * decay⟩
  if p.2.2 ≠ 0 then
    let scale := if adjust then p.2.2 else p.2.2 * p.1
    (k.pushVal p.2.1 scale s.dummy).bind fun m =>
      let s : ExpState K M := ⟨m, s.count + 1, s.oldWeight⟩
      if !adjust then k.expRenorm p.1 s else some s
  else some s

/-- `_rolling.py:223-261`, `_rolling_cov.py:228-265` `rolling_exp_vals`. -/
def rollingExpVals (adjust : Bool) (minPeriods : Option ℤ) (alpha : List K) (xs : List (V × K)) :
    Option (List (Option M)) :=
  let minCount := max (max 1 (minPeriods.getD 1)) 1
  (scanEmit (k.expStepVal adjust) (expEmit minCount) (alpha.zip xs) ⟨k.zero, 0, 0⟩).map Prod.fst

end Kernel

section bias

variable {K : Type*} [Field K] [LinearOrder K]

/-- Local variables of `rolling_exp_var_bias_correction`. -/
structure BiasState (K : Type*) where
  sumWeight : K
  sumWeight2 : K
  oldWeight : K

/-- `_lib/rolling.py:186-202`: loop body on `(alpha[i], weight[i])`; `none` when `old_weight` is 0 at
the division. -/
def biasStep (adjust : Bool) (s : BiasState K) (p : K × K) : Option (BiasState K) :=
  let decay := 1 - p.1
  let s : BiasState K := ⟨s.sumWeight * decay, s.sumWeight2 * (decay * decay), s.oldWeight * decay⟩
  if p.2 ≠ 0 then
    let new := if adjust then 1 else p.1
    let s : BiasState K := ⟨s.sumWeight + p.2 * new, s.sumWeight2 + p.2 * new ^ 2, s.oldWeight⟩
    if !adjust then
      let ow := s.oldWeight + new
      if ow = 0 then none else some ⟨s.sumWeight / ow, s.sumWeight2 / ow ^ 2, 1⟩
    else some s
  else some s

/-- `_lib/rolling.py:203-205`: the value written; `none` is `np.nan`. -/
def biasEmit (s : BiasState K) : Option K :=
  let num := s.sumWeight * s.sumWeight
  let den := num - s.sumWeight2
  if den > 0 then some (num / den) else none

/-- `_lib/rolling.py:166-205` `rolling_exp_var_bias_correction(weight, alpha, adjust)`. -/
def biasCorrection (adjust : Bool) (alpha weight : List K) : Option (List (Option K)) :=
  (scanEmit (biasStep adjust) biasEmit (alpha.zip weight) ⟨0, 0, 0⟩).map Prod.fst

end bias

end Cmomy
