import Verif.Model.Select
import Verif.Model.AxisOps

/-!
# Statistics of an array object

`wrapper/wrap_abc.py:1101-1215`, for `CentralMomentsArray`, whose moment axes are the last ones
(`wrapper/wrap_np.py:166-171`). Data types are not modelled.
-/

namespace Cmomy.ObjectStats

open Nd Select

variable {K M : Type*}

/-- A Python number where an array is expected: no axes. -/
def num (c : K) : Arr K := ⟨[], fun _ => c⟩

/-- `wrapper/wrap_abc.py:1102-1104` `weight()`; `d` is `mom_ndim`. -/
def weight (d : ℕ) (obj : Arr K) : Py (Arr K) := selectMoment obj (Select.axesLast d) "weight" true

/-- `wrapper/wrap_abc.py:1106-1108` `mean(squeeze)` -/
def mean (d : ℕ) (obj : Arr K) (squeeze : Bool) : Py (Arr K) :=
  selectMoment obj (Select.axesLast d) "ave" squeeze

/-- `wrapper/wrap_abc.py:1110-1112` `var(squeeze)` -/
def var (d : ℕ) (obj : Arr K) (squeeze : Bool) : Py (Arr K) :=
  selectMoment obj (Select.axesLast d) "var" squeeze

/-- `wrapper/wrap_abc.py:1114-1118` `std(squeeze)`; `sqrt` is the square root. -/
def std (sqrt : K → K) (d : ℕ) (obj : Arr K) (squeeze : Bool) : Py (Arr K) :=
  (var d obj squeeze).map fun v => ⟨v.shape, fun i => sqrt (v.get i)⟩

/-- `wrapper/wrap_abc.py:1120-1122` `cov()` -/
def cov (d : ℕ) (obj : Arr K) : Py (Arr K) := selectMoment obj (Select.axesLast d) "cov" true

variable [Field K] [DecidableEq K]

/-- `wrapper/wrap_abc.py:1124-1149` `cmom()`: a copy with weight one and mean zero. -/
def cmom (d : ℕ) (obj : Arr K) : Py (Arr K) :=
  (assignMoment obj (Select.axesLast d) [("weight", num 1), ("ave", num 0)] true true).2

/-- `wrapper/wrap_abc.py:1151-1184` `to_raw(weight=...)`; `conv` is the kernel that turns central into
raw moments. -/
def toRaw (core : Core K M) (conv : M → M) (obj : Arr K) (weight : Option (Arr K)) : Py (Arr K) :=
  (momentsTypeNd core conv false obj (Nd.axesLast core.nd) false).bind fun out =>
  match weight with
  | none => .ok out
  | some w => (assignMoment out (Select.axesLast core.nd) [("weight", w)] true false).2

/-- `wrapper/wrap_abc.py:1186-1213` `rmom()` -/
def rmom (core : Core K M) (conv : M → M) (obj : Arr K) : Py (Arr K) :=
  toRaw core conv obj (some (num 1))

end Cmomy.ObjectStats
