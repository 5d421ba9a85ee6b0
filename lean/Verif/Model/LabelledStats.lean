import Verif.Model.LabelledPush
import Verif.Model.ObjectStats

/-!
# Statistics of a labelled object

Selecting and assigning moments of a `DataArray` by name, and the statistics and the multiplication of a
`CentralMomentsData` over a `DataArray`. `apply_ufunc` is modelled by its contract, see
`Model/LabelledNd.lean`. Coordinates, attributes, data types, dask and `Dataset` are not modelled, nor
is a value that shares memory with the object.
-/

namespace Cmomy.Labelled

open Select ObjectStats

variable {δ : Type} [DecidableEq δ] {α : Type}

/-- `name in {"ave", "var"} and (mom_params.ndim != 1 or not squeeze)`: one entry per variable. -/
def perVariable (nd : ℕ) (name : String) (squeeze : Bool) : Bool :=
  decide (name = "ave" ∨ name = "var") && (decide (nd ≠ 1) || !squeeze)

/-- `name.startswith(start)` -/
def startsWith (start name : String) : Bool := start.toList.isPrefixOf name.toList

/-- `utils.py:474-497`: the core dimensions of the result of `select_moment`. -/
def selectCore (moms : List δ) (name : String) (squeeze : Bool) (combined : δ) : List δ :=
  if perVariable moms.length name squeeze then [combined]
  else if startsWith "xmom_" name then moms.drop 1
  else if startsWith "ymom_" name then moms.take 1
  else []

/-- `utils.py:460-524` `select_moment`, `DataArray` branch; method at `wrapper/wrap_abc.py:646-692`.
`combined` is `dim_combined`; `ncoords` the length of `coords_combined`, if given. -/
def selectMomentX (moms : List δ) (obj : DataArray δ α) (name : String) (squeeze : Bool)
    (combined : δ) (ncoords : Option ℕ) : Py (DataArray δ α) :=
  if name = "all" then .ok obj
  else if perVariable moms.length name squeeze = true ∧ ncoords.getD moms.length ≠ moms.length then
    .error .valueError
  else
    applyUfunc obj moms [] (selectCore moms name squeeze combined) [] (fun a =>
      selectMoment a (Select.axesLast moms.length) name squeeze)

/-- `utils.py:704-724`: the core dimensions of a value to be assigned. -/
def assignCore (moms : List δ) (name : String) (squeeze : Bool) (combined : Option δ) :
    Operand δ α → List δ
  | .plain _ => []
  | .named _ =>
    if perVariable moms.length name squeeze && combined.isSome then combined.toList
    else if startsWith "xmom_" name then moms.drop 1
    else if startsWith "ymom_" name then moms.take 1
    else if name = "all" then moms
    else []

/-- The array `obj` after its data, seen as an array `w` with dimensions `T` (without the leading ones
that `obj` does not have), were written to. -/
def DataArray.written (obj : DataArray δ α) (T : List δ) (w : Nd.Arr α) : DataArray δ α :=
  { obj with
    data := fun idx => w.get (fun p =>
      ((T.dropWhile (fun d => decide (d ∉ obj.dims)))[p]?.map (fun d =>
        idx.getD (obj.dims.idxOf d) 0)).getD 0) }

/-- The operands of `apply_ufunc` in `assign_moment`. -/
def assignOps (moms : List δ) (values : List (String × Operand δ α)) (squeeze : Bool)
    (combined : Option δ) : List (Operand δ α × List δ) :=
  values.map (fun v => (v.2, assignCore moms v.1 squeeze combined v.2))

/-- Names and sizes of the labelled operands. -/
def assignFrames (obj : DataArray δ α) (ops : List (Operand δ α × List δ)) : List (Frame δ) :=
  obj.frame :: ops.filterMap (fun o : Operand δ α × List δ => o.1.frame?)

/-- What `apply_ufunc` prepares: the loop dimensions, the arranged object and the arranged values. -/
def assignPrepare (moms : List δ) (obj : DataArray δ α) (ops : List (Operand δ α × List δ)) :
    Py (List δ × Nd.Arr α × List (Nd.Arr α)) :=
  (loopDims (assignFrames obj ops) [] (moms ++ ops.flatMap Prod.snd)).bind fun loop =>
  (compatData obj loop moms).bind fun out =>
  (ops.mapM (fun o : Operand δ α × List δ => o.1.arrangeAs loop o.2)).map fun as => (loop, out, as)

/-- `utils.py:686-745` `assign_moment`, `DataArray` branch; method at `wrapper/wrap_abc.py:694-753`. The
object's array afterwards, and the result. Without `copy` the writes reach the object's array, of which
the arranged array is a view. -/
def assignMomentX (moms : List δ) (obj : DataArray δ α) (values : List (String × Operand δ α))
    (squeeze : Bool) (combined : Option δ) (copy : Bool) : DataArray δ α × Py (DataArray δ α) :=
  let ops := assignOps moms values squeeze combined
  match assignPrepare moms obj ops with
  | .error e => (obj, .error e)
  | .ok (loop, out, as) =>
    let r := assignMoment out (Select.axesLast moms.length) ((values.map Prod.fst).zip as) squeeze copy
    (obj.written (loop ++ moms) r.1,
      r.2.bind (wrapResult (assignFrames obj ops) [] (loop ++ moms)))

/-- `wrapper/wrap_abc.py:1102-1104` `weight()`; `vn` is the default, "variable", of `dim_combined`. -/
def weightNamed (moms : List δ) (vn : δ) (obj : DataArray δ α) : Py (DataArray δ α) :=
  selectMomentX moms obj "weight" true vn none

/-- `wrapper/wrap_abc.py:1106-1108` `mean(squeeze)` -/
def meanNamed (moms : List δ) (vn : δ) (obj : DataArray δ α) (squeeze : Bool) :
    Py (DataArray δ α) :=
  selectMomentX moms obj "ave" squeeze vn none

/-- `wrapper/wrap_abc.py:1110-1112` `var(squeeze)` -/
def varNamed (moms : List δ) (vn : δ) (obj : DataArray δ α) (squeeze : Bool) :
    Py (DataArray δ α) :=
  selectMomentX moms obj "var" squeeze vn none

/-- `x` with `f` applied to every entry. -/
def DataArray.mapEntries {β : Type} (f : α → β) (x : DataArray δ α) : DataArray δ β where
  dims := x.dims
  data idx := f (x.data idx)
  size := x.size

/-- `wrapper/wrap_abc.py:1114-1118` `std(squeeze)`; `sqrt` is the square root. -/
def stdNamed (sqrt : α → α) (moms : List δ) (vn : δ) (obj : DataArray δ α) (squeeze : Bool) :
    Py (DataArray δ α) :=
  (varNamed moms vn obj squeeze).map (DataArray.mapEntries sqrt)

/-- `wrapper/wrap_abc.py:1120-1122` `cov()` -/
def covNamed (moms : List δ) (vn : δ) (obj : DataArray δ α) : Py (DataArray δ α) :=
  selectMomentX moms obj "cov" true vn none

variable {K M : Type} [Field K] [DecidableEq K]

/-- `wrapper/wrap_abc.py:514-522` `obj * scale` (with `copy`) and `obj *= scale` (without). The object's
array afterwards, and the result. -/
def mulNamed (moms : List δ) (vn : δ) (obj : DataArray δ K) (scale : K) (copy : Bool) :
    DataArray δ K × Py (DataArray δ K) :=
  match weightNamed moms vn obj with
  | .error e => (obj, .error e)
  | .ok w => assignMomentX moms obj [("weight", .named (w.mapEntries (· * scale)))] true none copy

/-- `wrapper/wrap_abc.py:1124-1149` `cmom()`: a copy with weight one and mean zero. -/
def cmomNamed (moms : List δ) (obj : DataArray δ K) : Py (DataArray δ K) :=
  (assignMomentX moms obj [("weight", .plain (num 1)), ("ave", .plain (num 0))] true none true).2

/-- `wrapper/wrap_abc.py:1151-1184` `to_raw(weight=...)`; `conv` is the kernel that turns central into
raw moments. -/
def toRawNamed (core : Nd.Core K M) (conv : M → M) (moms : List δ) (obj : DataArray δ K)
    (weight : Option (Operand δ K)) : Py (DataArray δ K) :=
  (momentsTypeX core conv false obj moms false).bind fun out =>
  match weight with
  | none => .ok out
  | some w => (assignMomentX moms out [("weight", w)] true none false).2

/-- `wrapper/wrap_abc.py:1186-1213` `rmom()` -/
def rmomNamed (core : Nd.Core K M) (conv : M → M) (moms : List δ) (obj : DataArray δ K) :
    Py (DataArray δ K) :=
  toRawNamed core conv moms obj (some (.plain (num 1)))

end Cmomy.Labelled
