import Verif.Model.Convert
import Verif.Model.LabelledNd
import Verif.Model.Select
import Verif.Model.Validate

/-!
# Moments to comoments and back, for whole arrays and objects

`moments_to_comoments` and `comoments_to_moments` for arrays with any number of axes, for `DataArray`s,
and the method of the objects. What happens at one value position is in `Model/Convert.lean`. Data types,
memory order, coordinates, attributes, dask and `Dataset` are not modelled.
-/

namespace Cmomy.Convert

open Nd

variable {K : Type}

/-- `convert.py:734-751` `moments_to_comoments(data, mom=mom, mom_axes=axis)`, array branch. `mem` is what
`np.empty` holds. The assignments `out[..., i, j] = data[..., i + j]` go through all value positions
alike. -/
def momentsToComomentsNd (data : Arr K) (axis : ℤ) (mom : List ℤ) (mem : Com K) : Py (Arr K) :=
  (Select.moveaxis data [axis] [-1]).bind fun w =>
  let n := w.shape.length - 1
  (validateMom mom ((w.shape.getD n 0 : ℤ) - 1)).map fun m => {
    shape := w.shape.take n ++ [(m.1 + 1).toNat, (m.2 + 1).toNat]
    get := fun i => momentsToComoments m.1.toNat m.2.toNat
      (fun k => w.get (fun p => if p < n then i p else k)) mem (i n) (i (n + 1)) }

/-- `convert.py:878-897` `comoments_to_moments(data, mom_axes=axes)`, array branch. Nothing is claimed
when a moment axis is empty: the result is then made of uninitialised memory. -/
def comomentsToMomentsNd (data : Arr K) (axes : List ℤ) (mem : Mom K) : Py (Arr K) :=
  (Select.moveaxis data axes [-2, -1]).bind fun w =>
  let n := w.shape.length - 2
  let n0 := w.shape.getD n 0
  let n1 := w.shape.getD (n + 1) 0
  if n0 = 0 ∨ n1 = 0 then .error .undefined
  else .ok {
    shape := w.shape.take n ++ [n0 + n1 - 1]
    get := fun i => comomentsToMoments (n0 - 1) (n1 - 1)
      (fun j k => w.get (fun p => if p < n then i p else if p = n then j else k)) mem (i n) }

/-- `wrapper/wrap_abc.py:811-862` `moments_to_comoments(mom)` of an object over an array with `nd` moment
axes; method at `wrapper/wrap_np.py:661-675`. -/
def objectToComoments (nd : ℕ) (obj : Arr K) (mom : List ℤ) (mem : Com K) : Py (Arr K) :=
  if nd ≠ 1 then .error .valueError
  else
    (momentsToComomentsNd obj (-1) mom mem).bind fun out =>
    (Validate.construct (δ := Unit) out (.obj ⟨2, [-2, -1]⟩) none none).map Prod.fst

end Cmomy.Convert

namespace Cmomy.Labelled

open Cmomy.Convert

variable {δ : Type} [DecidableEq δ] {K : Type}

/-- `data.rename({old: tmp})` when the name is needed for the result: the array, and the name that `old`
has now. -/
def makeRoom (x : DataArray δ K) (old : δ) (needed : Bool) (tmp : δ) : Py (DataArray δ K × δ) :=
  if needed then (x.rename old tmp).map (fun y => (y, tmp)) else .ok (x, old)

/-- `convert.py:698-732` `moments_to_comoments`, `DataArray` branch. `tmp d` stands for `f"_tmp_{d}"`,
`outs` for the names of the new moment dimensions. -/
def momentsToComomentsX (tmp : δ → δ) (x : DataArray δ K) (dim : δ) (outs : List δ) (mom : List ℤ)
    (mem : Com K) : Py (DataArray δ K) :=
  (makeRoom x dim (decide (dim ∈ outs)) (tmp dim)).bind fun r =>
  (validateMom mom ((r.1.size r.2 : ℤ) - 1)).bind fun _ =>
  applyUfunc r.1 [r.2] [] outs [] (fun a => momentsToComomentsNd a (-1) mom mem)

/-- `convert.py:846-876` `comoments_to_moments`, `DataArray` branch. -/
def comomentsToMomentsX (tmp : δ → δ) (x : DataArray δ K) (dims : List δ) (out : δ) (mem : Mom K) :
    Py (DataArray δ K) :=
  (makeRoom x out (decide (out ∈ dims)) (tmp out)).bind fun r =>
  applyUfunc r.1 (dims.map (fun d => if d = out then r.2 else d)) [] [out] []
    (fun a => comomentsToMomentsNd a [-2, -1] mem)

/-- `wrapper/wrap_abc.py:811-862` `moments_to_comoments(mom, mom_dims_out)` of an object over a `DataArray`
with moment dimensions `moms`. -/
def objectToComomentsX (tmp : δ → δ) (obj : DataArray δ K) (moms outs : List δ) (mom : List ℤ)
    (mem : Com K) : Py (DataArray δ K) :=
  match moms with
  | [dim] => momentsToComomentsX tmp obj dim outs mom mem
  | _ => .error .valueError

end Cmomy.Labelled
