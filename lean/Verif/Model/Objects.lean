import Verif.Model.Loops
import Verif.Model.Alias
import Verif.Model.Errors

/-!
# Moment objects over shared memory

`wrapper/wrap_abc.py:307-327, 352-355, 487-522`, `wrapper/wrap_np.py:140-560`: the in-place and out-of-place operations
of `CentralMomentsArray`.

An object is a class, a moment shape and a list of memory cells, one moment array per value position
(the value dimensions are flattened). Views share cells. Python variables are positions in a list of
objects.

Simplifications: numbers are exact; value shapes broadcast as lists of length `n` or `1`; basic
indexing `a[key]` is given as the list of positions it keeps, each at most once. The object an
operation writes to is never broadcast (NumPy refuses to broadcast an operand that is written).
Whether NumPy buffers operands that overlap the written one is a parameter `buf`: the loop reads
the data either from memory as it was before the call, or as it is when it is reached.
`none` is a division by zero.
-/

namespace Cmomy

section selfPush

variable {K : Type} [Field K] [DecidableEq K]

/-- `_push.py:136-181` `push_data_scale(data, scale, out)` with `data is out`. -/
def pushDataScaleAliased (order : ℕ) (scale : K) (out : Mom K) : Option (Mom K) :=
  let w := out 0 * scale
  if w = 0 then some out
  else
    let out := Function.update out 0 (out 0 + w)
    if out 0 = 0 then none
    else
      let alpha := w / out 0
      let one_alpha := 1 - alpha
      let delta := out 1 - out 1
      let incr := delta * alpha
      let out := Function.update out 1 (out 1 + incr)
      if order = 1 then some out
      else
        let out := (rangeDown order 2).foldl
          (fun out a => Function.update out a (pushDataTmp a delta alpha one_alpha out out)) out
        some (Function.update out 2 (out 2 * alpha + one_alpha * (out 2 + delta * incr)))

/-- `_push_cov.py:187-256` with `data is out`. -/
def pushDataScaleCovAliased (order0 order1 : ℕ) (scale : K) (out : Com K) : Option (Com K) :=
  let w := out 0 0 * scale
  if w = 0 then some out
  else
    let out := setAt out 0 0 (out 0 0 + w)
    if out 0 0 = 0 then none
    else
      let alpha := w / out 0 0
      let one_alpha := 1 - alpha
      let delta0 := out 1 0 - out 1 0
      let delta1 := out 0 1 - out 0 1
      let incr0 := delta0 * alpha
      let incr1 := delta1 * alpha
      let out := setAt out 1 0 (out 1 0 + incr0)
      let out := setAt out 0 1 (out 0 1 + incr1)
      let a0_min := max 0 (2 - order1)
      some ((rangeDownTo order0 a0_min).foldl (fun out a0 =>
        let a1_min := max 0 (2 - a0)
        (rangeDownTo order1 a1_min).foldl (fun out a1 =>
          setAt out a0 a1 (pushDataCovTmp a0 a1 delta0 delta1 alpha one_alpha out out)) out) out)

end selfPush

namespace Objects

/-- The moments an object holds (`self.mom`): one variable to order `o`, or two variables. -/
inductive Shape
  | one (o : ℕ)
  | two (o0 o1 : ℕ)
deriving DecidableEq, Repr

/-- `self.mom_ndim` -/
def Shape.ndim : Shape → ℕ
  | .one _ => 1
  | .two _ _ => 2

/-- `wrap_abc.py:108-111`, `validate.py` `validate_mom`: every order is positive. -/
def Shape.Ok : Shape → Prop
  | .one o => 1 ≤ o
  | .two o0 o1 => 1 ≤ o0 ∧ 1 ≤ o1

instance (s : Shape) : Decidable s.Ok := by
  cases s <;> unfold Shape.Ok <;> infer_instance

/-- One moment array. -/
abbrev Shape.Cell (K : Type) : Shape → Type
  | .one _ => Mom K
  | .two _ _ => Com K

/-- One value: `x`, or `x` and `y`. -/
abbrev Shape.Val (K : Type) : Shape → Type
  | .one _ => K
  | .two _ _ => K × K

/-- The Python class of an object: `CentralMomentsArray` or another one. -/
inductive Cls
  | array
  | data
deriving DecidableEq, Repr

/-- An object; `cells` are the addresses of its moment arrays, one per value position. -/
structure Obj where
  cls : Cls
  shape : Shape
  cells : List ℕ
deriving DecidableEq, Repr

section

variable {K : Type} [Field K] [DecidableEq K]

/-- `factory.py` `factory_pusher(mom_ndim)`: the pushers of a moment shape. -/
def kern : (s : Shape) → Kernel K (s.Val K) (s.Cell K)
  | .one o => kernel1 o
  | .two o0 o1 => kernel2 o0 o1

/-- `push_data(out, out)`, `push_data_scale(out, scale, out)` without buffering. -/
def aliased : (s : Shape) → Option K → s.Cell K → Option (s.Cell K)
  | .one o, none, m => pushDataAliased o m
  | .one o, some c, m => pushDataScaleAliased o c m
  | .two o0 o1, none, m => pushDataCovAliased o0 o1 m
  | .two o0 o1, some c, m => pushDataScaleCovAliased o0 o1 c m

/-- `wrap_np.py:392-411`: the pusher chosen by `push_data(data, scale=...)`. -/
def pusher (s : Shape) (scale : Option K) (data out : s.Cell K) : Option (s.Cell K) :=
  match scale with
  | none => (kern s).pushData data out
  | some c => (kern s).pushScale data c out

/-- The value tuple passed to the kernel. -/
def valOf : (s : Shape) → K → List K → s.Val K
  | .one _, x, _ => x
  | .two _ _, x, ys => (x, ys.headD 0)

/-- Memory, the next free address, and the objects in scope. -/
structure State (K : Type) where
  mem : (s : Shape) → ℕ → s.Cell K
  next : ℕ
  objs : List Obj

/-- Outcome of an operation: returned or raised, and the state it leaves. `none`: division by zero. -/
abbrev Outcome (K : Type) := Option (Py Unit × State K)

/-- Raise, leaving the state as it is. -/
def raise (e : PyErr) (σ : State K) : Outcome K := some (.error e, σ)

/-- Values broadcast to `n` positions. -/
def spread {α : Type} (n : ℕ) (l : List α) : Option (List α) :=
  if l.length = n then some l
  else match l with
    | [a] => some (List.replicate n a)
    | _ => none

/-- The loop of the `data` / `data_scale` / `datas` gufuncs over the value positions: for every
position its cell and the cells pushed into it, in order. -/
def pushRows (buf : Bool) (s : Shape) (scale : Option K) (rows : List (ℕ × List ℕ))
    (m : ℕ → s.Cell K) : Option (ℕ → s.Cell K) :=
  rows.foldlM (fun cur row =>
    row.2.foldlM (fun cur src => do
      let r ← if buf then pusher s scale (m src) (cur row.1)
        else if src = row.1 then aliased s scale (cur row.1)
        else pusher s scale (cur src) (cur row.1)
      some (Function.update cur row.1 r)) cur) m

/-- Fresh cells with the given contents. -/
def alloc (s : Shape) (contents : List (s.Cell K)) (σ : State K) : List ℕ × State K :=
  (List.range' σ.next contents.length,
   { σ with
     mem := Function.update σ.mem s fun a =>
       if σ.next ≤ a then (contents[a - σ.next]?).getD (σ.mem s a) else σ.mem s a
     next := σ.next + contents.length })

/-- Bring a new object into scope. -/
def bindObj (o : Obj) (σ : State K) : State K := { σ with objs := σ.objs ++ [o] }

/-- The outcome of a loop that wrote the memory of moment shape `s`. -/
def finish (σ : State K) (s : Shape) (run : Option (ℕ → s.Cell K)) : Outcome K :=
  match run with
  | none => none
  | some m => some (.ok (), { σ with mem := Function.update σ.mem s m })

/-- `wrap_np.py:364-412` `push_data(data, scale=scale)`, `data` an array of the given moment shape and cells.
Core dimensions that differ: `ValueError`. An array with another number of moment axes is
reinterpreted by NumPy; not modelled (`none`). -/
def pushData (buf : Bool) (a : Obj) (dshape : Shape) (dcells : List ℕ) (scale : Option K)
    (σ : State K) : Outcome K :=
  if dshape.ndim ≠ a.shape.ndim then none
  else if dshape ≠ a.shape then raise .valueError σ
  else match spread a.cells.length dcells with
    | none => raise .valueError σ
    | some srcs =>
      finish σ a.shape (pushRows buf a.shape scale (a.cells.zip (srcs.map fun c => [c])) (σ.mem a.shape))

/-- `wrap_np.py:439-459` `push_datas(datas)`: `datas` is an array of the given cells, one row of `k`
cells per position (or one row for all positions); `none` if there is no such arrangement. -/
def pushDatas (buf : Bool) (a : Obj) (dshape : Shape) (drows : Option (List (List ℕ)))
    (σ : State K) : Outcome K :=
  if dshape.ndim ≠ a.shape.ndim then none
  else if dshape ≠ a.shape then raise .valueError σ
  else match drows.bind (spread a.cells.length) with
    | none => raise .valueError σ
    | some rows =>
      finish σ a.shape (pushRows buf a.shape none (a.cells.zip rows) (σ.mem a.shape))

/-- The loop of the `val` / `vals` gufuncs: for every position its cell and its samples. -/
def pushSamples (s : Shape) (rows : List (ℕ × List (s.Val K × K))) (m : ℕ → s.Cell K) :
    Option (ℕ → s.Cell K) :=
  rows.foldlM (fun cur row => do
    let r ← (kern s).reduceVals row.2 (cur row.1)
    some (Function.update cur row.1 r)) m

/-- `wrap_abc.py:352-355` `_check_y`, then `wrap_np.py:507-516` `push_val(x, *y, weight=w)`. -/
def pushVal (a : Obj) (x : List K) (ys : List (List K)) (w : Option (List K)) (σ : State K) :
    Outcome K :=
  if ys.length ≠ a.shape.ndim - 1 then raise .valueError σ
  else
    let n := a.cells.length
    match spread n x, ys.mapM (spread n), spread n (w.getD [1]) with
    | some x, some ys, some w =>
      let rows := (List.range n).map fun p =>
        (a.cells.getD p 0, [(valOf a.shape (x.getD p 0) (ys.map fun y => y.getD p 0), w.getD p 0)])
      finish σ a.shape (pushSamples a.shape rows (σ.mem a.shape))
    | _, _, _ => raise .valueError σ

/-- `wrap_np.py:565-580` `push_vals(x, *y, weight=w, axis=axis)`, after
`prepare_values_for_reduction` has moved the sample axis to the end: one row of samples per position
(or one row for all). Rows of different lengths, or another number of arrays: `ValueError`. -/
def pushVals (a : Obj) (x : List (List K)) (ys : List (List (List K))) (w : List (List K))
    (nsamp : ℕ) (σ : State K) : Outcome K :=
  if ys.length + 2 ≠ a.shape.ndim + 1 then raise .valueError σ
  else if ¬ ((x ++ ys.flatten ++ w).all fun r => r.length = nsamp) then raise .valueError σ
  else
    let n := a.cells.length
    match spread n x, ys.mapM (spread n), spread n w with
    | some x, some ys, some w =>
      let rows := (List.range n).map fun p =>
        (a.cells.getD p 0, (List.range nsamp).map fun i =>
          (valOf a.shape ((x.getD p []).getD i 0) (ys.map fun y => (y.getD p []).getD i 0),
           (w.getD p []).getD i 0))
      finish σ a.shape (pushSamples a.shape rows (σ.mem a.shape))
    | _, _, _ => raise .valueError σ

/-- `wrap_abc.py:487-492` `_check_other` -/
def checkOther (a b : Obj) : Py Unit :=
  if a.cls ≠ b.cls then .error .typeError
  else if b.shape ≠ a.shape then .error .valueError
  else .ok ()

/-- `wrap_abc.py:307-327` `copy()`: new cells with the same contents. -/
def copyObj (a : Obj) (σ : State K) : Obj × State K :=
  let r := alloc a.shape (a.cells.map (σ.mem a.shape)) σ
  (⟨a.cls, a.shape, r.1⟩, r.2)

/-- `wrap_abc.py:494-497`, `504-507` `__iadd__`, `__isub__` (`scale = -1.0`) -/
def inplace (buf : Bool) (scale : Option K) (a b : Obj) (σ : State K) : Outcome K :=
  match checkOther a b with
  | .error e => raise e σ
  | .ok () => pushData buf a b.shape b.cells scale σ

/-- `wrap_abc.py:499-502`, `509-512` `__add__`, `__sub__` -/
def binary (buf : Bool) (scale : Option K) (a b : Obj) (σ : State K) : Outcome K :=
  match checkOther a b with
  | .error e => raise e σ
  | .ok () =>
    let c := copyObj a σ
    match pushData buf c.1 b.shape b.cells scale c.2 with
    | none => none
    | some (.error e, σ') => some (.error e, σ')
    | some (.ok (), σ') => some (.ok (), bindObj c.1 σ')

/-- `wrap_abc.py:514-516` `__mul__` -/
def mul (a : Obj) (c : K) (σ : State K) : Outcome K :=
  let r := alloc a.shape (a.cells.map fun p => (kern a.shape).mulWeight (σ.mem a.shape p) c) σ
  some (.ok (), bindObj ⟨a.cls, a.shape, r.1⟩ r.2)

/-- `wrap_abc.py:518-522` `__imul__`: the weights are assigned in place, and the object keeps the
array. -/
def imul (a : Obj) (c : K) (σ : State K) : Outcome K :=
  let m := a.cells.foldl
    (fun m p => Function.update m p ((kern a.shape).mulWeight (σ.mem a.shape p) c)) (σ.mem a.shape)
  some (.ok (), { σ with mem := Function.update σ.mem a.shape m })

/-- `wrap_np.py` `zeros(mom, val_shape)` -/
def zeros (cls : Cls) (s : Shape) (n : ℕ) (σ : State K) : Outcome K :=
  if ¬ s.Ok then raise .valueError σ
  else
    let r := alloc s (List.replicate n (kern s).zero) σ
    some (.ok (), bindObj ⟨cls, s, r.1⟩ r.2)

/-- `wrap_np.py:191-203` `a[key]` and `wrap_np.py:259-306` `new_like(a.obj)`: the kept positions, in
the same memory. -/
def view (a : Obj) (ps : List ℕ) (σ : State K) : Outcome K :=
  if ps.Nodup ∧ ∀ p ∈ ps, p < a.cells.length then
    some (.ok (), bindObj ⟨a.cls, a.shape, ps.map fun p => a.cells.getD p 0⟩ σ)
  else raise .indexError σ

/-- The operations, with objects named by their position in scope. -/
inductive Op (K : Type)
  | zeros (cls : Cls) (s : Shape) (n : ℕ)
  | zerosLike (i : ℕ)
  | copy (i : ℕ)
  | view (i : ℕ) (ps : List ℕ)
  | pushVal (i : ℕ) (x : List K) (ys : List (List K)) (w : Option (List K))
  | pushVals (i : ℕ) (x : List (List K)) (ys : List (List (List K))) (w : List (List K)) (nsamp : ℕ)
  | pushData (i j : ℕ) (scale : Option K)
  | pushDatas (i j k : ℕ)
  | iadd (i j : ℕ)
  | isub (i j : ℕ)
  | add (i j : ℕ)
  | sub (i j : ℕ)
  | mul (i : ℕ) (c : K)
  | imul (i : ℕ) (c : K)

/-- The cells of an array as rows of `k`, if they divide up. -/
def rowsOf (k : ℕ) (l : List ℕ) : Option (List (List ℕ)) :=
  if k = 0 then some [[]]
  else if l.length % k ≠ 0 then none
  else some ((List.range (l.length / k)).map fun r => (l.drop (r * k)).take k)

/-- One operation. A name that is not in scope is a `NameError` (here `keyError`). -/
def step (buf : Bool) (σ : State K) : Op K → Outcome K
  | .zeros cls s n => zeros cls s n σ
  | .zerosLike i =>
    match σ.objs[i]? with
    | some a => zeros a.cls a.shape a.cells.length σ
    | none => raise .keyError σ
  | .copy i =>
    match σ.objs[i]? with
    | some a => let c := copyObj a σ; some (.ok (), bindObj c.1 c.2)
    | none => raise .keyError σ
  | .view i ps =>
    match σ.objs[i]? with
    | some a => view a ps σ
    | none => raise .keyError σ
  | .pushVal i x ys w =>
    match σ.objs[i]? with
    | some a => pushVal a x ys w σ
    | none => raise .keyError σ
  | .pushVals i x ys w nsamp =>
    match σ.objs[i]? with
    | some a => pushVals a x ys w nsamp σ
    | none => raise .keyError σ
  | .pushData i j scale =>
    match σ.objs[i]?, σ.objs[j]? with
    | some a, some b => pushData buf a b.shape b.cells scale σ
    | _, _ => raise .keyError σ
  | .pushDatas i j k =>
    match σ.objs[i]?, σ.objs[j]? with
    | some a, some b => pushDatas buf a b.shape (rowsOf k b.cells) σ
    | _, _ => raise .keyError σ
  | .iadd i j =>
    match σ.objs[i]?, σ.objs[j]? with
    | some a, some b => inplace buf none a b σ
    | _, _ => raise .keyError σ
  | .isub i j =>
    match σ.objs[i]?, σ.objs[j]? with
    | some a, some b => inplace buf (some (-1)) a b σ
    | _, _ => raise .keyError σ
  | .add i j =>
    match σ.objs[i]?, σ.objs[j]? with
    | some a, some b => binary buf none a b σ
    | _, _ => raise .keyError σ
  | .sub i j =>
    match σ.objs[i]?, σ.objs[j]? with
    | some a, some b => binary buf (some (-1)) a b σ
    | _, _ => raise .keyError σ
  | .mul i c =>
    match σ.objs[i]? with
    | some a => mul a c σ
    | none => raise .keyError σ
  | .imul i c =>
    match σ.objs[i]? with
    | some a => imul a c σ
    | none => raise .keyError σ

/-- A program: operations one after the other, exceptions being caught. Gives the state and what
each operation did. -/
def runOps (buf : Bool) : List (Op K) → State K → Option (List (Py Unit) × State K)
  | [], σ => some ([], σ)
  | op :: ops, σ => do
    let (r, σ) ← step buf σ op
    let (rs, σ) ← runOps buf ops σ
    some (r :: rs, σ)

end

end Objects

end Cmomy
