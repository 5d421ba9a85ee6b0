import Verif.Model.ParLoops

/-!
# The rolling kernels, cell by cell

`_lib/_rolling.py`, `_rolling_cov.py` and the generalised ufuncs around them: what one position does
to the shared memory. `tmp` are the cells of `dummy_mom`, which every position allocates for itself;
`count` and `old_weight` are registers. `lt` is `<` and `nan` the value stored for an incomplete
window.
-/

namespace Cmomy.Par.CellKernel

variable {A V X XA I : Type} [Arith V] (k : CellKernel A V X XA I)

/-- `_rolling.py:42-45`, `:69-72`, `:111-114`, `:138-141`, `:196-199`, `:258-261`, `out[i, ...] = dummy_mom` or `nan`. -/
def gEmit (nan : V) (minCount count : ℤ) (tmp out : I → A) : Prog A V Unit :=
  if count ≥ minCount then k.gCopy tmp out
  else k.idx.foldlM (fun _ i => put (out i) nan) ()

/-- `_rolling.py:37-40`, `:50,56-58`: the new sample of `rolling_data`. -/
def gRollNew (data tmp : I → A) (count : ℤ) : Prog A V ℤ := do
  let wi ← get (data k.w0)
  if Arith.isZero wi then pure count
  else do
    k.pushData data tmp
    pure (count + 1)

/-- `_rolling.py:60-67`: the sample that leaves the window. -/
def gRollOld (lt : V → V → Bool) (wold : V) (data tmp : I → A) (count : ℤ) : Prog A V ℤ :=
  if Arith.isZero wold then pure count
  else do
    let t ← get (tmp k.w0)
    if lt wold t then do
      k.pushScale data (-1) tmp
      pure (count - 1)
    else do
      k.gZero tmp
      pure (count - 1)

/-- `_rolling.py:29-72`, `_rolling_cov.py:29-72` `rolling_data` -/
def gRollingData (lt : V → V → Bool) (nan : V) (window : ℕ) (minCount : ℤ) (n : ℕ)
    (data : ℕ → I → A) (tmp : I → A) (out : ℕ → I → A) : Prog A V Unit := do
  k.gZero tmp
  let count ← (List.range (min window n)).foldlM (fun count i => do
    let count ← k.gRollNew (data i) tmp count
    k.gEmit nan minCount count tmp (out i)
    pure count) 0
  let _ ← (List.range' window (n - window)).foldlM (fun count i => do
    let wold ← get (data (i - window) k.w0)
    let count ← k.gRollNew (data i) tmp count
    let count ← k.gRollOld lt wold (data (i - window)) tmp count
    k.gEmit nan minCount count tmp (out i)
    pure count) count
  pure ()

/-- `_rolling.py:106-109`, `:119,125-127`: the new sample of `rolling_vals`. -/
def gRollNewVal (x : XA) (w : A) (tmp : I → A) (count : ℤ) : Prog A V ℤ := do
  let wi ← get w
  if Arith.isZero wi then pure count
  else do
    let xv ← k.getVal x
    k.pushVal xv wi tmp
    pure (count + 1)

/-- `_rolling.py:129-136`: the value that leaves the window. -/
def gRollOldVal (lt : V → V → Bool) (wold : V) (x : XA) (tmp : I → A) (count : ℤ) :
    Prog A V ℤ :=
  if Arith.isZero wold then pure count
  else do
    let t ← get (tmp k.w0)
    if lt wold t then do
      let xv ← k.getVal x
      k.pushVal xv (-wold) tmp
      pure (count - 1)
    else do
      k.gZero tmp
      pure (count - 1)

/-- `_rolling.py:94-141`, `_rolling_cov.py:96-145` `rolling_vals` -/
def gRollingVals (lt : V → V → Bool) (nan : V) (window : ℕ) (minCount : ℤ) (n : ℕ)
    (x : ℕ → XA) (w : ℕ → A) (tmp : I → A) (out : ℕ → I → A) : Prog A V Unit := do
  k.gZero tmp
  let count ← (List.range (min window n)).foldlM (fun count i => do
    let count ← k.gRollNewVal (x i) (w i) tmp count
    k.gEmit nan minCount count tmp (out i)
    pure count) 0
  let _ ← (List.range' window (n - window)).foldlM (fun count i => do
    let wold ← get (w (i - window))
    let count ← k.gRollNewVal (x i) (w i) tmp count
    let count ← k.gRollOldVal lt wold (x (i - window)) tmp count
    k.gEmit nan minCount count tmp (out i)
    pure count) count
  pure ()

/-- `_rolling.py:184,193,245,255`: `dummy_mom[..., 0] *= decay` and the like. -/
def gScaleWeight (f : V → V) (tmp : I → A) : Prog A V Unit := do
  let t ← get (tmp k.w0)
  put (tmp k.w0) (f t)

/-- `_rolling.py:186-194`, `:247-256`: a sample of weight `wi`, `push` being the push of the sample. -/
def gExpNew (adjust : Bool) (wi a old : V) (push : Prog A V Unit) (tmp : I → A) (count : ℤ) :
    Prog A V (ℤ × V) :=
  if Arith.isZero wi then pure (count, old)
  else if adjust then do
    push
    pure (count + 1, old)
  else do
    push
    k.gScaleWeight (· / (old + a)) tmp
    pure (count + 1, 1)

/-- `_rolling.py:163-199`, `_rolling_cov.py:167-202` `rolling_exp_data`; the state is
`(count, old_weight)`. -/
def gRollingExpData (adjust : Bool) (nan : V) (minCount : ℤ) (n : ℕ) (alpha : ℕ → A)
    (data : ℕ → I → A) (tmp : I → A) (out : ℕ → I → A) : Prog A V Unit := do
  k.gZero tmp
  let _ ← (List.range n).foldlM (fun (st : ℤ × V) i => do
    let wi ← get (data i k.w0)
    let a ← get (alpha i)
    k.gScaleWeight (· * (1 - a)) tmp
    let st ← k.gExpNew adjust wi a (st.2 * (1 - a))
      (k.pushScale (data i) (if adjust then 1 else a) tmp) tmp st.1
    k.gEmit nan minCount st.1 tmp (out i)
    pure st) (0, 0)
  pure ()

/-- `_rolling.py:223-261`, `_rolling_cov.py:228-265` `rolling_exp_vals` -/
def gRollingExpVals (adjust : Bool) (nan : V) (minCount : ℤ) (n : ℕ) (alpha : ℕ → A)
    (x : ℕ → XA) (w : ℕ → A) (tmp : I → A) (out : ℕ → I → A) : Prog A V Unit := do
  k.gZero tmp
  let _ ← (List.range n).foldlM (fun (st : ℤ × V) i => do
    let wi ← get (w i)
    let a ← get (alpha i)
    k.gScaleWeight (· * (1 - a)) tmp
    let st ← k.gExpNew adjust wi a (st.2 * (1 - a)) (do
      let xv ← k.getVal (x i)
      k.pushVal xv (if adjust then wi else wi * a) tmp) tmp st.1
    k.gEmit nan minCount st.1 tmp (out i)
    pure st) (0, 0)
  pure ()

end Cmomy.Par.CellKernel
