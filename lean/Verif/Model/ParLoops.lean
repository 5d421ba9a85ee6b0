import Verif.Model.Parallel

/-!
# The vectorised sample loops, cell by cell

`_lib/push.py`, `resample.py`, `indexed.py`, their `_cov` twins and the `_parallel` copies of all six:
what one position of each generalised ufunc does to the shared memory. Loops over samples, rows of
the output and replicates are inside one position. As in `Kernel`, the text of the loops is the same
for one and for two variables, so they are written once over a record of pushers.

Integer arguments (`group_idx`, `index`, `group_start`, `group_end`) are passed by value.
-/

namespace Cmomy.Par

variable {A V X XA I : Type}

/-- `X` a value, `XA` the cells holding a value, `I` the entries of a moment array. -/
structure CellKernel (A V X XA I : Type) where
  /-- the entries of a moment array, in storage order -/
  idx : List I
  /-- the weight entry, `[0]` or `[0, 0]` -/
  w0 : I
  /-- `x[i]`, or `x0[i]` and `x1[i]` -/
  getVal : XA → Prog A V X
  /-- `_push.push_val(x, w, out)` -/
  pushVal : X → V → (I → A) → Prog A V Unit
  /-- `_push.push_data(data, out)` -/
  pushData : (I → A) → (I → A) → Prog A V Unit
  /-- `_push.push_data_scale(data, scale, out)` -/
  pushScale : (I → A) → V → (I → A) → Prog A V Unit

/-- One variable, `_lib/_push.py`. -/
def cell1 [Arith V] (order : ℕ) : CellKernel A V V A ℕ where
  idx := List.range (order + 1)
  w0 := 0
  getVal x := get x
  pushVal x w out := pushValP order x w out
  pushData data out := pushDataP order data out
  pushScale data s out := pushDataScaleP order data s out

/-- Two variables, `_lib/_push_cov.py`. -/
def cell2 [Arith V] (order0 order1 : ℕ) : CellKernel A V (V × V) (A × A) (ℕ × ℕ) where
  idx := (List.range (order0 + 1)).flatMap fun i => (List.range (order1 + 1)).map fun j => (i, j)
  w0 := (0, 0)
  getVal x := do
    let x0 ← get x.1
    let x1 ← get x.2
    pure (x0, x1)
  pushVal x w out := pushValCovP order0 order1 x.1 x.2 w (fun i j => out (i, j))
  pushData data out := pushDataCovP order0 order1 (fun i j => data (i, j)) (fun i j => out (i, j))
  pushScale data s out :=
    pushDataScaleCovP order0 order1 (fun i j => data (i, j)) s (fun i j => out (i, j))

namespace CellKernel

section

variable (k : CellKernel A V X XA I)

/-- `push.py:23-35`, `push_cov.py:23-36` `push_val` -/
def gPushVal (x : XA) (w : A) (out : I → A) : Prog A V Unit := do
  let xv ← k.getVal x
  let wv ← get w
  k.pushVal xv wv out

/-- `push.py:54-62`, `push_cov.py:56-64` `push_data` -/
def gPushData (data out : I → A) : Prog A V Unit := k.pushData data out

/-- `push.py:77-85`, `push_cov.py:79-87` `push_data_scale` -/
def gPushScale (data : I → A) (scale : A) (out : I → A) : Prog A V Unit := do
  let s ← get scale
  k.pushScale data s out

/-- `push.py:38-51`, `push_cov.py:39-53` `reduce_vals` -/
def gReduceVals (n : ℕ) (x : ℕ → XA) (w : ℕ → A) (out : I → A) : Prog A V Unit :=
  (List.range n).foldlM (fun _ i => k.gPushVal (x i) (w i) out) ()

/-- `push.py:65-74`, `push_cov.py:67-76` `reduce_data` -/
def gReduceData (n : ℕ) (data : ℕ → I → A) (out : I → A) : Prog A V Unit :=
  (List.range n).foldlM (fun _ i => k.pushData (data i) out) ()

/-- `out[...] = data[...]` -/
def gCopy (data out : I → A) : Prog A V Unit :=
  k.idx.foldlM (fun _ i => do
    let v ← get (data i)
    put (out i) v) ()

end

variable [Arith V] (k : CellKernel A V X XA I)

/-- `out[...] = 0.0` -/
def gZero (out : I → A) : Prog A V Unit :=
  k.idx.foldlM (fun _ i => put (out i) 0) ()

/-- `push.py:88-102`, `push_cov.py:90-101` `reduce_data_fromzero` -/
def gReduceDataFromzero (n : ℕ) (data : ℕ → I → A) (out : I → A) : Prog A V Unit := do
  k.gZero out
  k.gReduceData n data out

/-- `push.py:105-119`, `push_cov.py:104-118` `cumulative` -/
def gCumulative (n : ℕ) (data out : ℕ → I → A) : Prog A V Unit := do
  (List.range n).foldlM (fun _ i => k.gCopy (data i) (out i)) ()
  (List.range' 1 (n - 1)).foldlM (fun _ i => k.pushData (out (i - 1)) (out i)) ()

/-- `push.py:122-136`, `push_cov.py:121-135` `cumulative_inverse` -/
def gCumulativeInverse (n : ℕ) (data out : ℕ → I → A) : Prog A V Unit := do
  (List.range n).foldlM (fun _ i => k.gCopy (data i) (out i)) ()
  (List.range' 1 (n - 1)).foldlM (fun _ i => k.pushScale (data (i - 1)) (-1) (out i)) ()

/-- `indexed.py:38-47`, `indexed_cov.py:39-48` `reduce_data_grouped`. The assertion on the labels has
been checked before (see C34). -/
def gReduceGrouped (group : List ℤ) (data out : ℕ → I → A) : Prog A V Unit :=
  (List.range group.length).foldlM (fun _ s =>
    let g := group.getD s (-1)
    if g ≥ 0 then k.pushData (data s) (out g.toNat) else pure ()) ()

/-- `indexed.py:83-96`, `indexed_cov.py:84-97` `reduce_data_indexed_fromzero`, one group; the ranges
have been checked before (see C35). -/
def gIndexedRow (index : List ℤ) (start stop : ℤ) (scale : ℕ → A) (data : ℕ → I → A)
    (out : I → A) : Prog A V Unit :=
  if stop > start then do
    let s := (index.getD start.toNat 0).toNat
    let f ← get (scale start.toNat)
    k.gCopy (data s) out
    put (out k.w0) ((← get (out k.w0)) * f)
    (List.range' (start.toNat + 1) (stop.toNat - (start.toNat + 1))).foldlM (fun _ i => do
      let s := (index.getD i 0).toNat
      let f ← get (scale i)
      k.pushScale (data s) f out) ()
  else pure ()

/-- `indexed.py:72-96`, `indexed_cov.py:73-97` `reduce_data_indexed_fromzero`. -/
def gReduceIndexed (index start stop : List ℤ) (scale : ℕ → A) (data out : ℕ → I → A) :
    Prog A V Unit := do
  (List.range start.length).foldlM (fun _ g => k.gZero (out g)) ()
  (List.range start.length).foldlM (fun _ g =>
    k.gIndexedRow index (start.getD g 0) (stop.getD g 0) scale data (out g)) ()

/-- `resample.py:67-74`, `resample_cov.py:39-46`: the search for the first drawn sample, returning
`first_nonzero` (`none` for `nsamp`). -/
def gResampleFirst (freq : ℕ → A) (data : ℕ → I → A) (out : I → A) :
    List ℕ → Prog A V (Option ℕ)
  | [] => pure none
  | i :: rest => do
    let f ← get (freq i)
    if Arith.isZero f then gResampleFirst freq data out rest
    else do
      k.gCopy (data i) out
      put (out k.w0) ((← get (out k.w0)) * f)
      pure (some i)

/-- `resample.py:66-79`, `resample_cov.py:38-51` `resample_data_fromzero`, one replicate. -/
def gResampleRow (nsamp : ℕ) (freq : ℕ → A) (data : ℕ → I → A) (out : I → A) :
    Prog A V Unit := do
  let first ← k.gResampleFirst freq data out (List.range nsamp)
  match first with
  | none => pure ()
  | some i0 =>
    (List.range' (i0 + 1) (nsamp - (i0 + 1))).foldlM (fun _ i => do
      let f ← get (freq i)
      if Arith.isZero f then pure () else k.pushScale (data i) f out) ()

/-- `resample.py:58-79`, `resample_cov.py:30-51` `resample_data_fromzero` -/
def gResampleData (nrep nsamp : ℕ) (freq : ℕ → ℕ → A) (data out : ℕ → I → A) :
    Prog A V Unit := do
  (List.range nrep).foldlM (fun _ r => k.gZero (out r)) ()
  (List.range nrep).foldlM (fun _ r => k.gResampleRow nsamp (freq r) data (out r)) ()

/-- `resample.py:106-111`, `resample_cov.py:81-86` `resample_vals`, one replicate. -/
def gResampleValsRow (nsamp : ℕ) (freq : ℕ → A) (x : ℕ → XA) (w : ℕ → A) (out : I → A) :
    Prog A V Unit :=
  (List.range nsamp).foldlM (fun _ i => do
    let f ← get (freq i)
    if Arith.isZero f then pure ()
    else do
      let xv ← k.getVal (x i)
      let wv ← get (w i)
      k.pushVal xv (wv * f) out) ()

/-- `resample.py:100-111`, `resample_cov.py:74-86` `resample_vals` -/
def gResampleVals (nrep nsamp : ℕ) (freq : ℕ → ℕ → A) (x : ℕ → XA) (w : ℕ → A)
    (out : ℕ → I → A) : Prog A V Unit :=
  (List.range nrep).foldlM (fun _ r => k.gResampleValsRow nsamp (freq r) x w (out r)) ()

/-- `resample.py:126-136`, `resample_cov.py:101-109` `jackknife_data_fromzero` -/
def gJackknifeData (n : ℕ) (reduced : I → A) (data out : ℕ → I → A) : Prog A V Unit := do
  (List.range n).foldlM (fun _ i => k.gCopy reduced (out i)) ()
  (List.range n).foldlM (fun _ i => k.pushScale (data i) (-1) (out i)) ()

/-- `resample.py:147-157`, `resample_cov.py:132-143` `jackknife_vals_fromzero` -/
def gJackknifeVals (n : ℕ) (reduced : I → A) (x : ℕ → XA) (w : ℕ → A) (out : ℕ → I → A) :
    Prog A V Unit := do
  (List.range n).foldlM (fun _ i => k.gCopy reduced (out i)) ()
  (List.range n).foldlM (fun _ i => do
    let xv ← k.getVal (x i)
    let wv ← get (w i)
    k.pushVal xv (-wv) (out i)) ()

end CellKernel

end Cmomy.Par
