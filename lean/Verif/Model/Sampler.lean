import Verif.Model.Freq
import Verif.Model.Random

/-!
# The sampler object

`resample/sampler.py:56-520`. An object holds an index table, a frequency table, or both, and makes
the missing one when it is first read.
-/

namespace Cmomy.Sampler

open Cmomy.Freq Cmomy.Random

/-- An index table of shape `(rows.length, nsamp)`; `labelled` for an `xr.DataArray`.
Simplification: no `xr.Dataset` of tables. -/
structure IdxTab where
  nsamp : ℕ
  rows : List (List ℤ)
  labelled : Bool
deriving DecidableEq

/-- A frequency table of shape `(rows.length, ndat)`. -/
structure FreqTab where
  ndat : ℕ
  rows : List (List ℕ)
  labelled : Bool
deriving DecidableEq

/-- `sampler.py:80-97`: the attributes `_indices`, `_freq`, `_ndat`, `_shuffle`, `_rng`. -/
structure S where
  indices : Option IdxTab
  freq : Option FreqTab
  ndat : Option ℕ
  shuffle : Bool
  rng : RngArg
deriving DecidableEq

/-- What the world outside supplies when a call is made: the generators, the uninitialised memory
of `np.empty`, the column order chosen by `rng.shuffle(indices, axis=1)` for a given number of
columns, and the table drawn by `rng.choice(ndat, size=(nrep, nsamp), replace=replace)`. -/
structure Env where
  world : World
  junk : ℕ → ℕ → ℕ
  order : ℕ → List ℕ
  choice : ℕ → ℕ → ℕ → Bool → List (List ℕ)

/-- `sampler.py:102-112` `_check` -/
def check (s : S) : Py Unit :=
  if s.indices = none ∧ s.freq = none then .error .valueError
  else
    match s.ndat, s.freq with
    | some n, some f => if f.ndat ≠ n then .error .valueError else .ok ()
    | _, _ => .ok ()

/-- `sampler.py:80-100` `IndexSampler(...)` -/
def new (indices : Option IdxTab) (freq : Option FreqTab) (ndat : Option ℕ) (shuffle : Bool)
    (rng : RngArg) (fastpath : Bool) : Py S :=
  let s : S := ⟨indices, freq, ndat, shuffle, rng⟩
  if fastpath then .ok s
  else
    match check s with
    | .error e => .error e
    | .ok _ => .ok s

/-- `sampler.py:701-758` `freq_to_indices(freq, shuffle=..., rng=...)`: sorted rows, then the columns
reordered. -/
def freqToIndicesShuffled (e : Env) (f : FreqTab) (shuffle : Bool) (rng : RngArg) : Py IdxTab :=
  match freqToIndices e.junk f.rows with
  | .error err => .error err
  | .ok rows =>
    let nsamp := (f.rows.headD []).sum
    if shuffle then
      match (validateRng rng e.world).1 with
      | .error err => .error err
      | .ok _ =>
        .ok ⟨nsamp, rows.map (fun r => (e.order nsamp).map (fun j => ((r.getD j 0 : ℕ) : ℤ))),
          f.labelled⟩
    else .ok ⟨nsamp, rows.map (fun r => r.map Int.ofNat), f.labelled⟩

/-- `sampler.py:777-817` `indices_to_freq(indices, ndat=ndat)`. For labelled input
`ndat or indices.sizes[dim]` (line 792). -/
def indicesToFreqTab (i : IdxTab) (ndat : ℕ) : Py FreqTab :=
  let n := if i.labelled ∧ ndat = 0 then i.nsamp else ndat
  match indicesToFreq i.rows i.nsamp (some n) with
  | .error err => .error err
  | .ok rows => .ok ⟨n, rows, i.labelled⟩

/-- `sampler.py:149-153` `ndat`. With neither table, `_first_indices`, `indices` and `freq` call one
another for ever. -/
def getNdat (s : S) : Py ℕ × S :=
  match s.ndat with
  | some n => (.ok n, s)
  | none =>
    match s.freq with
    | some f => (.ok f.ndat, { s with ndat := some f.ndat })
    | none =>
      match s.indices with
      | some i => (.ok i.nsamp, { s with ndat := some i.nsamp })
      | none => (.error .recursion, s)

/-- `sampler.py:155-157` `nrep` -/
def getNrep (s : S) : Py ℕ × S :=
  match s.freq with
  | some f => (.ok f.rows.length, s)
  | none =>
    match s.indices with
    | some i => (.ok i.rows.length, s)
    | none => (.error .recursion, s)

/-- `sampler.py:123-129` `indices` -/
def getIndices (e : Env) (s : S) : Py IdxTab × S :=
  match s.indices with
  | some i => (.ok i, s)
  | none =>
    match s.freq with
    | none => (.error .recursion, s)
    | some f =>
      match freqToIndicesShuffled e f s.shuffle s.rng with
      | .error err => (.error err, s)
      | .ok i => (.ok i, { s with indices := some i })

/-- `sampler.py:114-121` `freq`. `self.ndat` is evaluated, and kept, before the conversion. -/
def getFreq (s : S) : Py FreqTab × S :=
  match s.freq with
  | some f => (.ok f, s)
  | none =>
    match s.indices with
    | none => (.error .recursion, s)
    | some i =>
      let n := s.ndat.getD i.nsamp
      let s' := { s with ndat := some n }
      match indicesToFreqTab i n with
      | .error err => (.error err, s')
      | .ok f => (.ok f, { s' with freq := some f })

/-- The attributes a client can read. -/
inductive Attr
  | freq
  | indices
  | ndat
  | nrep
deriving DecidableEq

/-- What a read returns. -/
inductive Val
  | freq (f : FreqTab)
  | indices (i : IdxTab)
  | num (n : ℕ)
deriving DecidableEq

/-- One read. -/
def readAttr (e : Env) (a : Attr) (s : S) : Py Val × S :=
  match a with
  | .freq => ((getFreq s).1.map Val.freq, (getFreq s).2)
  | .indices => ((getIndices e s).1.map Val.indices, (getIndices e s).2)
  | .ndat => ((getNdat s).1.map Val.num, (getNdat s).2)
  | .nrep => ((getNrep s).1.map Val.num, (getNrep s).2)

/-- A history of reads, each in its own environment: what every read returned, and the object
afterwards. -/
def reads : S → List (Env × Attr) → List (Attr × Py Val) × S
  | s, [] => ([], s)
  | s, (e, a) :: h =>
    let r := readAttr e a s
    let t := reads r.2 h
    ((a, r.1) :: t.1, t.2)

/-- Contract of `Generator.choice(ndat, size=(nrep, nsamp), replace=replace)` as to failure: drawing
from nothing, and drawing more than there is without replacement (the whole table is one draw). -/
def rngChoice (e : Env) (ndat nrep nsamp : ℕ) (replace : Bool) : Py (List (List ℕ)) :=
  if ndat = 0 ∧ nrep * nsamp ≠ 0 then .error .valueError
  else if replace = false ∧ ndat < nrep * nsamp then .error .valueError
  else .ok (e.choice ndat nrep nsamp replace)

/-- `sampler.py:495-520` `random_indices` -/
def randomIndices (e : Env) (nrep ndat : ℕ) (nsamp : Option ℕ) (rng : RngArg) (replace : Bool) :
    Py (List (List ℕ)) :=
  let nsamp := nsamp.getD ndat
  match (validateRng rng e.world).1 with
  | .error err => .error err
  | .ok _ => rngChoice e ndat nrep nsamp replace

/-- The object made from drawn indices (`sampler.py:194`, `324`). -/
def ofIndices (nsamp ndat : ℕ) (labelled : Bool) (rows : List (List ℕ)) : S :=
  ⟨some ⟨nsamp, rows.map (fun r => r.map Int.ofNat), labelled⟩, none, some ndat, false, .none⟩

/-- `sampler.py:163-194` `IndexSampler.from_params` -/
def fromParams (e : Env) (nrep ndat : ℕ) (nsamp : Option ℕ) (rng : RngArg) (replace : Bool) :
    Py S :=
  match randomIndices e nrep ndat nsamp rng replace with
  | .error err => .error err
  | .ok rows => .ok (ofIndices (nsamp.getD ndat) ndat false rows)

/-- The argument `data`: what `select_ndat` makes of it together with `axis`, `dim` and the moment
parameters, and whether it is labelled. Simplification: a `Dataset` with `paired=True` only. -/
structure DataArg where
  labelled : Bool
  ndat : Py ℕ

/-- `sampler.py:233-324` `IndexSampler.from_data`. Lines 300-314 do not pass `replace` on, so
labelled data use its default. -/
def fromData (e : Env) (d : DataArg) (nrep : ℕ) (nsamp : Option ℕ) (rng : RngArg)
    (replace : Bool) : Py S :=
  match d.ndat with
  | .error err => .error err
  | .ok ndat =>
    match randomIndices e nrep ndat nsamp rng (if d.labelled then true else replace) with
    | .error err => .error err
    | .ok rows => .ok (ofIndices (nsamp.getD ndat) ndat d.labelled rows)

/-- The keyword arguments of `factory_sampler` that describe the draw. -/
structure Args where
  freq : Option FreqTab := none
  indices : Option IdxTab := none
  nrep : Option ℕ := none
  ndat : Option ℕ := none
  nsamp : Option ℕ := none
  rng : RngArg := .none
  replace : Bool := true
  shuffle : Bool := false

/-- The argument `sampler`. A mapping may also hold keys that are passed on separately (`clash`:
`data`, `axis`, `parallel`, ...) or are not known at all. `other` is anything else. -/
inductive SamplerArg
  | none
  | inst (s : S)
  | array (f : FreqTab)
  | int (n : ℕ)
  | mapping (m : Args) (clash unknown : Bool)
  | other

/-- `sampler.py:422-462` -/
def factoryNone (e : Env) (a : Args) (data : Option DataArg) : Py S :=
  if a.indices ≠ none ∨ a.freq ≠ none then new a.indices a.freq a.ndat false a.rng false
  else
    match a.nrep, a.ndat, data with
    | some nrep, some ndat, _ => fromParams e nrep ndat a.nsamp a.rng a.replace
    | some nrep, none, some d => fromData e d nrep a.nsamp a.rng a.replace
    | _, _, _ => .error .valueError

/-- `sampler.py:328-490` `factory_sampler` -/
def factorySampler (e : Env) (sampler : SamplerArg) (a : Args) (data : Option DataArg) : Py S :=
  match sampler with
  | .inst s => .ok s
  | .none => factoryNone e a data
  | .array f => new none (some f) a.ndat a.shuffle a.rng false
  | .int n => factoryNone e { nrep := some n } data
  | .mapping m clash unknown =>
    if clash ∨ unknown then .error .typeError else factoryNone e m data
  | .other => .error .typeError

end Cmomy.Sampler
