import Verif.Model.LabelledNd
import Verif.Spec.Labelled
import Verif.Spec.Axes

/-!
# What an operation on a labelled array of moments should give

Everything is said in terms of dimension names: which entries an array has at named coordinates.
The order in which an array stores its dimensions does not appear.
-/

namespace Cmomy.Spec

open Labelled

variable {δ : Type} [DecidableEq δ] {α K M : Type}

/-- The entry at the coordinates `c`. -/
def entry (x : DataArray δ α) (c : δ → ℕ) : α := x.data (x.dims.map c)

/-- The array has the listed dimensions, in that order, of the given sizes, and at all coordinates
within them the value `F`. -/
structure ShowsNamed (out : DataArray δ α) (dims : List δ) (size : δ → ℕ) (F : (δ → ℕ) → α) :
    Prop where
  dims_eq : out.dims = dims
  size_eq : ∀ d ∈ dims, out.size d = size d
  entry_eq : ∀ c, (∀ d ∈ dims, c d < size d) → entry out c = F c

/-- A call along dimension `dim` with moment dimensions `moms` is well formed. -/
structure GoodNamed (x : DataArray δ α) (moms : List δ) (dim : δ) : Prop where
  distinct : x.dims.Nodup
  momDistinct : moms.Nodup
  momPresent : ∀ d ∈ moms, d ∈ x.dims
  present : dim ∈ x.dims
  notMom : dim ∉ moms

/-- The arguments `axis`, `dim` (missing is `none`, `None` is `some none`) name dimension `d`: by its
name, by a number, negative numbers counting from the end, or by an imaginary number, which counts
among the first dimensions only, as many as there are besides the moment dimensions. -/
def Chosen (dims moms : List δ) (axis : Option (Option Axes.AxisArg)) (dim : Option (Option δ))
    (d : δ) : Prop :=
  (axis = none ∧ dim = some (some d)) ∨
  (dim = none ∧ ∃ z : ℤ, axis = some (some (.int z)) ∧ InRange dims.length z ∧
    dims[wrap dims.length z]? = some d) ∨
  (dim = none ∧ ∃ (re : ℚ) (z : ℤ), axis = some (some (.complex re z)) ∧
    moms.length ≤ dims.length ∧ InRange (dims.length - moms.length) z ∧
    dims[wrap (dims.length - moms.length) z]? = some d)

/-- The coordinates `c` with those of the listed dimensions replaced. -/
def withNames (names : List δ) (vals : List ℕ) (c : δ → ℕ) : δ → ℕ := fun d =>
  if d ∈ names then vals.getD (names.idxOf d) 0 else c d

/-- The moment record at the coordinates `c`. -/
def recordNamed (core : Nd.Core K M) (x : DataArray δ K) (moms : List δ) (c : δ → ℕ) : M :=
  core.recd (fun ms => entry x (withNames moms ms c))

/-- The records met along `dim`, the other coordinates staying at `c`. -/
def recordsAlong (core : Nd.Core K M) (x : DataArray δ K) (moms : List δ) (dim : δ) (c : δ → ℕ) :
    List M :=
  (List.range (x.size dim)).map (fun s => recordNamed core x moms (Function.update c dim s))

/-- All coordinates obtained from `c` by letting each listed dimension run through its size. -/
def allCoords (size : δ → ℕ) : List δ → (δ → ℕ) → List (δ → ℕ)
  | [], c => [c]
  | d :: l, c => (List.range (size d)).flatMap (fun s => allCoords size l (Function.update c d s))

/-- The records met when the listed dimensions run through their sizes. -/
def recordsNamed (core : Nd.Core K M) (x : DataArray δ K) (moms ds : List δ) (c : δ → ℕ) : List M :=
  (allCoords x.size ds c).map (recordNamed core x moms)

/-- The dimensions of a result that keeps all of them: as they were, or the sample dimension and the
moment dimensions last. -/
def dimsAfter (dims : List δ) (dim : δ) (moms : List δ) (axesToEnd : Bool) : List δ :=
  if axesToEnd then dims.filter (fun d => decide (d ∉ dim :: moms)) ++ dim :: moms else dims

/-- The sizes of a result in which dimension `d` has a new size. -/
def sizesWith (x : DataArray δ α) (d : δ) (newSize : ℕ) (e : δ) : ℕ :=
  if e = d then newSize else x.size e

/-- A list of names with one of them replaced. -/
def renamed (dims : List δ) (old new : δ) : List δ := dims.map (fun d => if d = old then new else d)

/-- A call of `reduce_data` over the dimensions `ds` is well formed: at least one, all different, none
of them a moment dimension, and no kept dimension of size zero. -/
structure GoodReduce (x : DataArray δ α) (moms ds : List δ) : Prop where
  distinct : x.dims.Nodup
  momDistinct : moms.Nodup
  momPresent : ∀ d ∈ moms, d ∈ x.dims
  dsDistinct : ds.Nodup
  present : ∀ d ∈ ds, d ∈ x.dims
  notMom : ∀ d ∈ ds, d ∉ moms
  some_dim : ds ≠ []
  nonempty : ∀ d ∈ x.dims, d ∉ ds → x.size d ≠ 0

/-- The arguments `axis`, `dim` of `reduce_data` name the dimensions `ds`: by name, as all dimensions
that are not moment dimensions (`dim=None`), by numbers, or a single one by an imaginary number. -/
def ChosenMany (dims moms : List δ) (axis : Option Axes.AxesArg) (dim : Option (Option (List δ)))
    (ds : List δ) : Prop :=
  (axis = none ∧ dim = some (some ds)) ∨
  (axis = none ∧ dim = some none ∧ ds = dims.filter (fun d => decide (d ∉ moms))) ∨
  (dim = none ∧ ∃ zs : List ℤ, axis = some (.many (zs.map .int)) ∧
    (∀ z ∈ zs, InRange dims.length z) ∧ zs.map (fun z => dims[wrap dims.length z]?) = ds.map some) ∨
  (dim = none ∧ ∃ z : ℤ, axis = some (.one (.int z)) ∧ InRange dims.length z ∧
    ∃ d, ds = [d] ∧ dims[wrap dims.length z]? = some d) ∨
  (dim = none ∧ ∃ (re : ℚ) (z : ℤ), axis = some (.one (.complex re z)) ∧
    moms.length ≤ dims.length ∧ InRange (dims.length - moms.length) z ∧
    ∃ d, ds = [d] ∧ dims[wrap (dims.length - moms.length) z]? = some d)

/-- The dimensions of a reduced result. -/
def dimsReduced (dims ds moms : List δ) (keepdims axesToEnd : Bool) : List δ :=
  match axesToEnd, keepdims with
  | false, false => dims.filter (fun d => decide (d ∉ ds))
  | false, true => dims
  | true, false => dims.filter (fun d => decide (d ∉ ds ++ moms)) ++ moms
  | true, true => dims.filter (fun d => decide (d ∉ ds ++ moms)) ++ (ds ++ moms)

/-- `x` and `y` are the same array up to the order of the dimensions. -/
structure SameArray (x y : DataArray δ α) : Prop where
  dims_perm : x.dims.Perm y.dims
  size_eq : ∀ d ∈ x.dims, x.size d = y.size d
  entry_eq : ∀ c, entry x c = entry y c

end Cmomy.Spec
