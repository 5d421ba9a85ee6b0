import Verif.Model.Window
import Verif.Spec.LabelledMake
import Verif.Spec.Rolling

/-!
# What an array of rolling windows should hold
-/

namespace Cmomy.Spec

open Labelled

variable {δ : Type} [DecidableEq δ] {α β σ : Type}

/-- A value for every one of several dimensions: the same for all, or as listed. -/
def Each (a : PerDim β) (l : List β) : Prop :=
  match a with
  | .one v => ∀ b ∈ l, b = v
  | .many m => m = l

/-- What a call asks for along the dimensions `ds`. -/
structure Asked (roll : δ → δ) (ds : List δ) (window : PerDim ℤ) (center : PerDim Bool)
    (stride : PerDim ℤ) (names : Option (List δ)) (rs : List (Roll δ)) : Prop where
  dims : rs.map Roll.dim = ds
  names : rs.map Roll.name = names.getD (ds.map roll)
  window : Each window (rs.map Roll.window)
  center : Each center (rs.map Roll.center)
  stride : Each stride (rs.map Roll.stride)

/-- The arguments `axis`, `dim` name the dimensions `ds` of an array without moment dimensions. -/
def ChosenPlain (dims : List δ) (axis : Option Axes.AxesArg) (dim : Option (Option (List δ)))
    (ds : List δ) : Prop :=
  (axis = none ∧ dim = some (some ds)) ∨
  (axis = none ∧ dim = some none ∧ ds = dims) ∨
  (dim = none ∧ axis = some .all ∧ ds = dims) ∨
  (dim = none ∧ ∃ zs : List ℤ, axis = some (.many (zs.map .int)) ∧
    (∀ z ∈ zs, InRange dims.length z) ∧ zs.map (fun z => dims[wrap dims.length z]?) = ds.map some) ∨
  (dim = none ∧ ∃ z : ℤ, axis = some (.one (.int z)) ∧ InRange dims.length z ∧
    ∃ d, ds = [d] ∧ dims[wrap dims.length z]? = some d)

/-- The arguments name the dimensions `ds`; `p` are the moment dimensions, if there are any. With
`axis=None` all but as many dimensions as there are moment dimensions are taken, from the front. -/
def ChosenOptional (dims : List δ) (p : Option (PX δ)) (axis : Option Axes.AxesArg)
    (dim : Option (Option (List δ))) (ds : List δ) : Prop :=
  match p with
  | none => ChosenPlain dims axis dim ds
  | some p => (ChosenMany dims p.dims axis dim ds ∨
      (dim = none ∧ axis = some .all ∧ ds = dims.take (dims.length - p.dims.length))) ∧ ∀ d ∈ ds, d ∉ p.dims

/-- Windows of positive size and stride, along different dimensions of the array that are not empty, with
different names that are not in use. -/
structure GoodRolls (x : DataArray δ α) (rs : List (Roll δ)) : Prop where
  distinct : x.dims.Nodup
  some_roll : rs ≠ []
  dimsDistinct : (rs.map Roll.dim).Nodup
  present : ∀ r ∈ rs, r.dim ∈ x.dims
  namesDistinct : (rs.map Roll.name).Nodup
  namesNew : ∀ r ∈ rs, r.name ∉ x.dims
  window : ∀ r ∈ rs, 0 < r.window
  stride : ∀ r ∈ rs, 0 < r.stride
  nonempty : ∀ r ∈ rs, x.size r.dim ≠ 0

/-- How far a window reaches back: its last place is the current one, or its middle is. -/
def reach (window : ℤ) (center : Bool) : ℤ := if center then window / 2 else window - 1

/-- The place along `r.dim` seen at the coordinates `c`: the window moves by `r.stride` from one to the
next. -/
def Roll.place (r : Roll δ) (c : δ → ℕ) : ℤ :=
  r.stride * c r.dim - reach r.window r.center + c r.name

/-- All places seen are places of the array. -/
def InWindows (x : DataArray δ α) (rs : List (Roll δ)) (c : δ → ℕ) : Prop :=
  ∀ r ∈ rs, 0 ≤ Roll.place r c ∧ Roll.place r c < x.size r.dim

instance (x : DataArray δ α) (rs : List (Roll δ)) (c : δ → ℕ) : Decidable (InWindows x rs c) := by
  unfold InWindows
  infer_instance

/-- The coordinates seen at `c`. -/
def seen (rs : List (Roll δ)) (c : δ → ℕ) : δ → ℕ := fun d =>
  match rs with
  | [] => c d
  | r :: rs => if r.dim = d then (Roll.place r c).toNat else seen rs c d

/-- The sizes of an array of windows. Along a rolled dimension there are as many windows as multiples of the
stride below its size. -/
def windowSizes (x : DataArray δ α) (rs : List (Roll δ)) (d : δ) : ℕ :=
  match rs with
  | [] => x.size d
  | r :: rs => if r.name = d then r.window.toNat
      else if r.dim = d then (x.size d - 1) / r.stride.toNat + 1 else windowSizes x rs d

/-- The places among `n` in the window at `i`, in order. -/
def windowPlaces (window : ℕ) (center : Bool) (n i : ℕ) : List ℕ :=
  (List.range n).filter (fun p => decide ((i : ℤ) - reach window center ≤ p ∧
    (p : ℤ) < i - reach window center + window))

/-- All samples in the windows; where a window reaches beyond the array there are none. -/
def samplesSeen (x : DataArray δ α) (rs : List (Roll δ)) (L : (δ → ℕ) → List σ) (c : δ → ℕ) : List σ :=
  if InWindows x rs c then L (seen rs c) else []

/-- The samples of the cells along `d` that are in the window at the coordinates `c`. -/
def samplesInWindow (L : (δ → ℕ) → List σ) (d : δ) (window : ℕ) (center : Bool) (n : ℕ) (c : δ → ℕ) :
    List σ :=
  (windowPlaces window center n (c d)).flatMap (fun p => L (Function.update c d p))

/-- At least `minPeriods` cells of the window (as many as the window is long, by default), and at least
one, have weight. -/
def enoughInWindow {K : Type} [Field K] [DecidableEq K] (wt : List σ → K) (L : (δ → ℕ) → List σ) (d : δ)
    (window : ℕ) (minPeriods : Option ℤ) (center : Bool) (n : ℕ) (c : δ → ℕ) : Prop :=
  max (minPeriods.getD window) 1 ≤ (validCount ((windowPlaces window center n (c d)).map
    (fun p => wt (L (Function.update c d p)))) : ℤ)

/-- Like `ResultNamed`, but entries are missing where there is not `enough`, apart from the weight, which
is zero there if `zeroMissing`. -/
structure WindowsNamed {K M : Type} [Zero K] (core : Nd.Core K M) (H : List σ → M → Prop)
    (out : DataArray δ (Option K)) (moms dims : List δ) (size : δ → ℕ) (enough : (δ → ℕ) → Prop)
    (zeroMissing : Bool) (L : (δ → ℕ) → List σ) : Prop where
  dims_eq : out.dims = dims
  size_eq : ∀ d ∈ dims, out.size d = size d
  holds : ∀ c, (∀ d ∈ dims, d ∉ moms → c d < size d) → enough c → ∃ r, H (L c) r ∧
    ∀ ms, Within (moms.map size) ms → entry out (withNames moms ms c) = some (core.ent r ms)
  missing : ∀ c, (∀ d ∈ dims, d ∉ moms → c d < size d) → ¬ enough c → ∀ ms,
    Within (moms.map size) ms → entry out (withNames moms ms c) =
      if zeroMissing = true ∧ ∀ v ∈ ms, v = 0 then some 0 else none

end Cmomy.Spec
