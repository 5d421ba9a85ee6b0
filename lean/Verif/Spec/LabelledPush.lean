import Verif.Model.LabelledPush
import Verif.Spec.LabelledVals
import Verif.Spec.PushNd

/-!
# What pushing onto a labelled object should do

Labelled arguments are matched with the object by the names of their dimensions, whatever the order;
arrays without names by position. Nothing here refers to how arrays are arranged for a gufunc.
-/

namespace Cmomy.Spec

open Labelled

variable {δ : Type} [DecidableEq δ] {K V M S : Type}

/-- The dimensions of an object that are not moment dimensions. -/
def valDims {α : Type} (obj : DataArray δ α) (moms : List δ) : List δ :=
  obj.dims.filter (fun d => decide (d ∉ moms))

/-- An object with moment dimensions `moms`. -/
structure LabelledObject {α : Type} (obj : DataArray δ α) (moms : List δ) (nd : ℕ) : Prop where
  distinct : obj.dims.Nodup
  momDistinct : moms.Nodup
  momPresent : ∀ d ∈ moms, d ∈ obj.dims
  momCount : moms.length = nd

/-- `c` are coordinates of the object, the moment dimensions left out. -/
def InLabelled {α : Type} (obj : DataArray δ α) (moms : List δ) (c : δ → ℕ) : Prop :=
  ∀ d ∈ valDims obj moms, c d < obj.size d

/-- The record at the coordinates `c`: missing when its weight is. -/
def cellNamed [Zero K] (core : Nd.Core K M) (obj : DataArray δ (Option K)) (moms : List δ)
    (c : δ → ℕ) : Option M :=
  let g := fun ms : List ℕ => entry obj (withNames moms ms c)
  if (g (List.replicate core.nd 0)).isSome then some (core.recd (fun ms => (g ms).getD 0)) else none

/-- `obj'` is `obj` with every record replaced as told by `f`; the moment dimensions come last. -/
structure UpdatedNamed [Zero K] (core : Nd.Core K M) (moms : List δ)
    (obj obj' : DataArray δ (Option K)) (f : (δ → ℕ) → M → Option M) : Prop where
  dims : obj'.dims = valDims obj moms ++ moms
  size : ∀ d ∈ obj.dims, obj'.size d = obj.size d
  cell : ∀ c, InLabelled obj moms c →
    cellNamed core obj' moms c = (cellNamed core obj moms c).bind (f c)
  entry : ∀ c, InLabelled obj moms c →
    entry obj' c = ((cellNamed core obj moms c).bind (f c)).map
      (fun r => core.ent r (moms.map c))

/-- The entries of an object are those of its records. -/
def WholeNamed [Zero K] (core : Nd.Core K M) (obj : DataArray δ (Option K)) (moms : List δ) : Prop :=
  ∀ c, InLabelled obj moms c →
    entry obj c = (cellNamed core obj moms c).map (fun r => core.ent r (moms.map c))

/-- The number an operand shows at the coordinates `c`; `loop` are the dimensions of the object that
are not moment dimensions. -/
def numberFrom (loop : List δ) (c : δ → ℕ) : Operand δ K → K
  | .named y => entry y c
  | .plain a => numberAt a loop.length (coordsAlong loop c)

/-- An operand that shows one number at all coordinates of an object. -/
def GoodNumber (loop : List δ) (size : δ → ℕ) : Operand δ K → Prop
  | .named y => y.dims.Nodup ∧ ∀ d ∈ y.dims, d ∈ loop ∧ y.size d = size d
  | .plain a => FitsInto a.shape (loop.map size)

/-- The record an operand shows at the coordinates `c`. -/
def recordFrom (core : Nd.Core K M) (moms loop : List δ) (c : δ → ℕ) : Operand δ K → M
  | .named y => recordNamed core y moms c
  | .plain a => dataRecord core a loop.length (coordsAlong loop c)

/-- An operand that shows one record at all coordinates of an object. -/
def GoodRecord (core : Nd.Core K M) (moms loop : List δ) (size : δ → ℕ) : Operand δ K → Prop
  | .named y => y.dims.Nodup ∧ (∀ d ∈ moms, d ∈ y.dims) ∧
      ∀ d ∈ y.dims, d ∈ loop ++ moms ∧ y.size d = size d
  | .plain a => core.nd ≤ a.shape.length ∧ momShape core a = moms.map size ∧
      FitsInto (valShape core a) (loop.map size)

/-- Labelled values `x` with weight and further values can be pushed along the dimension `dm`, which
is not one of the object's. -/
structure GoodVals (obj : DataArray δ (Option K)) (moms : List δ) (x : DataArray δ K)
    (others : List (Operand δ K)) (dm : δ) : Prop where
  fresh : dm ∉ obj.dims
  within : ∀ o ∈ .named x :: others, ∀ d ∈ operandDims o, d = dm ∨ d ∈ valDims obj moms
  good : ∀ o ∈ .named x :: others, GoodOperand (valDims obj moms) dm (nameFromEnd x dm)
    (Function.update obj.size dm (x.size dm)) [] o

/-- Labelled moments can be pushed along the dimension `dm`, which is not one of the object's. -/
structure GoodDatasNamed (obj : DataArray δ (Option K)) (moms : List δ) (d : DataArray δ K)
    (dm : δ) : Prop where
  fresh : dm ∉ obj.dims
  distinct : d.dims.Nodup
  present : dm ∈ d.dims
  momPresent : ∀ m ∈ moms, m ∈ d.dims
  within : ∀ e ∈ d.dims, e = dm ∨ (e ∈ valDims obj moms ++ moms ∧ d.size e = obj.size e)

/-- A call is well formed. -/
def GoodPushX (core : Nd.Core K M) (moms : List δ) (obj : DataArray δ (Option K)) :
    PushX δ K → Prop
  | .val x w ys => ys.length + 1 = core.nd ∧
      ∀ o ∈ x :: w :: ys, GoodNumber (valDims obj moms) obj.size o
  | .vals x w ys axis dim => ys.length + 1 = core.nd ∧
      ∃ dm, Chosen x.dims [] axis dim dm ∧ GoodVals obj moms x (w :: ys) dm
  | .valsPlain x w ys z => ys.length + 1 = core.nd ∧
      GoodPush x (w.asArray :: ys.map Operand.asArray) z ((valDims obj moms).map obj.size)
  | .data d none => GoodRecord core moms (valDims obj moms) obj.size d
  | .data d (some s) => GoodRecord core moms (valDims obj moms) obj.size d ∧
      FitsInto s.shape ((valDims obj moms).map obj.size)
  | .datas d axis dim => ∃ dm, Chosen d.dims moms axis dim dm ∧ GoodDatasNamed obj moms d dm
  | .datasPlain d z mom => GoodDatas core.nd d z mom ∧
      (momAxesOf d.shape.length core.nd mom).map (axisSize d) = moms.map obj.size ∧
      FitsInto (freeShape d (wrap d.shape.length z :: momAxesOf d.shape.length core.nd mom))
        ((valDims obj moms).map obj.size)

/-- What a call adds at all coordinates, when `H L m` says that the record `m` stands for the samples
`L`. -/
def ContributesX (H : List S → M → Prop) (smp : V → K → S) (scl : K → S → S) (val : List K → V)
    (core : Nd.Core K M) (moms : List δ) (obj : DataArray δ (Option K)) :
    PushX δ K → ((δ → ℕ) → List S) → Prop
  | .val x w ys, T => ∀ c, InLabelled obj moms c →
      T c = [smp (val ((x :: ys).map (numberFrom (valDims obj moms) c)))
        (numberFrom (valDims obj moms) c w)]
  | .vals x w ys axis dim, T => ∀ dm, Chosen x.dims [] axis dim dm → ∀ c, InLabelled obj moms c →
      T c = (samplesNamed val (valDims obj moms) dm (nameFromEnd x dm) (x.size dm) (.named x) w ys
        c).map (fun p => smp p.1 p.2)
  | .valsPlain x w ys z, T => ∀ c, InLabelled obj moms c →
      T c = (valsSamples val x w.asArray (ys.map Operand.asArray) z (valDims obj moms).length
        (coordsAlong (valDims obj moms) c)).map (fun p => smp p.1 p.2)
  | .data d none, T => ∀ c, InLabelled obj moms c →
      H (T c) (recordFrom core moms (valDims obj moms) c d)
  | .data d (some s), T => ∃ U : (δ → ℕ) → List S, ∀ c, InLabelled obj moms c →
      H (U c) (recordFrom core moms (valDims obj moms) c d) ∧
        T c = (U c).map (scl (numberAt s (valDims obj moms).length
          (coordsAlong (valDims obj moms) c)))
  | .datas d axis dim, T => ∀ dm, Chosen d.dims moms axis dim dm →
      ∃ U : ℕ → (δ → ℕ) → List S, ∀ c, InLabelled obj moms c →
      (∀ s < d.size dm, H (U s c) (recordNamed core d moms (Function.update c dm s))) ∧
        T c = (List.range (d.size dm)).flatMap (fun s => U s c)
  | .datasPlain d z mom, T => ∃ U : ℕ → (δ → ℕ) → List S, ∀ c, InLabelled obj moms c →
      (∀ s < sampleCount d z, H (U s c) (datasRecord core d z mom (valDims obj moms).length
        (coordsAlong (valDims obj moms) c) s)) ∧
        T c = (List.range (sampleCount d z)).flatMap (fun s => U s c)

/-- A labelled operand which an object does not take: a dimension out of `cs`, which it has to have, is
missing; or it has a dimension with another size than in the object, a moment dimension other than
in `cs`, or a dimension which the object does not have, of a size other than one. -/
def Foreign (obj : DataArray δ (Option K)) (moms cs : List δ) : Operand δ K → Prop
  | .named y => (∃ d ∈ cs, d ∉ y.dims) ∨ ∃ d ∈ y.dims, (d ∈ obj.dims ∧ y.size d ≠ obj.size d) ∨
      (d ∈ moms ∧ d ∉ cs) ∨ (d ∉ obj.dims ∧ d ∉ cs ∧ y.size d ≠ 1)
  | .plain _ => False

end Cmomy.Spec
