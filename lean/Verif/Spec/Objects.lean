import Verif.Spec.Moments
import Verif.Model.Objects

/-!
# Specification: moment objects as multisets of weighted samples

Only the data types of the model (`Shape`, `Obj`, `Op`, `State`) are used here. Every storage cell is
given a list of weighted samples; each operation is described by what it does to these lists.
-/

namespace Cmomy

open Objects Spec

section

variable {K : Type} [Field K]

/-- A weighted sample of an object of the given moment shape. -/
abbrev Spec.Samp (K : Type) : Shape → Type
  | .one _ => Sample K
  | .two _ _ => Sample2 K

/-- The array holds the moments of the samples. -/
def Spec.HoldsAt : (s : Shape) → List (Samp K s) → s.Cell K → Prop
  | .one o, L, m => Holds o L m
  | .two o0 o1, L, m => Holds2 o0 o1 L m

/-- Total weight of the samples. -/
def Spec.sweight : (s : Shape) → List (Samp K s) → K
  | .one _, L => weight L
  | .two _ _, L => weight2 L

/-- The sample with its weight multiplied by `c`. -/
def Spec.reweigh (c : K) : (s : Shape) → Samp K s → Samp K s
  | .one _, a => ⟨a.w * c, a.x⟩
  | .two _ _, a => ⟨a.w * c, a.x, a.y⟩

/-- The sample with value `x` (and first entry of `ys`) and weight `w`. -/
def Spec.sampleOf : (s : Shape) → K → List K → K → Samp K s
  | .one _, x, _, w => ⟨w, x⟩
  | .two _ _, x, ys, w => ⟨w, x, ys.headD 0⟩

/-- Entry for position `p` of an argument that has one entry per position, or one for all. -/
def Spec.pick {α : Type} (l : List α) (p : ℕ) (d : α) : α :=
  if l.length = 1 then l.headD d else l.getD p d

/-- The row of `k` cells for position `p` of an array that has one row per position, or one for all. -/
def Spec.rowAt (cells : List ℕ) (k p : ℕ) : List ℕ :=
  if cells.length = k then cells else (cells.drop (p * k)).take k

/-- Objects in scope, and the samples in each storage cell. -/
structure Spec.World (K : Type) where
  objs : List Obj
  con : (s : Shape) → ℕ → List (Samp K s)

/-- The cells of an object get the given contents, nothing else changes. -/
structure Spec.Rewrites (w w' : World K) (a : Obj) (new : ℕ → List (Samp K a.shape)) : Prop where
  objs : w'.objs = w.objs
  written : ∀ p < a.cells.length, w'.con a.shape (a.cells.getD p 0) = new p
  kept : ∀ s c, (s = a.shape → c ∉ a.cells) → w'.con s c = w.con s c

/-- The samples `new p` are added to position `p` of an object, nothing else changes. -/
def Spec.Adds (w w' : World K) (a : Obj) (new : ℕ → List (Samp K a.shape)) : Prop :=
  Rewrites w w' a fun p => w.con a.shape (a.cells.getD p 0) ++ new p

/-- A new object in new storage, with the given contents per position; nothing else changes. -/
def Spec.Creates (w w' : World K) (cls : Cls) (s : Shape) (contents : List (List (Samp K s))) :
    Prop :=
  ∃ cells : List ℕ, w'.objs = w.objs ++ [⟨cls, s, cells⟩] ∧ cells.length = contents.length ∧
    cells.Nodup ∧ (∀ o ∈ w.objs, o.shape = s → ∀ c ∈ cells, c ∉ o.cells) ∧
    (∀ p < cells.length, w'.con s (cells.getD p 0) = contents.getD p []) ∧
    ∀ o ∈ w.objs, ∀ c ∈ o.cells, w'.con o.shape c = w.con o.shape c

/-- The samples of `b`'s position `p`, in an operation on `a`, with weights times `c`. -/
def Spec.from' (w : World K) (a b : Obj) (c : K) (p : ℕ) : List (Samp K a.shape) :=
  (w.con a.shape (pick b.cells p 0)).map (reweigh c a.shape)

/-- What each operation does, when it returns normally. -/
def Spec.Does (w w' : World K) : Op K → Prop
  | .zeros cls s n => Creates w w' cls s (List.replicate n [])
  | .zerosLike i => ∃ a, w.objs[i]? = some a ∧
      Creates w w' a.cls a.shape (List.replicate a.cells.length [])
  | .copy i => ∃ a, w.objs[i]? = some a ∧
      Creates w w' a.cls a.shape (a.cells.map (w.con a.shape))
  | .view i ps => ∃ a, w.objs[i]? = some a ∧ w'.con = w.con ∧
      w'.objs = w.objs ++ [⟨a.cls, a.shape, ps.map fun p => a.cells.getD p 0⟩]
  | .pushVal i x ys wt => ∃ a, w.objs[i]? = some a ∧ Adds w w' a fun p =>
      [sampleOf a.shape (pick x p 0) (ys.map fun y => pick y p 0) (pick (wt.getD [1]) p 0)]
  | .pushVals i x ys wt nsamp => ∃ a, w.objs[i]? = some a ∧ Adds w w' a fun p =>
      (List.range nsamp).map fun t => sampleOf a.shape ((pick x p []).getD t 0)
        (ys.map fun y => (pick y p []).getD t 0) ((pick wt p []).getD t 0)
  | .pushData i j scale => ∃ a b, w.objs[i]? = some a ∧ w.objs[j]? = some b ∧ b.shape = a.shape ∧
      Adds w w' a (from' w a b (scale.getD 1))
  | .pushDatas i j k => ∃ a b, w.objs[i]? = some a ∧ w.objs[j]? = some b ∧ b.shape = a.shape ∧
      Adds w w' a fun p => (rowAt b.cells k p).flatMap (w.con a.shape)
  | .iadd i j => ∃ a b, w.objs[i]? = some a ∧ w.objs[j]? = some b ∧ b.cls = a.cls ∧
      b.shape = a.shape ∧ Adds w w' a (from' w a b 1)
  | .isub i j => ∃ a b, w.objs[i]? = some a ∧ w.objs[j]? = some b ∧ b.cls = a.cls ∧
      b.shape = a.shape ∧ Adds w w' a (from' w a b (-1))
  | .add i j => ∃ a b, w.objs[i]? = some a ∧ w.objs[j]? = some b ∧ b.cls = a.cls ∧
      b.shape = a.shape ∧ Creates w w' a.cls a.shape ((List.range a.cells.length).map fun p =>
        w.con a.shape (a.cells.getD p 0) ++ from' w a b 1 p)
  | .sub i j => ∃ a b, w.objs[i]? = some a ∧ w.objs[j]? = some b ∧ b.cls = a.cls ∧
      b.shape = a.shape ∧ Creates w w' a.cls a.shape ((List.range a.cells.length).map fun p =>
        w.con a.shape (a.cells.getD p 0) ++ from' w a b (-1) p)
  | .mul i c => ∃ a, w.objs[i]? = some a ∧ Creates w w' a.cls a.shape
      (a.cells.map fun q => (w.con a.shape q).map (reweigh c a.shape))
  | .imul i c => ∃ a, w.objs[i]? = some a ∧ Rewrites w w' a fun p =>
      (w.con a.shape (a.cells.getD p 0)).map (reweigh c a.shape)

/-- Pushing the pieces one after the other into samples `L` brings the total weight to zero with a piece
whose own weight is not zero. -/
def Spec.Cancels (s : Shape) (L : List (Samp K s)) (pieces : List (List (Samp K s))) : Prop :=
  ∃ pre piece post, pieces = pre ++ piece :: post ∧ sweight s piece ≠ 0 ∧
    sweight s (L ++ pre.flatten ++ piece) = 0

/-- At some position of `a` the pieces cancel the weight. -/
def Spec.CancelsAt (w : World K) (a : Obj) (pieces : ℕ → List (List (Samp K a.shape))) : Prop :=
  ∃ p < a.cells.length, Cancels a.shape (w.con a.shape (a.cells.getD p 0)) (pieces p)

/-- When the operation, on arguments that fit, has no finite result. -/
def Spec.NoResult (w : World K) : Op K → Prop
  | .pushVal i x ys wt => ∃ a, w.objs[i]? = some a ∧ CancelsAt w a fun p =>
      [[sampleOf a.shape (pick x p 0) (ys.map fun y => pick y p 0) (pick (wt.getD [1]) p 0)]]
  | .pushVals i x ys wt nsamp => ∃ a, w.objs[i]? = some a ∧ CancelsAt w a fun p =>
      (List.range nsamp).map fun t => [sampleOf a.shape ((pick x p []).getD t 0)
        (ys.map fun y => (pick y p []).getD t 0) ((pick wt p []).getD t 0)]
  | .pushData i j scale => ∃ a b, w.objs[i]? = some a ∧ w.objs[j]? = some b ∧
      CancelsAt w a fun p => [from' w a b (scale.getD 1) p]
  | .pushDatas i j k => ∃ a b, w.objs[i]? = some a ∧ w.objs[j]? = some b ∧
      CancelsAt w a fun p => (rowAt b.cells k p).map (w.con a.shape)
  | .iadd i j | .add i j => ∃ a b, w.objs[i]? = some a ∧ w.objs[j]? = some b ∧
      CancelsAt w a fun p => [from' w a b 1 p]
  | .isub i j | .sub i j => ∃ a b, w.objs[i]? = some a ∧ w.objs[j]? = some b ∧
      CancelsAt w a fun p => [from' w a b (-1) p]
  | _ => False

/-- An argument with `len` entries fits an object with `n` positions. -/
def Spec.Fits (n len : ℕ) : Prop := len = n ∨ len = 1

/-- `k` cells per position of `a`, or `k` cells for all. -/
def Spec.FitsRows (n k len : ℕ) : Prop := k ≠ 0 → len = n * k ∨ len = k

/-- The arguments are acceptable: the objects exist, are of the same class where required, have the
same moments, and the values fit the positions. -/
def Spec.Accepts (objs : List Obj) : Op K → Prop
  | .zeros _ s _ => s.Ok
  | .zerosLike i | .copy i | .mul i _ | .imul i _ => ∃ a, objs[i]? = some a
  | .view i ps => ∃ a, objs[i]? = some a ∧ ps.Nodup ∧ ∀ p ∈ ps, p < a.cells.length
  | .pushVal i x ys wt => ∃ a, objs[i]? = some a ∧ ys.length + 1 = a.shape.ndim ∧
      Fits a.cells.length x.length ∧ (∀ y ∈ ys, Fits a.cells.length y.length) ∧
      ∀ v, wt = some v → Fits a.cells.length v.length
  | .pushVals i x ys wt nsamp => ∃ a, objs[i]? = some a ∧ ys.length + 1 = a.shape.ndim ∧
      Fits a.cells.length x.length ∧ (∀ y ∈ ys, Fits a.cells.length y.length) ∧
      Fits a.cells.length wt.length ∧ (∀ r ∈ x, r.length = nsamp) ∧
      (∀ y ∈ ys, ∀ r ∈ y, r.length = nsamp) ∧ ∀ r ∈ wt, r.length = nsamp
  | .pushData i j _ => ∃ a b, objs[i]? = some a ∧ objs[j]? = some b ∧ b.shape = a.shape ∧
      Fits a.cells.length b.cells.length
  | .pushDatas i j k => ∃ a b, objs[i]? = some a ∧ objs[j]? = some b ∧ b.shape = a.shape ∧
      FitsRows a.cells.length k b.cells.length
  | .iadd i j | .isub i j | .add i j | .sub i j => ∃ a b, objs[i]? = some a ∧
      objs[j]? = some b ∧ b.cls = a.cls ∧ b.shape = a.shape ∧ Fits a.cells.length b.cells.length

/-- `push_data` and `push_datas` are given as many moment axes as the object has. (NumPy reinterprets
an array with another number of axes; not modelled.) -/
def Spec.SameAxes (objs : List Obj) : Op K → Prop
  | .pushData i j _ | .pushDatas i j _ =>
    ∀ a b, objs[i]? = some a → objs[j]? = some b → b.shape.ndim = a.shape.ndim
  | _ => True

/-- The operation's data overlaps the array it writes only cell on cell (`a += a`), not shifted.
Operations with a fresh result, or with values, never overlap. -/
def Spec.Aligned (objs : List Obj) : Op K → Prop
  | .pushData i j _ | .iadd i j | .isub i j =>
    ∀ a b, objs[i]? = some a → objs[j]? = some b → a.shape = b.shape →
      ∀ p q, p < a.cells.length → q < a.cells.length → a.cells.getD p 0 = pick b.cells q 0 → p = q
  | .pushDatas i j _ =>
    ∀ a b, objs[i]? = some a → objs[j]? = some b → a.shape = b.shape →
      ∀ c ∈ a.cells, c ∉ b.cells
  | _ => True

/-- Objects are proper: positive orders, distinct cells, all allocated. -/
structure Spec.Proper (σ : State K) : Prop where
  ok : ∀ o ∈ σ.objs, o.shape.Ok
  nodup : ∀ o ∈ σ.objs, o.cells.Nodup
  lt : ∀ o ∈ σ.objs, ∀ c ∈ o.cells, c < σ.next

/-- Every position of every object holds the moments of its samples. -/
def Spec.Represents (σ : State K) (w : World K) : Prop :=
  w.objs = σ.objs ∧ ∀ o ∈ σ.objs, ∀ c ∈ o.cells, HoldsAt o.shape (w.con o.shape c) (σ.mem o.shape c)

/-- Nothing observable changed: the same objects with the same contents. -/
def Spec.SameObjects (σ σ' : State K) : Prop :=
  σ'.objs = σ.objs ∧ ∀ o ∈ σ.objs, ∀ c ∈ o.cells, σ'.mem o.shape c = σ.mem o.shape c

/-- A history at the level of samples: operations that returned did what they should, operations that
raised did nothing. -/
inductive Spec.History : World K → List (Op K × Py Unit) → World K → Prop
  | nil (w) : History w [] w
  | ok {w w' w'' op l} : Does w w' op → History w' l w'' → History w ((op, .ok ()) :: l) w''
  | raised {w w'' op e l} : History w l w'' → History w ((op, .error e) :: l) w''

end

end Cmomy
