import Verif.Spec.ObjectOps
import Verif.Model.ObjectIndex

/-!
# What a key selects

Independent of how slices are normalised and of how `...` is filled in.
-/

namespace Cmomy.Spec

open Nd ObjectIndex

variable {K : Type*}

/-- Where a bound of a slice points: from the end if it is negative. -/
def sliceBound (n : ℕ) (z : ℤ) : ℤ := if z < 0 then z + n else z

/-- `l` are the positions selected by `start:stop:step` among `n`: from the start on (the first or the
last position by default), every `step`-th one, up to but without the stop. -/
def IsSlice (n : ℕ) (start stop step : Option ℤ) (l : List ℕ) : Prop :=
  step ≠ some 0 ∧
  ((0 < step.getD 1 ∧ l.Pairwise (· < ·) ∧ ∀ p : ℕ, p ∈ l ↔ p < n ∧
      max 0 ((start.map (sliceBound n)).getD 0) ≤ p ∧ (∀ z ∈ stop, (p : ℤ) < sliceBound n z) ∧
      step.getD 1 ∣ p - max 0 ((start.map (sliceBound n)).getD 0)) ∨
   (step.getD 1 < 0 ∧ l.Pairwise (· > ·) ∧ ∀ p : ℕ, p ∈ l ↔ p < n ∧
      p ≤ min ((n : ℤ) - 1) ((start.map (sliceBound n)).getD (n - 1)) ∧
      (∀ z ∈ stop, sliceBound n z < (p : ℤ)) ∧
      step.getD 1 ∣ p - min ((n : ℤ) - 1) ((start.map (sliceBound n)).getD (n - 1))))

/-- The index with first coordinate `x`, followed by `g`. -/
def consIdx (x : ℕ) (g : ℕ → ℕ) : ℕ → ℕ
  | 0 => x
  | a + 1 => g a

/-- The index without its first coordinate. -/
def tailIdx (i : ℕ → ℕ) : ℕ → ℕ := fun a => i (a + 1)

/-- A key applied to axes of sizes `vs` gives axes of sizes `vs'`, and at index `i` of these shows what was
at index `f i`. -/
inductive Reads : List Key → List ℕ → List ℕ → ((ℕ → ℕ) → ℕ → ℕ) → Prop
  /-- Axes that are not mentioned are kept. -/
  | rest (vs : List ℕ) : Reads [] vs vs id
  /-- `None` adds an axis of size one. -/
  | newaxis {ks vs vs' f} : Reads ks vs vs' f →
      Reads (.newaxis :: ks) vs (1 :: vs') (fun i => f (tailIdx i))
  /-- An integer removes an axis. -/
  | int {ks vs vs' f} {n : ℕ} {z : ℤ} : InRange n z → Reads ks vs vs' f →
      Reads (.int z :: ks) (n :: vs) vs' (fun i => consIdx (wrap n z) (f i))
  /-- A slice keeps the positions it selects. -/
  | slice {ks vs vs' f} {n : ℕ} {start stop step : Option ℤ} {l : List ℕ} :
      IsSlice n start stop step l → Reads ks vs vs' f →
      Reads (.slice start stop step :: ks) (n :: vs) (l.length :: vs')
        (fun i => consIdx (l.getD (i 0) 0) (f (tailIdx i)))
  /-- A list of integers selects the positions listed. -/
  | list {ks vs vs' f} {n : ℕ} {l : List ℤ} : (∀ z ∈ l, InRange n z) → Reads ks vs vs' f →
      Reads (.list l :: ks) (n :: vs) (l.length :: vs')
        (fun i => consIdx (wrap n (l.getD (i 0) 0)) (f (tailIdx i)))
  /-- A list of booleans, one for every position, selects those where it is true. -/
  | mask {ks vs vs' f} {bs : List Bool} {l : List ℕ} : l.Pairwise (· < ·) →
      (∀ p, p ∈ l ↔ bs[p]? = some true) → Reads ks vs vs' f →
      Reads (.mask bs :: ks) (bs.length :: vs) (l.length :: vs')
        (fun i => consIdx (l.getD (i 0) 0) (f (tailIdx i)))
  /-- `...` keeps the axes that the entries behind it leave over. -/
  | ellipsis {ks back vs' f} (front : List ℕ) : .ellipsis ∉ ks →
      ks.countP Key.addresses = back.length → Reads ks back vs' f →
      Reads (.ellipsis :: ks) (front ++ back) (front ++ vs')
        (fun i a => if a < front.length then i a
          else f (fun b => i (b + front.length)) (a - front.length))

/-- At most one list of integers or booleans, and then no integer. -/
def PlainKey (keys : List Key) : Prop :=
  keys.countP Key.advanced = 0 ∨ (keys.countP Key.advanced = 1 ∧ keys.countP Key.isInt = 0)

/-- Where the `k`-th of several arrays starts, when they are put behind one another along `ax`. -/
def startOf (arrays : List (Arr K)) (ax k : ℕ) : ℕ :=
  ((arrays.take k).map (fun a => axisSize a ax)).sum

/-- The array shows the given arrays, one behind the other along axis `ax`; the sizes of the other axes
are those of `shape`. -/
structure Joins (out : Arr K) (arrays : List (Arr K)) (shape : List ℕ) (ax : ℕ) : Prop where
  proper : out.Proper
  shape : out.shape = shape.set ax (startOf arrays ax arrays.length)
  part : ∀ (k : ℕ) (a : Arr K), arrays[k]? = some a → ∀ i, InBounds a.shape i →
    out.get (Function.update i ax (startOf arrays ax k + i ax)) = a.get i

end Cmomy.Spec
