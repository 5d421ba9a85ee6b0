import Verif.Model.PushNd
import Verif.Spec.ValsOps
import Verif.Spec.Moments

/-!
# What pushing onto an array object should do

Independent of how the code moves axes and calls gufuncs.
-/

namespace Cmomy.Spec

open Nd

variable {K V M S : Type*}

/-- One shape, aligned at the end with another one, has size one or the same size on each of its
axes. -/
def FitsInto (s full : List ℕ) : Prop :=
  s.length ≤ full.length ∧ ∀ p < s.length,
    s.getD p 0 = 1 ∨ s.getD p 0 = full.getD (p + (full.length - s.length)) 0

/-- Sizes of the axes that are not core axes. -/
def freeShape {L : Type*} (a : Arr L) (core : List ℕ) : List ℕ :=
  (keptAxes a.shape.length core).map (axisSize a)

/-- The last `m` of `n` axes. -/
def tailAxes (n m : ℕ) : List ℕ := (List.range m).map (fun j => n - m + j)

/-- The number of axes of an object that are not moment axes. -/
abbrev valRank (core : Core K M) {L : Type*} (obj : Arr L) : ℕ := obj.shape.length - core.nd

/-- The sizes of these axes. -/
abbrev valShape (core : Core K M) {L : Type*} (obj : Arr L) : List ℕ :=
  obj.shape.take (valRank core obj)

/-- The sizes of the moment axes. -/
abbrev momShape (core : Core K M) {L : Type*} (obj : Arr L) : List ℕ :=
  obj.shape.drop (valRank core obj)

/-- `i` is an index of the object, the moment axes left out. -/
def InObject (core : Core K M) {L : Type*} (obj : Arr L) (i : ℕ → ℕ) : Prop :=
  ∀ p < valRank core obj, i p < axisSize obj p

/-- The record of an object at index `i`: missing when its weight is. -/
def cellAt [Zero K] (core : Core K M) (obj : Arr (Option K)) (i : ℕ → ℕ) : Option M :=
  let g := fun ms : List ℕ => obj.get (fun p =>
    if p < valRank core obj then i p else ms.getD (p - valRank core obj) 0)
  if (g (List.replicate core.nd 0)).isSome then some (core.recd (fun ms => (g ms).getD 0)) else none

/-- `obj'` is `obj` with every record replaced as told by `f`. -/
structure Updated [Zero K] (core : Core K M) (obj obj' : Arr (Option K))
    (f : (ℕ → ℕ) → M → Option M) : Prop where
  proper : obj'.Proper
  shape : obj'.shape = obj.shape
  cell : ∀ i, InObject core obj i → cellAt core obj' i = (cellAt core obj i).bind (f i)
  entry : ∀ i, InObject core obj i → obj'.get i = ((cellAt core obj i).bind (f i)).map
    (fun r => core.ent r (momCoords (valRank core obj) core.nd i))

/-- Every record of the object is there, or missing, as a whole. -/
def Whole [Zero K] (core : Core K M) (obj : Arr (Option K)) : Prop :=
  ∀ i, InObject core obj i → obj.get i = (cellAt core obj i).map
    (fun r => core.ent r (momCoords (valRank core obj) core.nd i))

/-- An array of numbers as an object. -/
def objOf (a : Arr K) : Arr (Option K) := ⟨a.shape, fun i => some (a.get i)⟩

/-- A value and its weight. -/
def sample1 (x w : K) : Sample K := ⟨w, x⟩

/-- A sample with its weight scaled. -/
def scaled1 [Mul K] (c : K) (s : Sample K) : Sample K := ⟨c * s.w, s.x⟩

/-- A pair of values and its weight. -/
def sample2 (v : K × K) (w : K) : Sample2 K := ⟨w, v.1, v.2⟩

/-- A sample with its weight scaled. -/
def scaled2 [Mul K] (c : K) (s : Sample2 K) : Sample2 K := ⟨c * s.w, s.x, s.y⟩

/-- The number an array without core axes contributes at index `i` of an object with `N` axes. -/
abbrev numberAt (a : Arr K) (N : ℕ) (i : ℕ → ℕ) : K := matched a [] (List.range N) i []

/-- The record an array of moments contributes at index `i`. -/
abbrev dataRecord (core : Core K M) (d : Arr K) (N : ℕ) (i : ℕ → ℕ) : M :=
  core.recd (matched d (tailAxes d.shape.length core.nd) (List.range N) i)

/-- The moment axes of an array with `n` axes: as given, or the last ones. -/
def momAxesOf (n nd : ℕ) : Option (List ℤ) → List ℕ
  | none => tailAxes n nd
  | some mom => mom.map (wrap n)

/-- The record with number `s` along axis `z` that an array of moments contributes at index `i`. -/
abbrev datasRecord (core : Core K M) (d : Arr K) (z : ℤ) (mom : Option (List ℤ)) (N : ℕ) (i : ℕ → ℕ)
    (s : ℕ) : M :=
  core.recd (fun ms => matched d
    (wrap d.shape.length z :: momAxesOf d.shape.length core.nd mom) (List.range N) i (s :: ms))

/-- An index with the sample axis put in at position `ax`. -/
def openIdx (ax : ℕ) (i : ℕ → ℕ) (p : ℕ) : ℕ := if p < ax then i p else i (p - 1)

/-- The samples values and weight contribute at index `i` of an object with `N` axes: the sample
axis is as far from the end as it is in `x`. -/
abbrev valsSamples (val : List K → V) (x w : Arr K) (ys : List (Arr K)) (z : ℤ) (N : ℕ) (i : ℕ → ℕ) :
    List (V × K) :=
  samplesOver val x w ys (N + 1) (N + 1 - fromEnd x z) (sampleCount x z)
    (openIdx (N + 1 - fromEnd x z) i)

/-- Values and weight can be pushed onto an object with the given shape: they are usable together,
and every one of them with more than one axis fits, without its sample axis, into that shape. -/
structure GoodPush (x : Arr K) (others : List (Arr K)) (z : ℤ) (shape : List ℕ) : Prop where
  proper : x.Proper
  range : InRange x.shape.length z
  usable : ∀ a ∈ others, Usable a (fromEnd x z) (sampleCount x z)
  fits : FitsInto (freeShape x [wrap x.shape.length z]) shape
  fitsOthers : ∀ a ∈ others, 2 ≤ a.shape.length →
    FitsInto (freeShape a [a.shape.length - fromEnd x z]) shape

/-- The arrays a call is given. -/
def argArrays : PushCmd K → List (Arr K)
  | .val x w ys => x :: w :: ys
  | .vals x w ys _ => x :: w :: ys
  | .data d none => [d]
  | .data d (some c) => [d, c]
  | .datas d _ _ => [d]

/-- An array of moments can be pushed along axis `z`: axis `z` and the moment axes exist and are
distinct. -/
structure GoodDatas (nd : ℕ) (d : Arr K) (z : ℤ) (mom : Option (List ℤ)) : Prop where
  proper : d.Proper
  range : InRange d.shape.length z
  room : nd ≤ d.shape.length
  momLength : (momAxesOf d.shape.length nd mom).length = nd
  momRange : ∀ m ∈ mom, ∀ a ∈ m, InRange d.shape.length a
  distinct : (wrap d.shape.length z :: momAxesOf d.shape.length nd mom).Nodup

/-- No weight and no scale of a call is negative; `wt` is the weight of a record. -/
def NoNegative [Zero K] [LE K] (wt : M → K) (core : Core K M) (obj : Arr (Option K)) :
    PushCmd K → Prop
  | .val _ w _ => ∀ i, 0 ≤ w.get i
  | .vals _ w _ _ => ∀ i, 0 ≤ w.get i
  | .data d none => ∀ i, 0 ≤ wt (dataRecord core d (valRank core obj) i)
  | .data d (some c) => (∀ i, 0 ≤ wt (dataRecord core d (valRank core obj) i)) ∧ ∀ i, 0 ≤ c.get i
  | .datas d z mom => ∀ i, ∀ s < sampleCount d z,
      0 ≤ wt (datasRecord core d z mom (valRank core obj) i s)

/-- What a call adds at every index of an object of shape `obj.shape`, when `H L m` says that the
record `m` stands for the samples `L`. -/
def Contributes (H : List S → M → Prop) (smp : V → K → S) (scl : K → S → S) (val : List K → V)
    (core : Core K M) (obj : Arr (Option K)) : PushCmd K → ((ℕ → ℕ) → List S) → Prop
  | .val x w ys, T => ∀ i, InObject core obj i →
      T i = [smp (val ((x :: ys).map (fun a => numberAt a (valRank core obj) i)))
        (numberAt w (valRank core obj) i)]
  | .vals x w ys z, T => ∀ i, InObject core obj i →
      T i = (valsSamples val x w ys z (valRank core obj) i).map (fun p => smp p.1 p.2)
  | .data d none, T => ∀ i, InObject core obj i → H (T i) (dataRecord core d (valRank core obj) i)
  | .data d (some c), T => ∃ U : (ℕ → ℕ) → List S, ∀ i, InObject core obj i →
      H (U i) (dataRecord core d (valRank core obj) i) ∧
        T i = (U i).map (scl (numberAt c (valRank core obj) i))
  | .datas d z mom, T => ∃ U : ℕ → (ℕ → ℕ) → List S, ∀ i, InObject core obj i →
      (∀ s < sampleCount d z,
        H (U s i) (datasRecord core d z mom (valRank core obj) i s)) ∧
      T i = (List.range (sampleCount d z)).flatMap (fun s => U s i)

end Cmomy.Spec
