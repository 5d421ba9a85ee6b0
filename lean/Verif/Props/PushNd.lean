import Verif.Lemmas.PushHistory
import Verif.Props.ValsOps

/-!
# C56: pushing onto an array object of any shape

`val`, `core`, `fam` are `value1`, `core1`, `family1` for one variable and `value2`, `core2`,
`family2` for two. An object is its array, with the moment axes last. `InObject core obj i`: `i` is an
index of the object without the moment axes; `cellAt core obj i` is the record there.
-/

namespace Cmomy

open Spec Axes Nd

/-- An object with two records of two moments. -/
def exObj : Arr (Option ℚ) := ⟨[2, 3], fun i => some (1 + i 0 + i 1)⟩

theorem exObj_proper : exObj.Proper := by
  intro i j h
  simp only [exObj] at h ⊢
  rw [h 0 (by simp), h 1 (by simp)]

/-- Values for three records of two samples, the samples first. -/
def exPushVals : Arr ℚ := ⟨[3, 2], fun i => 1 + 2 * i 0 - i 1⟩

theorem exPushVals_proper : exPushVals.Proper := by
  intro i j h
  simp only [exPushVals] at h ⊢
  rw [h 0 (by simp), h 1 (by simp)]

/-- Moments, three records for each of the two records of the object; the moment axis is first. -/
def exPushDatas : Arr ℚ := ⟨[3, 3, 2], fun i => 1 + i 0 + i 1 * i 2⟩

theorem exPushDatas_proper : exPushDatas.Proper := by
  intro i j h
  simp only [exPushDatas] at h ⊢
  rw [h 0 (by simp), h 1 (by simp), h 2 (by simp)]

theorem exPushVals_good : GoodPush exPushVals [exWeight1] 0 [2] where
  proper := exPushVals_proper
  range := by unfold InRange; decide
  usable := by
    rw [show fromEnd exPushVals 0 = 2 by decide, show sampleCount exPushVals 0 = 3 by decide]
    intro a ha
    rw [List.mem_singleton.1 ha]
    exact exWeight1_usable
  fits := ⟨by decide, by decide⟩
  fitsOthers := by
    intro a ha h
    rw [List.mem_singleton.1 ha] at h
    exact absurd h (by decide)

theorem exPushDatas_good : GoodDatas 1 exPushDatas 1 (some [0]) where
  proper := exPushDatas_proper
  range := by unfold InRange; decide
  room := by decide
  momLength := by decide
  momRange := by
    intro m hm a ha
    obtain rfl := Option.some.inj (Option.mem_def.1 hm)
    rw [List.mem_singleton.1 ha]
    unfold InRange; decide
  distinct := by decide

section

variable {K V M : Type*} [Field K] [DecidableEq K]

/-- `push_val`: at every index the value and the weight that the arrays have there, axes aligned at
the end and axes of size one repeated, are pushed onto the record there. -/
theorem C56_push_val (val : List K → V) {core : Core K M} (hc : core.Ok)
    (fam : List ℕ → Kernel K V M) {obj : Arr (Option K)} (hp : obj.Proper)
    (hn : core.nd ≤ obj.shape.length) {x w : Arr K} {ys : List (Arr K)}
    (hy : ys.length + 1 = core.nd) (hf : ∀ a ∈ x :: w :: ys, FitsInto a.shape (valShape core obj)) :
    ∃ obj', pushValNd val core fam obj x w ys = .ok obj' ∧
      Updated core obj obj' (fun i r => (fam (momShape core obj)).pushVal
        (val ((x :: ys).map (fun a => numberAt a (valRank core obj) i)))
        (numberAt w (valRank core obj) i) r) :=
  pushValNd_ok val hc fam hp hn hy hf

example : entries (pushValNd value1 core1 family1 exObj ⟨[2], fun i => 3 * i 0⟩ exWeight0 [])
    [[0, 0], [0, 1], [0, 2], [1, 0], [1, 1], [1, 2]]
    = some ([2, 3], [some 3, some (2 / 3), some (17 / 9), some 4, some 3, some 2]) := by
  decide +kernel

example := C56_push_val value1 core1_ok family1 exObj_proper (by decide) (ys := []) rfl
  (x := ⟨[2], fun i => 3 * i 0⟩) (w := exWeight0) (by
    intro a ha
    rcases List.mem_cons.1 ha with rfl | ha
    · exact ⟨by decide, by decide⟩
    · rw [List.mem_singleton.1 ha]; exact ⟨by decide, by decide⟩)

/-- `push_vals`: at every index the samples that values and weight contribute there are pushed in
order onto the record there; the sample axis may be any axis of `x`. -/
theorem C56_push_vals (val : List K → V) {core : Core K M} (hc : core.Ok)
    (fam : List ℕ → Kernel K V M) {obj : Arr (Option K)} (hp : obj.Proper)
    (hn : core.nd ≤ obj.shape.length) {x w : Arr K} {ys : List (Arr K)} {z : ℤ}
    (hy : ys.length + 1 = core.nd) (g : GoodPush x (w :: ys) z (valShape core obj)) :
    ∃ obj', pushValsNd val core fam obj x w ys (.int z) = .ok obj' ∧
      Updated core obj obj' (fun i r => (fam (momShape core obj)).reduceVals
        (valsSamples val x w ys z (valRank core obj) i) r) :=
  pushValsNd_ok val hc fam hp hn hy g

example : entries (pushValsNd value1 core1 family1 exObj exPushVals exWeight1 [] (.int 0))
    [[0, 0], [0, 1], [0, 2], [1, 0], [1, 1]]
    = some ([2, 3], [some 7, some (24 / 7), some (131 / 49), some 8, some (11 / 4)]) := by
  decide +kernel

example := C56_push_vals value1 core1_ok family1 exObj_proper (by decide) (ys := []) rfl
  exPushVals_good

/-- `push_data`: at every index the record the moments have there is merged into the record of the
object. -/
theorem C56_push_data {core : Core K M} (hc : core.Ok) (fam : List ℕ → Kernel K V M)
    {obj : Arr (Option K)} (hp : obj.Proper) (hn : core.nd ≤ obj.shape.length) {d : Arr K}
    (hd : core.nd ≤ d.shape.length) (hm : momShape core d = momShape core obj)
    (hf : FitsInto (valShape core d) (valShape core obj)) :
    ∃ obj', pushDataNd core fam obj d none = .ok obj' ∧
      Updated core obj obj' (fun i r => (fam (momShape core obj)).pushData
        (dataRecord core d (valRank core obj) i) r) :=
  pushDataNd_ok hc fam hp hn hd hm hf

/-- `push_data(data, scale)`: with the weight of the record scaled by the number there. -/
theorem C56_push_data_scale {core : Core K M} (hc : core.Ok) (fam : List ℕ → Kernel K V M)
    {obj : Arr (Option K)} (hp : obj.Proper) (hn : core.nd ≤ obj.shape.length) {d c : Arr K}
    (hd : core.nd ≤ d.shape.length) (hm : momShape core d = momShape core obj)
    (hf : FitsInto (valShape core d) (valShape core obj))
    (hfc : FitsInto c.shape (valShape core obj)) :
    ∃ obj', pushDataNd core fam obj d (some c) = .ok obj' ∧
      Updated core obj obj' (fun i r => (fam (momShape core obj)).pushScale
        (dataRecord core d (valRank core obj) i) (numberAt c (valRank core obj) i) r) :=
  pushDataNd_scale_ok hc fam hp hn hd hm hf hfc

example : entries (pushDataNd core1 family1 exObj ⟨[1, 3], fun i => 2 + i 1⟩
      (some ⟨[2], fun i => i 0⟩)) [[0, 0], [0, 1], [0, 2], [1, 0], [1, 1], [1, 2]]
    = some ([2, 3], [some 1, some 2, some 3, some 4, some 3, some 4]) := by
  decide +kernel

example := C56_push_data core1_ok family1 exObj_proper (by decide)
  (d := ⟨[1, 3], fun i => (2 : ℚ) + i 1⟩) (by decide) (by decide) ⟨by decide, by decide⟩

example := C56_push_data_scale core1_ok family1 exObj_proper (by decide)
  (d := ⟨[1, 3], fun i => (2 : ℚ) + i 1⟩) (c := ⟨[2], fun i => i 0⟩)
  (by decide) (by decide) ⟨by decide, by decide⟩ ⟨by decide, by decide⟩

/-- `push_datas`: at every index the records along axis `z` are merged in order into the record of
the object, wherever the moment axes of the argument are. -/
theorem C56_push_datas {core : Core K M} (hc : core.Ok) (fam : List ℕ → Kernel K V M)
    {obj : Arr (Option K)} (hp : obj.Proper) (hn : core.nd ≤ obj.shape.length) {d : Arr K} {z : ℤ}
    {mom : Option (List ℤ)} (g : GoodDatas core.nd d z mom)
    (hm : (momAxesOf d.shape.length core.nd mom).map (axisSize d) = momShape core obj)
    (hf : FitsInto (freeShape d (wrap d.shape.length z :: momAxesOf d.shape.length core.nd mom))
      (valShape core obj)) :
    ∃ obj', pushDatasNd core fam obj d (.int z) mom = .ok obj' ∧
      Updated core obj obj' (fun i r => (fam (momShape core obj)).reduceData
        ((List.range (sampleCount d z)).map (datasRecord core d z mom (valRank core obj) i)) r) :=
  pushDatasNd_ok hc fam hp hn g hm hf

example : entries (pushDatasNd core1 family1 exObj exPushDatas (.int 1) (some [0]))
    [[0, 0], [0, 1], [0, 2], [1, 0], [1, 1]]
    = some ([2, 3], [some 4, some 2, some 3, some 8, some (13 / 4)]) := by
  decide +kernel

example := C56_push_datas core1_ok family1 exObj_proper (by decide) exPushDatas_good (by decide)
  ⟨by decide, by decide⟩

/-- `push_val` succeeds exactly when every array fits into the shape of the object. -/
theorem C56_push_val_accepts (val : List K → V) {core : Core K M} (hc : core.Ok) (h1 : 1 ≤ core.nd)
    (fam : List ℕ → Kernel K V M) {obj : Arr (Option K)} (hp : obj.Proper) (x w : Arr K)
    (ys : List (Arr K)) :
    (∃ obj', pushValNd val core fam obj x w ys = .ok obj') ↔
      core.nd ≤ obj.shape.length ∧ ys.length + 1 = core.nd ∧
        ∀ a ∈ x :: w :: ys, FitsInto a.shape (valShape core obj) := by
  constructor
  · rintro ⟨o, h⟩; exact pushValNd_inv h1 h
  · rintro ⟨h2, h3, h4⟩
    obtain ⟨o, h, _⟩ := pushValNd_ok val hc fam hp h2 h3 h4
    exact ⟨o, h⟩

example : entries (pushValNd value1 core1 family1 exObj ⟨[3], fun i => 3 * i 0⟩ exWeight0 []) []
    = none := by decide +kernel

/-- `push_vals` succeeds exactly when values and weight fit together and into the object. -/
theorem C56_push_vals_accepts (val : List K → V) {core : Core K M} (hc : core.Ok)
    (fam : List ℕ → Kernel K V M) {obj : Arr (Option K)} (hp : obj.Proper) {x w : Arr K}
    {ys : List (Arr K)} (hx : x.Proper) (hw : ∀ a ∈ w :: ys, a.Proper) (z : ℤ) :
    (∃ obj', pushValsNd val core fam obj x w ys (.int z) = .ok obj') ↔
      core.nd ≤ obj.shape.length ∧ ys.length + 1 = core.nd ∧
        GoodPush x (w :: ys) z (valShape core obj) := by
  constructor
  · rintro ⟨o, h⟩; exact pushValsNd_inv hx hw h
  · rintro ⟨h2, h3, h4⟩
    obtain ⟨o, h, _⟩ := pushValsNd_ok val hc fam hp h2 h3 h4
    exact ⟨o, h⟩

example : entries (pushValsNd value1 core1 family1 exObj exPushVals exWeight1 [] (.int 1)) []
    = none := by decide +kernel

/-- `push_data` succeeds exactly when the moments have the orders of the object and fit. -/
theorem C56_push_data_accepts {core : Core K M} (hc : core.Ok) (fam : List ℕ → Kernel K V M)
    {obj : Arr (Option K)} (hp : obj.Proper) (d : Arr K) (scale : Option (Arr K)) :
    (∃ obj', pushDataNd core fam obj d scale = .ok obj') ↔
      core.nd ≤ obj.shape.length ∧ core.nd ≤ d.shape.length ∧
        momShape core d = momShape core obj ∧ FitsInto (valShape core d) (valShape core obj) ∧
        ∀ c ∈ scale, FitsInto c.shape (valShape core obj) := by
  constructor
  · rintro ⟨o, h⟩; exact pushDataNd_inv h
  · rintro ⟨h2, h3, h4, h5, h6⟩
    cases scale with
    | none =>
      obtain ⟨o, h, _⟩ := pushDataNd_ok hc fam hp h2 h3 h4 h5
      exact ⟨o, h⟩
    | some c =>
      obtain ⟨o, h, _⟩ := pushDataNd_scale_ok hc fam hp h2 h3 h4 h5 (h6 c rfl)
      exact ⟨o, h⟩

example : entries (pushDataNd core1 family1 exObj ⟨[1, 4], fun i => 2 + i 1⟩ none) [] = none := by
  decide +kernel

/-- `push_datas` succeeds exactly when the axes are good, the orders those of the object and the
other axes fit. -/
theorem C56_push_datas_accepts {core : Core K M} (hc : core.Ok) (fam : List ℕ → Kernel K V M)
    {obj : Arr (Option K)} (hp : obj.Proper) {d : Arr K} (hd : d.Proper) (z : ℤ)
    (mom : Option (List ℤ)) :
    (∃ obj', pushDatasNd core fam obj d (.int z) mom = .ok obj') ↔
      core.nd ≤ obj.shape.length ∧ GoodDatas core.nd d z mom ∧
        (momAxesOf d.shape.length core.nd mom).map (axisSize d) = momShape core obj ∧
        FitsInto (freeShape d (wrap d.shape.length z :: momAxesOf d.shape.length core.nd mom))
          (valShape core obj) := by
  constructor
  · rintro ⟨o, h⟩; exact pushDatasNd_inv hc hd h
  · rintro ⟨h2, h3, h4, h5⟩
    obtain ⟨o, h, _⟩ := pushDatasNd_ok hc fam hp h2 h3 h4 h5
    exact ⟨o, h⟩

example : entries (pushDatasNd core1 family1 exObj exPushDatas (.int 1) none) [] = none := by
  decide +kernel

/-- A sequence of calls succeeds exactly when every call of it would on the object as it is at the
start: earlier calls neither enable nor prevent later ones. -/
theorem C56_history_accepts (val : List K → V) {core : Core K M} (hc : core.Ok) (h1 : 1 ≤ core.nd)
    (fam : List ℕ → Kernel K V M) {obj : Arr (Option K)} (hp : obj.Proper) {cs : List (PushCmd K)}
    (hcmd : ∀ c ∈ cs, ∀ a ∈ argArrays c, a.Proper) :
    (∃ o, runPushes val core fam cs obj = .ok o) ↔
      ∀ c ∈ cs, ∃ o, runPush val core fam obj c = .ok o :=
  runPushes_ok_iff hc h1 hp hcmd

/-- Pushing values onto `zeros` of the shape of the result gives the entries of `reduce_vals`. -/
theorem C56_reduce_vals_agrees (val : List K → V) {core : Core K M} (hc : core.Ok)
    {fam : List ℕ → Kernel K V M} {mom : List ℕ} (hm : mom.length = core.nd)
    (hz : core.recd (fun _ => 0) = (fam (mom.map (· + 1))).zero) {x w : Arr K} {ys : List (Arr K)}
    {z : ℤ} {full : List ℕ} (hy : ys.length + 1 = core.nd) (g : GoodValues x (w :: ys) z full) :
    ∃ out obj', reduceValsNd val core fam mom (axesLast core.nd) x (w :: ys) (.int z) = .ok out ∧
      pushValsNd val core fam (zerosNd
        ((keptAxes full.length [full.length - fromEnd x z]).map (full.getD · 0)) mom)
        x w ys (.int z) = .ok obj' ∧
      obj'.shape = out.shape ∧ ∀ i, InObject core obj' i → obj'.get i = out.get i :=
  zeros_push_vals val hc hm hz hy g

example := C56_reduce_vals_agrees value1 core1_ok (fam := family1) (mom := [3]) rfl rfl rfl
  exVals_good1
example := C56_reduce_vals_agrees value2 core2_ok (fam := family2) (mom := [2, 1]) rfl rfl rfl
  exVals_good2

end

section

variable {K : Type*} [Field K] [DecidableEq K]

/-- `zeros`: every record stands for no samples. -/
theorem C56_zeros (shape : List ℕ) (order : ℕ) :
    (zerosNd (K := K) shape [order]).shape = shape ++ [order + 1] ∧
      ∀ i, ∃ m, cellAt core1 (zerosNd (K := K) shape [order]) i = some m ∧ Holds order [] m :=
  ⟨rfl, fun _ => ⟨_, rfl, .inr ⟨rfl, fun _ _ => rfl⟩⟩⟩

/-- `zeros` for two variables. -/
theorem C56_zeros_cov (shape : List ℕ) (o0 o1 : ℕ) :
    (zerosNd (K := K) shape [o0, o1]).shape = shape ++ [o0 + 1, o1 + 1] ∧
      ∀ i, ∃ m, cellAt core2 (zerosNd (K := K) shape [o0, o1]) i = some m ∧ Holds2 o0 o1 [] m :=
  ⟨rfl, fun _ => ⟨_, rfl, .inr ⟨rfl, fun _ _ _ _ => rfl⟩⟩⟩

end

section

variable {K : Type*} [Field K] [DecidableEq K] [CharZero K]

/-- Any mixture of calls: if the record at every index stands for the samples `S0 i`, and each call
contributes samples as told by `Ts`, then afterwards every record that is not missing stands for all
of these samples together. -/
theorem C56_history {order : ℕ} (ho : 1 ≤ order) {obj obj' : Arr (Option K)} (hp : obj.Proper)
    (hm : momShape (core1 (K := K)) obj = [order + 1]) {cs : List (PushCmd K)}
    (hcmd : ∀ c ∈ cs, ∀ a ∈ argArrays c, a.Proper) {Ts : List ((ℕ → ℕ) → List (Sample K))}
    (hT : List.Forall₂ (Contributes (Holds order) sample1 scaled1 value1 core1 obj) cs Ts)
    (h : runPushes value1 core1 family1 cs obj = .ok obj') (S0 : (ℕ → ℕ) → List (Sample K))
    (h0 : ∀ i, InObject (core1 (K := K)) obj i → ∀ m, cellAt core1 obj i = some m →
      Holds order (S0 i) m) :
    obj'.Proper ∧ obj'.shape = obj.shape ∧ ∀ i, InObject (core1 (K := K)) obj i → ∀ m,
      cellAt core1 obj' i = some m → Holds order (S0 i ++ Ts.flatMap (fun T => T i)) m :=
  (meaning1 ho).history core1_ok le_rfl hp (by rw [hm]; simp [family1]) hcmd hT h S0 h0

/-- The same for two variables. -/
theorem C56_history_cov {o0 o1 : ℕ} (ho0 : 1 ≤ o0) (ho1 : 1 ≤ o1) {obj obj' : Arr (Option K)}
    (hp : obj.Proper) (hm : momShape (core2 (K := K)) obj = [o0 + 1, o1 + 1])
    {cs : List (PushCmd K)} (hcmd : ∀ c ∈ cs, ∀ a ∈ argArrays c, a.Proper)
    {Ts : List ((ℕ → ℕ) → List (Sample2 K))}
    (hT : List.Forall₂ (Contributes (Holds2 o0 o1) sample2 scaled2 value2 core2 obj) cs Ts)
    (h : runPushes value2 core2 family2 cs obj = .ok obj') (S0 : (ℕ → ℕ) → List (Sample2 K))
    (h0 : ∀ i, InObject (core2 (K := K)) obj i → ∀ m, cellAt core2 obj i = some m →
      Holds2 o0 o1 (S0 i) m) :
    obj'.Proper ∧ obj'.shape = obj.shape ∧ ∀ i, InObject (core2 (K := K)) obj i → ∀ m,
      cellAt core2 obj' i = some m → Holds2 o0 o1 (S0 i ++ Ts.flatMap (fun T => T i)) m :=
  (meaning2 ho0 ho1).history core2_ok one_le_two hp (by rw [hm]; simp [family2]) hcmd hT h S0 h0

end

section

variable {K : Type*} [Field K] [LinearOrder K] [IsStrictOrderedRing K]

/-- Starting from `zeros`, any mixture of calls whose weights are not negative: no record is
missing, and every entry is that of the moments of all samples pushed at its index. -/
theorem C56_from_zeros {order : ℕ} (ho : 1 ≤ order) (shape : List ℕ) {obj' : Arr (Option K)}
    {cs : List (PushCmd K)} (hcmd : ∀ c ∈ cs, ∀ a ∈ argArrays c, a.Proper)
    {Ts : List ((ℕ → ℕ) → List (Sample K))}
    (hT : List.Forall₂ (Contributes (Holds order) sample1 scaled1 value1 core1
      (zerosNd shape [order])) cs Ts)
    (h : runPushes value1 core1 family1 cs (zerosNd shape [order]) = .ok obj')
    (hTs : ∀ i, InObject (core1 (K := K)) (zerosNd (K := K) shape [order]) i →
      ∀ T ∈ Ts, ∀ s ∈ T i, 0 ≤ s.w) :
    obj'.shape = shape ++ [order + 1] ∧
      ∀ i, InObject (core1 (K := K)) (zerosNd (K := K) shape [order]) i →
        ∃ m, Holds order (Ts.flatMap (fun T => T i)) m ∧
          obj'.get i = some (m (i shape.length)) := by
  have hz := zerosNd_shapes (K := K) core1 shape (mom := [order]) rfl
  have hk : family1 (momShape (core1 (K := K)) (zerosNd (K := K) shape [order]))
      = kernel1 (K := K) order := by
    rw [hz.2.2]; simp [family1]
  obtain ⟨e1, e2, _⟩ := (meaning1 ho).history core1_ok le_rfl (zerosNd_proper shape [order]) hk hcmd
    hT h (fun _ => []) (fun i _ m hm => by
      obtain ⟨m', h1, h2⟩ := (C56_zeros (K := K) shape order).2 i
      rw [h1] at hm; exact Option.some.inj hm ▸ h2)
  refine ⟨e2, fun i hi => ?_⟩
  obtain ⟨m0, h1, h2⟩ := (C56_zeros (K := K) shape order).2 i
  obtain ⟨m, f1, f2⟩ := (meaning1 ho).history_defined core1_ok le_rfl (zerosNd_proper shape [order])
    hk hcmd hT h (fun _ => []) hi h1 h2 (by simp) (fun T hT' s hs => by
      simpa [lawful1] using hTs i hi T hT' s hs)
  refine ⟨m, f2, ?_⟩
  have hw := runPushes_whole core1_ok le_rfl (zerosNd_proper shape [order])
    (hk ▸ lawful1 order ho) hcmd (zerosNd_whole core1_ok shape rfl) h i
    ((within_congr e2 i).2 hi)
  rw [hw, f1, valRank_congr e2, hz.1]
  simp [core1, momCoords]

/-- The same for two variables. -/
theorem C56_from_zeros_cov {o0 o1 : ℕ} (ho0 : 1 ≤ o0) (ho1 : 1 ≤ o1) (shape : List ℕ)
    {obj' : Arr (Option K)} {cs : List (PushCmd K)} (hcmd : ∀ c ∈ cs, ∀ a ∈ argArrays c, a.Proper)
    {Ts : List ((ℕ → ℕ) → List (Sample2 K))}
    (hT : List.Forall₂ (Contributes (Holds2 o0 o1) sample2 scaled2 value2 core2
      (zerosNd shape [o0, o1])) cs Ts)
    (h : runPushes value2 core2 family2 cs (zerosNd shape [o0, o1]) = .ok obj')
    (hTs : ∀ i, InObject (core2 (K := K)) (zerosNd (K := K) shape [o0, o1]) i →
      ∀ T ∈ Ts, ∀ s ∈ T i, 0 ≤ s.w) :
    obj'.shape = shape ++ [o0 + 1, o1 + 1] ∧
      ∀ i, InObject (core2 (K := K)) (zerosNd (K := K) shape [o0, o1]) i →
        ∃ m, Holds2 o0 o1 (Ts.flatMap (fun T => T i)) m ∧
          obj'.get i = some (m (i shape.length) (i (shape.length + 1))) := by
  have hz := zerosNd_shapes (K := K) core2 shape (mom := [o0, o1]) rfl
  have hk : family2 (momShape (core2 (K := K)) (zerosNd (K := K) shape [o0, o1]))
      = kernel2 (K := K) o0 o1 := by
    rw [hz.2.2]; simp [family2]
  obtain ⟨e1, e2, _⟩ := (meaning2 ho0 ho1).history core2_ok one_le_two
    (zerosNd_proper shape [o0, o1]) hk hcmd
    hT h (fun _ => []) (fun i _ m hm => by
      obtain ⟨m', h1, h2⟩ := (C56_zeros_cov (K := K) shape o0 o1).2 i
      rw [h1] at hm; exact Option.some.inj hm ▸ h2)
  refine ⟨e2, fun i hi => ?_⟩
  obtain ⟨m0, h1, h2⟩ := (C56_zeros_cov (K := K) shape o0 o1).2 i
  obtain ⟨m, f1, f2⟩ := (meaning2 ho0 ho1).history_defined core2_ok one_le_two
    (zerosNd_proper shape [o0, o1])
    hk hcmd hT h (fun _ => []) hi h1 h2 (by simp) (fun T hT' s hs => by
      simpa [lawful2] using hTs i hi T hT' s hs)
  refine ⟨m, f2, ?_⟩
  have hw := runPushes_whole core2_ok one_le_two (zerosNd_proper shape [o0, o1])
    (hk ▸ lawful2 o0 o1 ho0 ho1) hcmd (zerosNd_whole core2_ok shape rfl) h i
    ((within_congr e2 i).2 hi)
  rw [hw, f1, valRank_congr e2, hz.1]
  simp [core2, momCoords, List.range_succ]

/-- The order of the calls does not matter: with weights that are not negative, any permutation of
the calls also succeeds and gives the same entries. -/
theorem C56_order {order : ℕ} (ho : 1 ≤ order) {obj o : Arr (Option K)} (hp : obj.Proper)
    (hm : momShape (core1 (K := K)) obj = [order + 1])
    (hw : Whole core1 obj) {cs cs' : List (PushCmd K)}
    (hperm : cs.Perm cs') (hcmd : ∀ c ∈ cs, ∀ a ∈ argArrays c, a.Proper)
    (hn : ∀ c ∈ cs, NoNegative (fun m : Mom K => m 0) (core1 (K := K)) obj c)
    (h0 : ∀ i, InObject (core1 (K := K)) obj i → ∀ m, cellAt core1 obj i = some m → 0 ≤ m 0)
    (h : runPushes value1 core1 family1 cs obj = .ok o) :
    ∃ o', runPushes value1 core1 family1 cs' obj = .ok o' ∧ o'.shape = o.shape ∧
      ∀ i, InObject (core1 (K := K)) obj i → i (valRank (core1 (K := K)) obj) ≤ order →
        o'.get i = o.get i := by
  have hk : family1 (momShape (core1 (K := K)) obj)
      = kernel1 (K := K) order := by rw [hm]; simp [family1]
  obtain ⟨o', e1, e2, e3⟩ := runPushes_perm (lawful1 order ho) core1_ok le_rfl hp hk hperm
    hcmd hn h0 h
  have hcmd' : ∀ c ∈ cs', ∀ a ∈ argArrays c, a.Proper := fun c hc' => hcmd c (hperm.mem_iff.2 hc')
  have law : Lawful (family1 (K := K) (momShape (core1 (K := K)) obj)) (Fin (order + 1)) := by
    rw [hk]; exact lawful1 order ho
  have s1 := (runPushes_cells core1_ok le_rfl hp law hcmd h).2.1
  have s2 := (runPushes_cells core1_ok le_rfl hp law hcmd' e1).2.1
  have w1 := runPushes_whole core1_ok le_rfl hp law hcmd hw h
  have w2 := runPushes_whole core1_ok le_rfl hp law hcmd' hw e1
  refine ⟨o', e1, e2, fun i hi hle => ?_⟩
  rw [w1 i ((within_congr s1 i).2 hi), w2 i ((within_congr s2 i).2 hi), valRank_congr s1,
    valRank_congr s2]
  rcases e3 i hi with ⟨h1, h2⟩ | ⟨r, r', h1, h2, h3⟩
  · rw [h1, h2]
  · rw [h1, h2]
    have := (eqv1_iff ho).1 h3 _ hle
    simpa [core1, momCoords] using this.symm

/-- The same for two variables. -/
theorem C56_order_cov {o0 o1 : ℕ} (ho0 : 1 ≤ o0) (ho1 : 1 ≤ o1) {obj o : Arr (Option K)}
    (hp : obj.Proper) (hm : momShape (core2 (K := K)) obj = [o0 + 1, o1 + 1]) (hw : Whole core2 obj)
    {cs cs' : List (PushCmd K)} (hperm : cs.Perm cs')
    (hcmd : ∀ c ∈ cs, ∀ a ∈ argArrays c, a.Proper)
    (hn : ∀ c ∈ cs, NoNegative (fun m : Com K => m 0 0) (core2 (K := K)) obj c)
    (h0 : ∀ i, InObject (core2 (K := K)) obj i → ∀ m, cellAt core2 obj i = some m → 0 ≤ m 0 0)
    (h : runPushes value2 core2 family2 cs obj = .ok o) :
    ∃ o', runPushes value2 core2 family2 cs' obj = .ok o' ∧ o'.shape = o.shape ∧
      ∀ i, InObject (core2 (K := K)) obj i → i (valRank (core2 (K := K)) obj) ≤ o0 →
        i (valRank (core2 (K := K)) obj + 1) ≤ o1 →
        o'.get i = o.get i := by
  have hk : family2 (momShape (core2 (K := K)) obj)
      = kernel2 (K := K) o0 o1 := by rw [hm]; simp [family2]
  obtain ⟨o', e1, e2, e3⟩ := runPushes_perm (lawful2 o0 o1 ho0 ho1) core2_ok one_le_two hp hk hperm
    hcmd hn h0 h
  have hcmd' : ∀ c ∈ cs', ∀ a ∈ argArrays c, a.Proper := fun c hc' => hcmd c (hperm.mem_iff.2 hc')
  have law : Lawful (family2 (K := K) (momShape (core2 (K := K)) obj))
      (Fin (o0 + 1) × Fin (o1 + 1)) := by
    rw [hk]; exact lawful2 o0 o1 ho0 ho1
  have s1 := (runPushes_cells core2_ok one_le_two hp law hcmd h).2.1
  have s2 := (runPushes_cells core2_ok one_le_two hp law hcmd' e1).2.1
  have w1 := runPushes_whole core2_ok one_le_two hp law hcmd hw h
  have w2 := runPushes_whole core2_ok one_le_two hp law hcmd' hw e1
  refine ⟨o', e1, e2, fun i hi hle hle' => ?_⟩
  rw [w1 i ((within_congr s1 i).2 hi), w2 i ((within_congr s2 i).2 hi), valRank_congr s1,
    valRank_congr s2]
  rcases e3 i hi with ⟨h1, h2⟩ | ⟨r, r', h1, h2, h3⟩
  · rw [h1, h2]
  · rw [h1, h2]
    have := (eqv2_iff ho0 ho1).1 h3 _ _ hle hle'
    simpa [core2, momCoords, List.range_succ] using this.symm

end

/-- Values, values along an axis, and moments of two samples scaled by 0 or 1. -/
def exCmds : List (PushCmd ℚ) :=
  [.val ⟨[2], fun i => 3 * i 0⟩ exWeight0 [], .vals exPushVals exWeight1 [] 0,
    .data ⟨[3], fun i => if i 0 = 0 then 2 else 1⟩ (some ⟨[2], fun i => i 0⟩)]

theorem exCmds_proper : ∀ c ∈ exCmds, ∀ a ∈ argArrays c, a.Proper := by
  intro c hc a ha
  simp only [exCmds, List.mem_cons, List.not_mem_nil, or_false] at hc
  rcases hc with rfl | rfl | rfl <;>
    simp only [argArrays, List.mem_cons, List.not_mem_nil, or_false] at ha
  · rcases ha with rfl | rfl
    · intro i j h; simp only at h ⊢; rw [h 0 (by simp)]
    · exact exWeight0_usable.1
  · rcases ha with rfl | rfl
    · exact exPushVals_proper
    · exact exWeight1_usable.1
  · rcases ha with rfl | rfl <;>
    · intro i j h; simp only at h ⊢; rw [h 0 (by simp)]

theorem exCmds_holds : Holds 2 [⟨1, 0⟩, ⟨1, 2⟩] (fun n => if n = 0 then (2 : ℚ) else 1) := by
  refine .inl ⟨by decide +kernel, by decide +kernel, by decide +kernel, ?_⟩
  intro n h2 h3
  obtain rfl : n = 2 := by omega
  decide +kernel

/-- The samples these calls contribute. -/
def exTs : List ((ℕ → ℕ) → List (Sample ℚ)) :=
  [fun i => [⟨2, 3 * i 0⟩],
    fun i => (List.range 3).map (fun s : ℕ => ⟨1 + s, 1 + 2 * s - i 0⟩),
    fun i => [⟨i 0 * 1, 0⟩, ⟨i 0 * 1, 2⟩]]

theorem exCmds_contribute : List.Forall₂ (Contributes (Holds 2) sample1 scaled1 value1 core1
    (zerosNd [2] [2])) exCmds exTs :=
  .cons (fun i _ => rfl) (.cons (fun i _ => rfl)
    (.cons ⟨fun _ => [⟨1, 0⟩, ⟨1, 2⟩], fun i _ => ⟨exCmds_holds, rfl⟩⟩ .nil))

theorem exCmds_entries : entries (runPushes value1 core1 family1 exCmds (zerosNd [2] [2]))
    [[0, 0], [0, 1], [0, 2], [1, 0], [1, 1], [1, 2]]
    = some ([2, 3], [some 8, some (11 / 4), some (67 / 16), some 10, some (12 / 5),
        some (51 / 25)]) := by
  decide +kernel

theorem exCmds_runs : ∃ o, runPushes value1 core1 family1 exCmds (zerosNd [2] [2]) = .ok o := by
  have h := exCmds_entries
  revert h
  cases runPushes value1 core1 family1 exCmds (zerosNd [2] [2]) with
  | error e => intro h; exact absurd h (by simp [entries])
  | ok o => exact fun _ => ⟨o, rfl⟩

example : ∀ c ∈ exCmds, ∃ o, runPush value1 core1 family1 (zerosNd [2] [2]) c = .ok o :=
  (C56_history_accepts value1 core1_ok le_rfl family1 (zerosNd_proper _ _)
    exCmds_proper).1 exCmds_runs

theorem exTs_nonneg : ∀ i : ℕ → ℕ, ∀ T ∈ exTs, ∀ s ∈ T i, (0 : ℚ) ≤ s.w := by
  intro i T hT s hs
  simp only [exTs, List.mem_cons, List.not_mem_nil, or_false] at hT
  rcases hT with rfl | rfl | rfl
  · rw [List.mem_singleton.1 hs]; norm_num
  · obtain ⟨n, _, rfl⟩ := List.mem_map.1 hs
    exact add_nonneg zero_le_one (Nat.cast_nonneg n)
  · simp only [List.mem_cons, List.not_mem_nil, or_false] at hs
    rcases hs with rfl | rfl <;> positivity

example : ∃ o : Arr (Option ℚ), o.shape = [2, 3] ∧ ∀ i : ℕ → ℕ, i 0 < 2 →
    ∃ m, Holds 2 (exTs.flatMap (fun T => T i)) m ∧ o.get i = some (m (i 1)) := by
  obtain ⟨o, h⟩ := exCmds_runs
  obtain ⟨h1, h2⟩ := C56_from_zeros (by decide) [2] exCmds_proper exCmds_contribute h
    (fun i _ => exTs_nonneg i)
  refine ⟨o, h1, fun i hi => h2 i fun p hp => ?_⟩
  obtain rfl : p = 0 := Nat.lt_one_iff.1 hp
  exact hi

example : ∃ o', runPushes value1 core1 family1 exCmds.reverse (zerosNd [2] [2]) = .ok o' := by
  obtain ⟨o, h⟩ := exCmds_runs
  obtain ⟨o', h', _⟩ := C56_order (by decide) (zerosNd_proper _ _) rfl
    (zerosNd_whole core1_ok _ rfl) (List.reverse_perm exCmds).symm exCmds_proper (by
      intro c hc
      simp only [exCmds, List.mem_cons, List.not_mem_nil, or_false] at hc
      rcases hc with rfl | rfl | rfl
      · intro i; norm_num [exWeight0]
      · intro i; simp only [exWeight1]; positivity
      · refine ⟨fun i => ?_, fun i => ?_⟩
        · exact (show (0 : ℚ) ≤ 2 by norm_num)
        · positivity)
    (fun i _ m hm => by obtain rfl := Option.some.inj hm; exact le_rfl) h
  exact ⟨o', h'⟩

/-- The record at an index of an object that is not a zero: two samples everywhere. -/
def exStart : Arr (Option ℚ) := ⟨[2, 3], fun i => some (if i 1 = 0 then 2 else 1)⟩

example {o : Arr (Option ℚ)} (h : runPushes value1 core1 family1 exCmds exStart = .ok o)
    (i : ℕ → ℕ) (hi : InObject (core1 (K := ℚ)) exStart i) (m : Mom ℚ)
    (hm : cellAt core1 o i = some m) :
    Holds 2 ([⟨1, 0⟩, ⟨1, 2⟩] ++ exTs.flatMap (fun T => T i)) m :=
  (C56_history (by decide) (obj := exStart)
    (fun i j h => by simp only [exStart] at h ⊢; rw [h 1 (by simp)]) rfl exCmds_proper
    (exCmds_contribute) h (fun _ => [⟨1, 0⟩, ⟨1, 2⟩])
    (fun i _ m hm => by obtain rfl := Option.some.inj hm; exact exCmds_holds)).2.2 i hi m hm

example : entries (runPushes value1 core1 family1 exCmds exStart)
    [[0, 0], [0, 1], [0, 2], [1, 0], [1, 1], [1, 2]]
    = some ([2, 3], [some 10, some (12 / 5), some (101 / 25), some 12, some (13 / 6),
        some (77 / 36)]) := by
  decide +kernel

/-- Pairs of values. -/
def exCmds2 : List (PushCmd ℚ) :=
  [.val ⟨[2], fun i => i 0⟩ exWeight0 [⟨[], fun _ => 3⟩],
    .vals exPushVals exWeight1 [⟨[3], fun i => i 0⟩] 0]

/-- The samples these calls contribute. -/
def exTs2 : List ((ℕ → ℕ) → List (Sample2 ℚ)) :=
  [fun i => [⟨2, i 0, 3⟩], fun i => (List.range 3).map (fun s : ℕ => ⟨1 + s, 1 + 2 * s - i 0, s⟩)]

theorem exCmds2_proper : ∀ c ∈ exCmds2, ∀ a ∈ argArrays c, a.Proper := by
  intro c hc a ha
  simp only [exCmds2, List.mem_cons, List.not_mem_nil, or_false] at hc
  rcases hc with rfl | rfl <;>
    simp only [argArrays, List.mem_cons, List.not_mem_nil, or_false] at ha
  · rcases ha with rfl | rfl | rfl
    · intro i j h; simp only at h ⊢; rw [h 0 (by simp)]
    · exact exWeight0_usable.1
    · intro i j h; rfl
  · rcases ha with rfl | rfl | rfl
    · exact exPushVals_proper
    · exact exWeight1_usable.1
    · intro i j h; simp only at h ⊢; rw [h 0 (by simp)]

theorem exCmds2_contribute : List.Forall₂ (Contributes (Holds2 2 1) sample2 scaled2 value2 core2
    (zerosNd [2] [2, 1])) exCmds2 exTs2 :=
  .cons (fun _ _ => rfl) (.cons (fun _ _ => rfl) .nil)

theorem exCmds2_entries : entries (runPushes value2 core2 family2 exCmds2 (zerosNd [2] [2, 1]))
    [[0, 0, 0], [0, 1, 0], [0, 0, 1], [0, 1, 1]]
    = some ([2, 3, 2], [some 8, some (11 / 4), some (7 / 4), some (-5 / 16)]) := by
  decide +kernel

theorem exCmds2_runs :
    ∃ o, runPushes value2 core2 family2 exCmds2 (zerosNd [2] [2, 1]) = .ok o := by
  have h := exCmds2_entries
  revert h
  cases runPushes value2 core2 family2 exCmds2 (zerosNd [2] [2, 1]) with
  | error e => intro h; exact absurd h (by simp [entries])
  | ok o => exact fun _ => ⟨o, rfl⟩

theorem exTs2_nonneg : ∀ i : ℕ → ℕ, ∀ T ∈ exTs2, ∀ s ∈ T i, (0 : ℚ) ≤ s.w := by
  intro i T hT s hs
  simp only [exTs2, List.mem_cons, List.not_mem_nil, or_false] at hT
  rcases hT with rfl | rfl
  · rw [List.mem_singleton.1 hs]; norm_num
  · obtain ⟨n, _, rfl⟩ := List.mem_map.1 hs
    exact add_nonneg zero_le_one (Nat.cast_nonneg n)

example : ∃ o : Arr (Option ℚ), o.shape = [2, 3, 2] ∧ ∀ i : ℕ → ℕ, i 0 < 2 →
    ∃ m, Holds2 2 1 (exTs2.flatMap (fun T => T i)) m ∧ o.get i = some (m (i 1) (i 2)) := by
  obtain ⟨o, h⟩ := exCmds2_runs
  obtain ⟨h1, h2⟩ := C56_from_zeros_cov (by decide) (by decide) [2] exCmds2_proper
    exCmds2_contribute h (fun i _ => exTs2_nonneg i)
  refine ⟨o, h1, fun i hi => h2 i fun p hp => ?_⟩
  obtain rfl : p = 0 := Nat.lt_one_iff.1 hp
  exact hi

example (i : ℕ → ℕ) (hi : InObject (core2 (K := ℚ)) (zerosNd (K := ℚ) [2] [2, 1]) i) :
    ∃ o, runPushes value2 core2 family2 exCmds2 (zerosNd [2] [2, 1]) = .ok o ∧
      ∀ m, cellAt core2 o i = some m → Holds2 2 1 ([] ++ exTs2.flatMap (fun T => T i)) m := by
  obtain ⟨o, h⟩ := exCmds2_runs
  exact ⟨o, h, (C56_history_cov (by decide) (by decide) (zerosNd_proper _ _) rfl exCmds2_proper
    exCmds2_contribute h (fun _ => []) (fun i _ m hm => by
      obtain rfl := Option.some.inj hm
      exact .inr ⟨rfl, fun _ _ _ _ => rfl⟩)).2.2 i hi⟩

example : ∃ o', runPushes value2 core2 family2 exCmds2.reverse (zerosNd [2] [2, 1]) = .ok o' := by
  obtain ⟨o, h⟩ := exCmds2_runs
  obtain ⟨o', h', _⟩ := C56_order_cov (by decide) (by decide) (zerosNd_proper _ _) rfl
    (zerosNd_whole core2_ok _ rfl) (List.reverse_perm exCmds2).symm exCmds2_proper (by
      intro c hc
      simp only [exCmds2, List.mem_cons, List.not_mem_nil, or_false] at hc
      rcases hc with rfl | rfl
      · intro i; norm_num [exWeight0]
      · intro i; simp only [exWeight1]; positivity)
    (fun i _ m hm => by obtain rfl := Option.some.inj hm; exact le_rfl) h
  exact ⟨o', h'⟩

end Cmomy
