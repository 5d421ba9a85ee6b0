import Verif.Lemmas.LabelledHistory
import Verif.Lemmas.LabelledRefuse
import Verif.Props.LabelledVals
import Verif.Props.PushNd

/-!
# C64: pushing onto a labelled object

`val`, `core`, `fam` are `value1`, `core1`, `family1` for one variable and `value2`, `core2`,
`family2` for two. An object is its labelled array with the names `moms` of its moment dimensions;
`valDims obj moms` are its other dimensions. `InLabelled obj moms c`: `c` are coordinates of the object
along these; `cellNamed core obj moms c` is the record there. Labelled arguments are read at named
coordinates, plain ones at positions.
-/

namespace Cmomy

open Spec Axes Labelled
open Nd (core1 core2 core1_ok core2_ok value1 value2 family1 family2)

open ExDim

/-- An object with two records `p` of two moments, the moment dimension `m` first. -/
def exLabObj : DataArray ExDim (Option ℚ) where
  dims := [m, p]
  data idx := some (1 + idx.getD 0 0 + idx.getD 1 0)
  size d := match d with
    | p => 2
    | _ => 3

theorem exLabObj_good : LabelledObject exLabObj [m] 1 :=
  ⟨by decide, by decide, by decide, rfl⟩

/-- An object with comoments. -/
def exLabObj2 : DataArray ExDim (Option ℚ) where
  dims := [p, m, n]
  data _ := some 0
  size d := match d with
    | n => 3
    | _ => 2

theorem exLabObj2_good : LabelledObject exLabObj2 [m, n] 2 :=
  ⟨by decide, by decide, by decide, rfl⟩

/-- One number for each record. -/
def exLabVal : DataArray ExDim ℚ where
  dims := [p]
  data idx := 3 * idx.getD 0 0
  size _ := 2

/-- Three records of moments `t` for each record `p` of the object. -/
def exLabDatas : DataArray ExDim ℚ where
  dims := [p, m, t]
  data idx := 1 + idx.getD 1 0 * idx.getD 0 0 + idx.getD 2 0
  size d := match d with
    | p => 2
    | _ => 3

/-- Moments for one record. -/
def exLabData : DataArray ExDim ℚ where
  dims := [m]
  data idx := 2 + idx.getD 0 0
  size _ := 3

theorem exLab_vals : GoodVals exLabObj [m] exNamedX [.plain exPlain1] t where
  fresh := by decide
  within := by decide
  good := by
    intro o ho
    rcases List.mem_cons.1 ho with rfl | ho
    · exact ⟨by decide, by decide, by decide⟩
    · rw [List.mem_singleton.1 ho]
      exact ⟨⟨fun i j h => by simp only [exPlain1] at h ⊢; rw [h 0 (by simp)],
        .inr (.inl ⟨rfl, rfl⟩)⟩, fun h => absurd h (by decide)⟩

theorem exLab_vals2 : GoodVals exLabObj2 [m, n] exNamedX [.plain exPlain1, .named exNamedY] t where
  fresh := by decide
  within := by decide
  good := by
    intro o ho
    simp only [List.mem_cons, List.not_mem_nil, or_false] at ho
    rcases ho with rfl | rfl | rfl
    · exact ⟨by decide, by decide, by decide⟩
    · exact ⟨⟨fun i j h => by simp only [exPlain1] at h ⊢; rw [h 0 (by simp)],
        .inr (.inl ⟨rfl, rfl⟩)⟩, fun h => absurd h (by decide)⟩
    · exact ⟨by decide, by decide, by decide⟩

theorem exLab_datas : GoodDatasNamed exLabObj [m] exLabDatas t :=
  ⟨by decide, by decide, by decide, by decide, by decide⟩

variable {δ : Type} [DecidableEq δ]

section

variable {K V M : Type} [Field K] [DecidableEq K]
variable {core : Nd.Core K M} {obj : DataArray δ (Option K)} {moms : List δ}

/-- `push_val`: at all coordinates the value and the weight that the arguments show there are pushed
onto the record there. The moment dimensions are last afterwards. -/
theorem C64_push_val (val : List K → V) (hc : core.Ok) (fam : List ℕ → Kernel K V M)
    (g : LabelledObject obj moms core.nd) {x w : Operand δ K} {ys : List (Operand δ K)}
    (hy : ys.length + 1 = core.nd)
    (ho : ∀ o ∈ x :: w :: ys, GoodNumber (valDims obj moms) obj.size o) :
    ∃ obj', pushValX val core fam moms obj x w ys = .ok obj' ∧
      UpdatedNamed core moms obj obj' (fun c r => (fam (moms.map obj.size)).pushVal
        (val ((x :: ys).map (numberFrom (valDims obj moms) c)))
        (numberFrom (valDims obj moms) c w) r) :=
  pushValX_updated val hc fam g hy ho

example : dimEntries (pushValX value1 core1 family1 [m] exLabObj (.named exLabVal)
    (.plain ⟨[], fun _ => 2⟩) [])
    [[(p, 0), (m, 0)], [(p, 0), (m, 1)], [(p, 0), (m, 2)], [(p, 1), (m, 0)], [(p, 1), (m, 1)],
      [(p, 1), (m, 2)]]
    = some ([p, m], [2, 3], [some 3, some (2 / 3), some (17 / 9), some 4, some 3, some 2]) := by
  decide +kernel

example := C64_push_val value1 core1_ok family1 exLabObj_good (x := .named exLabVal)
  (w := .plain ⟨[], fun _ => 2⟩) (ys := []) rfl (by
    intro o ho
    rcases List.mem_cons.1 ho with rfl | ho
    · exact ⟨by decide, by decide⟩
    · rw [List.mem_singleton.1 ho]; exact ⟨by decide, by decide⟩)

/-- `push_vals` with labelled values along `dm`: at all coordinates the samples that values and
weight contribute there are pushed in order onto the record there. -/
theorem C64_push_vals (val : List K → V) (hc : core.Ok) (fam : List ℕ → Kernel K V M)
    (g : LabelledObject obj moms core.nd) {x : DataArray δ K} {w : Operand δ K}
    {ys : List (Operand δ K)} {axis : Option (Option AxisArg)} {dim : Option (Option δ)} {dm : δ}
    (hy : ys.length + 1 = core.nd) (hsel : Chosen x.dims [] axis dim dm)
    (hg : GoodVals obj moms x (w :: ys) dm) :
    ∃ obj', pushValsX val core fam moms obj x w ys axis dim = .ok obj' ∧
      UpdatedNamed core moms obj obj' (fun c r => (fam (moms.map obj.size)).reduceVals
        (samplesNamed val (valDims obj moms) dm (nameFromEnd x dm) (x.size dm) (.named x) w ys c)
        r) :=
  pushValsX_updated val hc fam g hy hsel hg

example : dimEntries (pushValsX value1 core1 family1 [m] exLabObj exNamedX (.plain exPlain1) [] none
    (some (some t))) [[(p, 1), (m, 0)], [(p, 1), (m, 1)]]
    = some ([p, m], [2, 3], [some (23 / 6), some (61 / 23)]) := by
  decide +kernel

example := C64_push_vals value1 core1_ok family1 exLabObj_good (ys := []) (axis := none) rfl
  (.inl ⟨rfl, rfl⟩) exLab_vals
example := C64_push_vals value2 core2_ok family2 exLabObj2_good (axis := none) rfl
  (.inl ⟨rfl, rfl⟩) exLab_vals2

/-- `push_vals` with plain values: everything is matched by position, weights and further values too
if they are labelled. -/
theorem C64_push_vals_plain (val : List K → V) (hc : core.Ok) (fam : List ℕ → Kernel K V M)
    (g : LabelledObject obj moms core.nd) {x : Nd.Arr K} {w : Operand δ K} {ys : List (Operand δ K)}
    {z : ℤ} (hy : ys.length + 1 = core.nd)
    (hg : GoodPush x (w.asArray :: ys.map Operand.asArray) z ((valDims obj moms).map obj.size)) :
    ∃ obj', pushValsPlainX val core fam moms obj x w ys (.int z) = .ok obj' ∧
      UpdatedNamed core moms obj obj' (fun c r => (fam (moms.map obj.size)).reduceVals
        (valsSamples val x w.asArray (ys.map Operand.asArray) z (valDims obj moms).length
          (coordsAlong (valDims obj moms) c)) r) :=
  pushValsPlainX_updated val hc fam g hy hg

example := C64_push_vals_plain value1 core1_ok family1 exLabObj_good (w := .plain exWeight1)
  (ys := []) rfl exPushVals_good

/-- `push_data`: the record which the moments show at the coordinates is merged into that of the
object. -/
theorem C64_push_data (hc : core.Ok) (fam : List ℕ → Kernel K V M)
    (g : LabelledObject obj moms core.nd) {d : Operand δ K}
    (hd : GoodRecord core moms (valDims obj moms) obj.size d) :
    ∃ obj', pushDataX core fam moms obj d none = .ok obj' ∧
      UpdatedNamed core moms obj obj' (fun c r => (fam (moms.map obj.size)).pushData
        (recordFrom core moms (valDims obj moms) c d) r) :=
  pushDataX_updated hc fam g hd

/-- `push_data(data, scale)`: with its weight multiplied by the number which the scale, an array
without names, has there. -/
theorem C64_push_data_scale (hc : core.Ok) (fam : List ℕ → Kernel K V M)
    (g : LabelledObject obj moms core.nd) {d : Operand δ K} {s : Nd.Arr K}
    (hd : GoodRecord core moms (valDims obj moms) obj.size d)
    (hs : FitsInto s.shape ((valDims obj moms).map obj.size)) :
    ∃ obj', pushDataX core fam moms obj d (some s) = .ok obj' ∧
      UpdatedNamed core moms obj obj' (fun c r => (fam (moms.map obj.size)).pushScale
        (recordFrom core moms (valDims obj moms) c d)
        (numberAt s (valDims obj moms).length (coordsAlong (valDims obj moms) c)) r) :=
  pushDataX_scale_updated hc fam g hd hs

example : dimEntries (pushDataX core1 family1 [m] exLabObj (.named exLabData)
    (some ⟨[2], fun i => i 0⟩)) [[(p, 0), (m, 0)], [(p, 0), (m, 1)], [(p, 0), (m, 2)],
      [(p, 1), (m, 0)], [(p, 1), (m, 1)], [(p, 1), (m, 2)]]
    = some ([p, m], [2, 3], [some 1, some 2, some 3, some 4, some 3, some 4]) := by
  decide +kernel

theorem exLab_data : GoodRecord core1 [m] (valDims exLabObj [m]) exLabObj.size (.named exLabData) :=
  ⟨by decide, by decide, by decide⟩

example := C64_push_data core1_ok family1 exLabObj_good exLab_data
example := C64_push_data_scale core1_ok family1 exLabObj_good exLab_data (s := ⟨[2], fun i => (i 0 : ℚ)⟩)
  ⟨by decide, by decide⟩

/-- `push_datas` with labelled moments along `dm`: the records along `dm` at the coordinates are
merged in order into that of the object. -/
theorem C64_push_datas (hc : core.Ok) (fam : List ℕ → Kernel K V M)
    (g : LabelledObject obj moms core.nd) {d : DataArray δ K} {axis : Option (Option AxisArg)}
    {dim : Option (Option δ)} {dm : δ} (hsel : Chosen d.dims moms axis dim dm)
    (hd : GoodDatasNamed obj moms d dm) :
    ∃ obj', pushDatasX core fam moms obj d axis dim = .ok obj' ∧
      UpdatedNamed core moms obj obj' (fun c r => (fam (moms.map obj.size)).reduceData
        (recordsAlong core d moms dm c) r) :=
  pushDatasX_updated hc fam g hsel hd

example : dimEntries (pushDatasX core1 family1 [m] exLabObj exLabDatas none (some (some t)))
    [[(p, 1), (m, 0)], [(p, 1), (m, 1)]]
    = some ([p, m], [2, 3], [some 8, some (13 / 4)]) := by
  decide +kernel

example := C64_push_datas core1_ok family1 exLabObj_good (axis := none) (.inl ⟨rfl, rfl⟩) exLab_datas

/-- `push_datas` with plain moments: matched by position. -/
theorem C64_push_datas_plain (hc : core.Ok) (fam : List ℕ → Kernel K V M)
    (g : LabelledObject obj moms core.nd) {d : Nd.Arr K} {z : ℤ} {mom : Option (List ℤ)}
    (hd : GoodDatas core.nd d z mom)
    (hm : (momAxesOf d.shape.length core.nd mom).map (axisSize d) = moms.map obj.size)
    (hf : FitsInto (freeShape d (wrap d.shape.length z :: momAxesOf d.shape.length core.nd mom))
      ((valDims obj moms).map obj.size)) :
    ∃ obj', pushDatasPlainX core fam moms obj d (.int z) mom = .ok obj' ∧
      UpdatedNamed core moms obj obj' (fun c r => (fam (moms.map obj.size)).reduceData
        ((List.range (sampleCount d z)).map (datasRecord core d z mom (valDims obj moms).length
          (coordsAlong (valDims obj moms) c))) r) :=
  pushDatasPlainX_updated hc fam g hd hm hf

example := C64_push_datas_plain core1_ok family1 exLabObj_good exPushDatas_good (by decide)
  ⟨by decide, by decide⟩

/-! ## What is refused -/

/-- `push_val` refuses a labelled argument with a dimension of another size than in the object, with
a moment dimension, or with a further dimension whose size is not one. -/
theorem C64_push_val_refused (val : List K → V) (fam : List ℕ → Kernel K V M)
    (g : LabelledObject obj moms core.nd) {x w : Operand δ K} {ys : List (Operand δ K)}
    (h : ∃ o ∈ x :: w :: ys, Foreign obj moms [] o) :
    pushValX val core fam moms obj x w ys = .error .valueError :=
  pushValX_refused val fam g h

example := C64_push_val_refused (core := core1) value1 family1 exLabObj_good (x := .named exNamedX)
  (w := .plain ⟨[], fun _ => 2⟩) (ys := []) ⟨_, List.mem_cons_self, .inr ⟨t, by decide⟩⟩

/-- A further dimension of size one is accepted and added to the object, unless the object has no
dimensions but its moment dimensions. -/
example : dimEntries (pushValX value1 core1 family1 [m] exLabObj
    (.named ⟨⟨[q, p], fun idx => 3 * idx.getD 1 0⟩, fun d => if d = q then 1 else 2⟩)
    (.plain ⟨[], fun _ => 2⟩) []) [[(p, 1), (q, 0), (m, 1)]]
    = some ([p, q, m], [2, 1, 3], [some 3]) := by
  decide +kernel

/-- `push_data` refuses labelled moments likewise, and if a moment dimension is missing. -/
theorem C64_push_data_refused (fam : List ℕ → Kernel K V M) (g : LabelledObject obj moms core.nd)
    {d : Operand δ K} (scale : Option (Nd.Arr K)) (h : Foreign obj moms moms d) :
    pushDataX core fam moms obj d scale = .error .valueError :=
  pushDataX_refused fam g scale h

example := C64_push_data_refused (core := core1) family1 exLabObj_good none (d := .named exLabVal)
  (.inl ⟨m, by decide, by decide⟩)

/-- `push_vals` refuses labelled arguments likewise, if one of them lacks the dimension `dm` along
which is reduced, and if the object has the dimension `dm`. -/
theorem C64_push_vals_refused (val : List K → V) (fam : List ℕ → Kernel K V M)
    (g : LabelledObject obj moms core.nd) {x : DataArray δ K} {w : Operand δ K}
    {ys : List (Operand δ K)} {axis : Option (Option AxisArg)} {dim : Option (Option δ)} {dm : δ}
    (hy : ys.length + 1 = core.nd) (hn : x.dims.Nodup) (hd : dm ∈ x.dims)
    (hsel : Chosen x.dims [] axis dim dm)
    (hu : ∀ a, .plain a ∈ w :: ys → Usable a (nameFromEnd x dm) (x.size dm))
    (h : dm ∈ valDims obj moms ∨ ∃ o ∈ .named x :: w :: ys, Foreign obj moms [dm] o) :
    pushValsX val core fam moms obj x w ys axis dim = .error .valueError :=
  pushValsX_refused val fam g hy hn hd hsel hu h

example := C64_push_vals_refused (core := core1) value1 family1 exLabObj_good (x := exNamedX)
  (w := .named exNamedW) (ys := []) (axis := none) (dm := t) rfl (by decide) (by decide)
  (.inl ⟨rfl, rfl⟩) (fun a ha => by simp at ha)
  (.inr ⟨.named exNamedW, by simp, .inr ⟨q, by decide⟩⟩)
example := C64_push_vals_refused (core := core1) value1 family1 exLabObj_good (x := exNamedX)
  (w := .named exNamedX) (ys := []) (axis := none) (dm := p) rfl (by decide) (by decide)
  (.inl ⟨rfl, rfl⟩) (fun a ha => by simp at ha) (.inl (by decide))

/-- `push_datas` refuses labelled moments likewise. -/
theorem C64_push_datas_refused (fam : List ℕ → Kernel K V M) (g : LabelledObject obj moms core.nd)
    {d : DataArray δ K} {axis : Option (Option AxisArg)} {dim : Option (Option δ)} {dm : δ}
    (hn : d.dims.Nodup) (hd : dm ∈ d.dims) (hm : dm ∉ moms) (hsel : Chosen d.dims moms axis dim dm)
    (h : dm ∈ obj.dims ∨ Foreign obj moms (dm :: moms) (.named d)) :
    pushDatasX core fam moms obj d axis dim = .error .valueError :=
  pushDatasX_refused fam g hn hd hm hsel h

example := C64_push_datas_refused (core := core1) family1 exLabObj_good (d := exLabDatas) (axis := none) (dm := p)
  (by decide) (by decide) (by decide) (.inl ⟨rfl, rfl⟩) (.inl (by decide))

end

/-! ## Histories -/

section

variable {K : Type} [Field K] [DecidableEq K] [CharZero K]
variable {obj : DataArray δ (Option K)}

/-- Any mixture of good calls succeeds. If the record at all coordinates stands for the samples
`S0 c`, and each call contributes samples as told by `Ts`, then afterwards every record that is not
missing stands for all of these samples together. Dimensions and sizes stay, with the moment
dimension moved to the end. -/
theorem C64_history {order : ℕ} (ho : 1 ≤ order) {md : δ} (g : LabelledObject obj [md] 1)
    (hm : obj.size md = order + 1) {cmds : List (PushX δ K)}
    (hg : ∀ cmd ∈ cmds, GoodPushX core1 [md] obj cmd) {Ts : List ((δ → ℕ) → List (Sample K))}
    (hT : List.Forall₂ (ContributesX (Holds order) sample1 scaled1 value1 core1 [md] obj) cmds Ts)
    (S0 : (δ → ℕ) → List (Sample K))
    (h0 : ∀ c, InLabelled obj [md] c → ∀ r, cellNamed core1 obj [md] c = some r →
      Holds order (S0 c) r) :
    ∃ obj', runPushesX value1 core1 family1 [md] cmds obj = .ok obj' ∧
      valDims obj' [md] = valDims obj [md] ∧ obj'.dims.Perm obj.dims ∧
      (∀ d ∈ obj.dims, obj'.size d = obj.size d) ∧
      ∀ c, InLabelled obj [md] c → ∀ r, cellNamed core1 obj' [md] c = some r →
        Holds order (S0 c ++ Ts.flatMap (fun T => T c)) r := by
  have hk : family1 ([md].map obj.size) = kernel1 (K := K) order := by simp [family1, hm]
  obtain ⟨obj', e1, e2, e3⟩ := historyX (Nd.meaning1 ho) core1_ok g hk hg hT S0 h0
  exact ⟨obj', e1, e2.vals, e2.perm, e2.size, e3⟩

/-- The same for two variables. -/
theorem C64_history_cov {o0 o1 : ℕ} (ho0 : 1 ≤ o0) (ho1 : 1 ≤ o1) {m0 m1 : δ}
    (g : LabelledObject obj [m0, m1] 2) (h0 : obj.size m0 = o0 + 1) (h1 : obj.size m1 = o1 + 1)
    {cmds : List (PushX δ K)} (hg : ∀ cmd ∈ cmds, GoodPushX core2 [m0, m1] obj cmd)
    {Ts : List ((δ → ℕ) → List (Sample2 K))}
    (hT : List.Forall₂ (ContributesX (Holds2 o0 o1) sample2 scaled2 value2 core2 [m0, m1] obj)
      cmds Ts)
    (S0 : (δ → ℕ) → List (Sample2 K))
    (hS : ∀ c, InLabelled obj [m0, m1] c → ∀ r, cellNamed core2 obj [m0, m1] c = some r →
      Holds2 o0 o1 (S0 c) r) :
    ∃ obj', runPushesX value2 core2 family2 [m0, m1] cmds obj = .ok obj' ∧
      valDims obj' [m0, m1] = valDims obj [m0, m1] ∧ obj'.dims.Perm obj.dims ∧
      (∀ d ∈ obj.dims, obj'.size d = obj.size d) ∧
      ∀ c, InLabelled obj [m0, m1] c → ∀ r, cellNamed core2 obj' [m0, m1] c = some r →
        Holds2 o0 o1 (S0 c ++ Ts.flatMap (fun T => T c)) r := by
  have hk : family2 ([m0, m1].map obj.size) = kernel2 (K := K) o0 o1 := by simp [family2, h0, h1]
  obtain ⟨obj', e1, e2, e3⟩ := historyX (Nd.meaning2 ho0 ho1) core2_ok g hk hg hT S0 hS
  exact ⟨obj', e1, e2.vals, e2.perm, e2.size, e3⟩

end

section

variable {K : Type} [Field K] [LinearOrder K] [IsStrictOrderedRing K]
variable {obj : DataArray δ (Option K)}

/-- Starting from zeros, any mixture of good calls whose weights are not negative succeeds; no record
is missing, and every entry is that of the moments of all samples pushed at its coordinates. -/
theorem C64_from_zeros {order : ℕ} (ho : 1 ≤ order) {md : δ} (g : LabelledObject obj [md] 1)
    (hm : obj.size md = order + 1) (hz : ∀ c, entry obj c = some 0) {cmds : List (PushX δ K)}
    (hg : ∀ cmd ∈ cmds, GoodPushX core1 [md] obj cmd) {Ts : List ((δ → ℕ) → List (Sample K))}
    (hT : List.Forall₂ (ContributesX (Holds order) sample1 scaled1 value1 core1 [md] obj) cmds Ts)
    (hTs : ∀ c, InLabelled obj [md] c → ∀ T ∈ Ts, ∀ s ∈ T c, 0 ≤ s.w) :
    ∃ obj', runPushesX value1 core1 family1 [md] cmds obj = .ok obj' ∧
      obj'.dims.Perm obj.dims ∧ (∀ d ∈ obj.dims, obj'.size d = obj.size d) ∧
      ∀ c, InLabelled obj [md] c → ∃ r, Holds order (Ts.flatMap (fun T => T c)) r ∧
        entry obj' c = some (r (c md)) := by
  have hcell : ∀ c, cellNamed core1 obj [md] c = some (core1.recd (fun _ => 0)) := by
    intro c
    simp [cellNamed, hz]
  have hk : family1 ([md].map obj.size) = kernel1 (K := K) order := by simp [family1, hm]
  have hw : WholeNamed core1 obj [md] := by
    intro c _
    rw [hz, hcell]
    simp [core1]
  have hzero : Holds order ([] : List (Sample K)) (core1.recd (fun _ => 0)) :=
    .inr ⟨rfl, fun _ _ => rfl⟩
  obtain ⟨obj', e1, e2, -⟩ := historyX (Nd.meaning1 ho) core1_ok g hk hg hT (fun _ => []) (by
    intro c _ r hr
    rw [hcell] at hr
    exact Option.some.inj hr ▸ hzero)
  refine ⟨obj', e1, e2.perm, e2.size, fun c hc => ?_⟩
  obtain ⟨r, f1, f2⟩ := historyX_defined (Nd.meaning1 ho) core1_ok g hk hg hT e1 [] hc (hcell c) hzero
    (by simp) (fun T hT' s hs => by simpa [lawful1] using hTs c hc T hT' s hs)
  refine ⟨r, by simpa using f2, ?_⟩
  rw [runPushesX_whole core1_ok g (hk ▸ lawful1 order ho) hg hw e1 c ((e2.within c).2 hc), f1]
  simp [core1]

/-- The same for two variables. -/
theorem C64_from_zeros_cov {o0 o1 : ℕ} (ho0 : 1 ≤ o0) (ho1 : 1 ≤ o1) {m0 m1 : δ}
    (g : LabelledObject obj [m0, m1] 2) (h0 : obj.size m0 = o0 + 1) (h1 : obj.size m1 = o1 + 1)
    (hz : ∀ c, entry obj c = some 0) {cmds : List (PushX δ K)}
    (hg : ∀ cmd ∈ cmds, GoodPushX core2 [m0, m1] obj cmd)
    {Ts : List ((δ → ℕ) → List (Sample2 K))}
    (hT : List.Forall₂ (ContributesX (Holds2 o0 o1) sample2 scaled2 value2 core2 [m0, m1] obj)
      cmds Ts)
    (hTs : ∀ c, InLabelled obj [m0, m1] c → ∀ T ∈ Ts, ∀ s ∈ T c, 0 ≤ s.w) :
    ∃ obj', runPushesX value2 core2 family2 [m0, m1] cmds obj = .ok obj' ∧
      obj'.dims.Perm obj.dims ∧ (∀ d ∈ obj.dims, obj'.size d = obj.size d) ∧
      ∀ c, InLabelled obj [m0, m1] c → ∃ r, Holds2 o0 o1 (Ts.flatMap (fun T => T c)) r ∧
        entry obj' c = some (r (c m0) (c m1)) := by
  have hcell : ∀ c, cellNamed core2 obj [m0, m1] c = some (core2.recd (fun _ => 0)) := by
    intro c
    simp [cellNamed, hz]
  have hk : family2 ([m0, m1].map obj.size) = kernel2 (K := K) o0 o1 := by simp [family2, h0, h1]
  have hw : WholeNamed core2 obj [m0, m1] := by
    intro c _
    rw [hz, hcell]
    simp [core2]
  have hzero : Holds2 o0 o1 ([] : List (Sample2 K)) (core2.recd (fun _ => 0)) :=
    .inr ⟨rfl, fun _ _ _ _ => rfl⟩
  obtain ⟨obj', e1, e2, -⟩ := historyX (Nd.meaning2 ho0 ho1) core2_ok g hk hg hT (fun _ => []) (by
    intro c _ r hr
    rw [hcell] at hr
    exact Option.some.inj hr ▸ hzero)
  refine ⟨obj', e1, e2.perm, e2.size, fun c hc => ?_⟩
  obtain ⟨r, f1, f2⟩ := historyX_defined (Nd.meaning2 ho0 ho1) core2_ok g hk hg hT e1 [] hc (hcell c)
    hzero (by simp) (fun T hT' s hs => by simpa [lawful2] using hTs c hc T hT' s hs)
  refine ⟨r, by simpa using f2, ?_⟩
  rw [runPushesX_whole core2_ok g (hk ▸ lawful2 o0 o1 ho0 ho1) hg hw e1 c ((e2.within c).2 hc), f1]
  simp [core2]

end

/-- Zeros with two records of two moments. -/
def exLabZero : DataArray ExDim (Option ℚ) where
  dims := [m, p]
  data _ := some 0
  size := exLabObj.size

/-- Two calls: labelled values, then one value for each record. -/
def exLabCmds : List (PushX ExDim ℚ) :=
  [.vals exNamedX (.plain exPlain1) [] none (some (some t)),
    .val (.named exLabVal) (.plain ⟨[], fun _ => 2⟩) []]

theorem exLab_valsZero : GoodVals exLabZero [m] exNamedX [.plain exPlain1] t where
  fresh := by decide
  within := by decide
  good := by
    intro o ho
    rcases List.mem_cons.1 ho with rfl | ho
    · exact ⟨by decide, by decide, by decide⟩
    · rw [List.mem_singleton.1 ho]
      exact ⟨⟨fun i j h => by simp only [exPlain1] at h ⊢; rw [h 0 (by simp)],
        .inr (.inl ⟨rfl, rfl⟩)⟩, fun h => absurd h (by decide)⟩

theorem exLabCmds_good : ∀ cmd ∈ exLabCmds, GoodPushX core1 [m] exLabZero cmd := by
  intro cmd h
  simp only [exLabCmds, List.mem_cons, List.not_mem_nil, or_false] at h
  rcases h with rfl | rfl
  · exact ⟨rfl, t, .inl ⟨rfl, rfl⟩, exLab_valsZero⟩
  · refine ⟨rfl, fun o ho => ?_⟩
    rcases List.mem_cons.1 ho with rfl | ho
    · exact ⟨by decide, by decide⟩
    · rw [List.mem_singleton.1 ho]; exact ⟨by decide, by decide⟩

/-- What the calls contribute. -/
def exLabTs : List ((ExDim → ℕ) → List (Sample ℚ)) :=
  [fun c => (samplesNamed value1 (valDims exLabZero [m]) t (nameFromEnd exNamedX t) (exNamedX.size t)
      (.named exNamedX) (.plain exPlain1) [] c).map (fun p => sample1 p.1 p.2),
    fun c => [sample1 (value1 [numberFrom (valDims exLabZero [m]) c (.named exLabVal)])
      (numberFrom (valDims exLabZero [m]) c (.plain ⟨[], fun _ => (2 : ℚ)⟩))]]

theorem exLabTs_ok : List.Forall₂
    (ContributesX (Holds 2) sample1 scaled1 value1 core1 [m] exLabZero) exLabCmds exLabTs := by
  refine .cons ?_ (.cons ?_ .nil)
  · intro dm h c _
    rcases h with ⟨-, h⟩ | ⟨h, -⟩ | ⟨h, -⟩
    · obtain rfl : t = dm := by simpa using h
      rfl
    · exact absurd h (by simp)
    · exact absurd h (by simp)
  · intro c _
    rfl

example := C64_history (order := 2) (by decide) (md := m) (obj := exLabZero)
  ⟨by decide, by decide, by decide, rfl⟩ rfl exLabCmds_good exLabTs_ok (fun _ => []) (by
    intro c _ r hr
    obtain rfl : _ = r := Option.some.inj hr
    exact .inr ⟨rfl, fun _ _ => rfl⟩)

example := C64_from_zeros (order := 2) (by decide) (md := m) (obj := exLabZero)
  ⟨by decide, by decide, by decide, rfl⟩ rfl (fun _ => rfl) exLabCmds_good exLabTs_ok (by
    intro c _ T hT s hs
    simp only [exLabTs, List.mem_cons, List.not_mem_nil, or_false] at hT
    rcases hT with rfl | rfl
    · obtain ⟨q, hq, rfl⟩ := List.mem_map.1 hs
      obtain ⟨j, hj, rfl⟩ := List.mem_map.1 hq
      show (0 : ℚ) ≤ 1 / (1 + _)
      positivity
    · rw [List.mem_singleton.1 hs]
      show (0 : ℚ) ≤ 2
      norm_num)

example : dimEntries (runPushesX value1 core1 family1 [m] exLabCmds exLabZero)
    [[(p, 0), (m, 0)], [(p, 0), (m, 1)], [(p, 1), (m, 0)]]
    = some ([p, m], [2, 3], [some (23 / 6), some (14 / 23), some (23 / 6)]) := by
  decide +kernel

end Cmomy
