import Verif.Lemmas.ValsAccept
import Verif.Props.NdArray
import Verif.Props.Accumulate

/-!
# C54: operations on values and weights of any shape

`val`, `core`, `fam` are `value1`, `core1`, `family1` for one variable and `value2`, `core2`,
`family2` for two; `others` are the weight and the further values. The moment axes are the last
ones, the default of every function here.
-/

namespace Cmomy

open Spec Axes Nd

/-- Values with the samples on the middle axis. -/
def exVals : Arr ℚ := ⟨[2, 3, 2], fun i => 3 * i 0 + i 1 * i 1 - 2 * i 2⟩

/-- One weight per sample. -/
def exWeight1 : Arr ℚ := ⟨[3], fun i => 1 + i 0⟩

/-- One weight for all samples. -/
def exWeight0 : Arr ℚ := ⟨[], fun _ => 2⟩

/-- Weights with more axes than the values: the samples are second from the end. -/
def exWeight4 : Arr ℚ := ⟨[2, 1, 3, 2], fun i => 1 + i 0 + i 2 * i 3⟩

/-- Further values, of size one on an axis. -/
def exVals2 : Arr ℚ := ⟨[3, 1], fun i => 1 + i 0 - 2 * i 1⟩

theorem exVals_proper : exVals.Proper := by
  intro i j h
  simp only [exVals] at h ⊢
  rw [h 0 (by simp), h 1 (by simp), h 2 (by simp)]

theorem exVals_count : fromEnd exVals 1 = 2 ∧ sampleCount exVals 1 = 3 := by decide

theorem exWeight1_usable : Usable exWeight1 2 3 :=
  ⟨fun i j h => by simp only [exWeight1] at h ⊢; rw [h 0 (by simp)], .inr (.inl ⟨rfl, rfl⟩)⟩

theorem exWeight0_usable : Usable exWeight0 2 3 :=
  ⟨fun _ _ _ => rfl, .inl rfl⟩

theorem exWeight4_usable : Usable exWeight4 2 3 :=
  ⟨fun i j h => by
    simp only [exWeight4] at h ⊢
    rw [h 0 (by simp), h 2 (by simp), h 3 (by simp)], .inr (.inr ⟨by decide, by decide, rfl⟩)⟩

theorem exVals2_usable : Usable exVals2 2 3 :=
  ⟨fun i j h => by
    simp only [exVals2] at h ⊢
    rw [h 0 (by simp), h 1 (by simp)], .inr (.inr ⟨by decide, by decide, rfl⟩)⟩

theorem exVals_good1 : GoodValues exVals [exWeight1] 1 [2, 3, 2] where
  proper := exVals_proper
  range := by unfold InRange; decide
  usable := by
    rw [exVals_count.1, exVals_count.2]
    intro a ha
    rw [List.mem_singleton.1 ha]
    exact exWeight1_usable
  common := ⟨by decide, by decide, by decide⟩

theorem exVals_good2 : GoodValues exVals [exWeight4, exVals2] 1 [2, 2, 3, 2] where
  proper := exVals_proper
  range := by unfold InRange; decide
  usable := by
    rw [exVals_count.1, exVals_count.2]
    intro a ha
    rcases List.mem_cons.1 ha with rfl | ha
    · exact exWeight4_usable
    · rw [List.mem_singleton.1 ha]
      exact exVals2_usable
  common := ⟨by decide, by decide, by decide⟩

theorem exVals_goodAlpha : GoodValues exVals [exWeight1, exWeight0] 1 [2, 3, 2] where
  proper := exVals_proper
  range := by unfold InRange; decide
  usable := by
    rw [exVals_count.1, exVals_count.2]
    intro a ha
    rcases List.mem_cons.1 ha with rfl | ha
    · exact exWeight1_usable
    · rw [List.mem_singleton.1 ha]
      exact exWeight0_usable
  common := ⟨by decide, by decide, by decide⟩

theorem exVals_goodAlpha4 : GoodValues exVals [exWeight1, exWeight4] 1 [2, 2, 3, 2] where
  proper := exVals_proper
  range := by unfold InRange; decide
  usable := by
    rw [exVals_count.1, exVals_count.2]
    intro a ha
    rcases List.mem_cons.1 ha with rfl | ha
    · exact exWeight1_usable
    · rw [List.mem_singleton.1 ha]
      exact exWeight4_usable
  common := ⟨by decide, by decide, by decide⟩

section

variable {K V M : Type*} [Field K] [DecidableEq K]
variable {x : Arr K} {z : ℤ} {full : List ℕ}

/-- `reduce_vals`: the common shape without the sample axis, then the moment axes. The entry at an
index is that of the moments of the samples that values and weight contribute there. -/
theorem C54_reduce_vals (val : List K → V) {core : Core K M} {fam : List ℕ → Kernel K V M}
    {mom : List ℕ} (hm : mom.length = core.nd) {w : Arr K} {ys : List (Arr K)}
    (hy : ys.length + 1 = core.nd) (g : GoodValues x (w :: ys) z full) :
    ∃ out, reduceValsNd val core fam mom (axesLast core.nd) x (w :: ys) (.int z) = .ok out ∧
      HasLayout out (reducedLayout full.length (full.length - fromEnd x z) core.nd)
        (valuesSize full (full.length - fromEnd x z) 0 mom) (fun i =>
          ((fam (mom.map (· + 1))).reduceValsFromZero
            (samplesOver val x w ys full.length (full.length - fromEnd x z) (sampleCount x z) i)).map
            (fun r => core.ent r (momCoords full.length core.nd i))) := by
  obtain ⟨out, h1, h2, _⟩ := reduceValsNd_spec val (fam := fam) hm hy g
  exact ⟨out, h1, h2⟩

example : entries (reduceValsNd value1 core1 family1 [2] [-1] exVals [exWeight1] (.int 1))
    [[0, 0, 0], [0, 0, 1], [0, 0, 2], [1, 1, 0], [1, 1, 1], [1, 1, 2]]
    = some ([2, 2, 3], [some 6, some (7 / 3), some (26 / 9), some 6, some (10 / 3), some (26 / 9)]) := by
  decide +kernel

example := C54_reduce_vals value1 (core := core1) (fam := family1) (mom := [2]) rfl rfl exVals_good1
example := C54_reduce_vals value2 (core := core2) (fam := family2) (mom := [2, 1]) rfl rfl
  exVals_good2

/-- With C01: the numbers `reduce_vals` returns are the weight, the mean and the central moments of
the samples at each index. -/
theorem C54_reduce_vals_moments [CharZero K] {order : ℕ} (ho : 1 ≤ order) {w : Arr K}
    (g : GoodValues x [w] z full) :
    ∃ out, reduceValsNd value1 core1 family1 [order] [-1] x [w] (.int z) = .ok out ∧
      out.shape = (keptAxes full.length [full.length - fromEnd x z]).map (full.getD · 0)
        ++ [order + 1] ∧
      ∀ i, let L := (List.range (sampleCount x z)).map (fun s =>
          (⟨operandAt w full.length (full.length - fromEnd x z) i s,
            operandAt x full.length (full.length - fromEnd x z) i s⟩ : Sample K))
        Admissible L → weight L ≠ 0 → ∃ m, IsMoments order L m ∧ ∀ j,
          out.get (along (keptAxes full.length [full.length - fromEnd x z] ++ [full.length])
            (fun a => if a = full.length then j else i a)) = some (m j) := by
  obtain ⟨out, h1, h2, h3⟩ := C54_reduce_vals value1 (core := core1) (fam := family1)
    (mom := [order]) rfl (ys := []) rfl g
  refine ⟨out, h1, ?_, ?_⟩
  · rw [h2]
    unfold reducedLayout
    rw [List.map_append]
    congr 1
    · refine List.map_congr_left fun p hp => ?_
      have hp' := mem_keptAxes.1 hp
      unfold valuesSize
      rw [if_neg (by simpa using hp'.2), if_pos hp'.1]
    · have := g.d_le
      simp [core1, valuesSize, show full.length ≠ full.length - fromEnd x z by omega]
  · intro i L hL hW
    obtain ⟨m, e1, e2⟩ := C01_reduce_vals_exact ho L hL hW
    refine ⟨m, e2, fun j => ?_⟩
    have := h3 (fun a => if a = full.length then j else i a)
    rw [show reducedLayout full.length (full.length - fromEnd x z) (core1 (K := K)).nd
      = keptAxes full.length [full.length - fromEnd x z] ++ [full.length] from by
        simp [reducedLayout, core1]] at this
    rw [this]
    beta_reduce
    have hs : samplesOver value1 x w [] full.length (full.length - fromEnd x z) (sampleCount x z)
        (fun a => if a = full.length then j else i a) = toVals L := by
      unfold samplesOver toVals
      rw [List.map_map]
      refine List.map_congr_left fun s _ => ?_
      have hr : ∀ a ∈ [x, w], a.shape.length ≤ full.length := by
        intro a ha
        by_cases h : 2 ≤ a.shape.length
        · exact g.common.rank _ (mem_wideShapes ha h)
        · have := g.common.rank x.shape (by simp [wideShapes])
          have := g.d_le
          omega
      have hc : ∀ a ∈ [x, w], a.Proper := by
        intro a ha
        rcases List.mem_cons.1 ha with rfl | ha
        · exact g.proper
        · rw [List.mem_singleton.1 ha]; exact (g.usable w (by simp)).1
      have he : ∀ a ∈ [x, w], operandAt a full.length (full.length - fromEnd x z)
          (fun a => if a = full.length then j else i a) s
          = operandAt a full.length (full.length - fromEnd x z) i s := by
        intro a ha
        exact operandAt_congr (hc a ha) (hr a ha) (fun p hp => if_neg (by omega)) s
      simp only [value1, List.map_cons, List.map_nil, List.headD_cons, Function.comp_apply]
      rw [he x (by simp), he w (by simp)]
    rw [hs]
    show ((family1 [order + 1]).reduceValsFromZero (toVals L)).map _ = _
    have hf : family1 (K := K) [order + 1] = kernel1 order := by simp [family1]
    rw [hf, e1]
    simp [core1, momCoords]

example := C54_reduce_vals_moments (order := 3) (by decide) exVals_good1

/-- With C02: the numbers `reduce_vals` returns for two variables are the comoments of the
samples at each index. -/
theorem C54_reduce_vals_comoments [CharZero K] {o0 o1 : ℕ} (h0 : 1 ≤ o0) (h1 : 1 ≤ o1)
    {w y : Arr K}
    (g : GoodValues x [w, y] z full) :
    ∃ out, reduceValsNd value2 core2 family2 [o0, o1] [-2, -1] x [w, y] (.int z) = .ok out ∧
      out.shape = (keptAxes full.length [full.length - fromEnd x z]).map (full.getD · 0)
        ++ [o0 + 1, o1 + 1] ∧
      ∀ i, let L := (List.range (sampleCount x z)).map (fun s =>
          (⟨operandAt w full.length (full.length - fromEnd x z) i s,
            operandAt x full.length (full.length - fromEnd x z) i s,
            operandAt y full.length (full.length - fromEnd x z) i s⟩ : Sample2 K))
        Admissible2 L → weight2 L ≠ 0 → ∃ m, IsComoments o0 o1 L m ∧ ∀ j k,
          out.get (along (keptAxes full.length [full.length - fromEnd x z] ++ [full.length, full.length + 1])
            (fun a => if a = full.length then j else if a = full.length + 1 then k else i a))
              = some (m j k) := by
  obtain ⟨out, g1, g2, g3⟩ := C54_reduce_vals value2 (core := core2) (fam := family2)
    (mom := [o0, o1]) rfl (ys := [y]) rfl g
  refine ⟨out, g1, ?_, ?_⟩
  · rw [g2]
    unfold reducedLayout
    rw [List.map_append]
    congr 1
    · refine List.map_congr_left fun p hp => ?_
      have hp' := mem_keptAxes.1 hp
      unfold valuesSize
      rw [if_neg (by simpa using hp'.2), if_pos hp'.1]
    · have := g.d_le
      simp [core2, valuesSize, List.range_succ, show full.length ≠ full.length - fromEnd x z by omega,
        show full.length + 1 ≠ full.length - fromEnd x z by omega]
  · intro i L hL hW
    obtain ⟨m, e1, e2⟩ := C02_reduce_vals_cov_exact h0 h1 L hL hW
    refine ⟨m, e2, fun j k => ?_⟩
    have := g3 (fun a => if a = full.length then j else if a = full.length + 1 then k else i a)
    rw [show reducedLayout full.length (full.length - fromEnd x z) (core2 (K := K)).nd
      = keptAxes full.length [full.length - fromEnd x z] ++ [full.length, full.length + 1] from by
        simp [reducedLayout, core2, List.range_succ]] at this
    rw [this]
    beta_reduce
    have hs : samplesOver value2 x w [y] full.length (full.length - fromEnd x z) (sampleCount x z)
        (fun a => if a = full.length then j else if a = full.length + 1 then k else i a) = toVals2 L := by
      unfold samplesOver toVals2
      rw [List.map_map]
      refine List.map_congr_left fun s _ => ?_
      have hr : ∀ a ∈ [x, w, y], a.shape.length ≤ full.length := by
        intro a ha
        by_cases h : 2 ≤ a.shape.length
        · exact g.common.rank _ (mem_wideShapes ha h)
        · have := g.common.rank x.shape (by simp [wideShapes])
          have := g.d_le
          omega
      have hc : ∀ a ∈ [x, w, y], a.Proper := by
        intro a ha
        rcases List.mem_cons.1 ha with rfl | ha
        · exact g.proper
        · exact (g.usable a ha).1
      have he : ∀ a ∈ [x, w, y], operandAt a full.length (full.length - fromEnd x z)
          (fun a => if a = full.length then j else if a = full.length + 1 then k else i a) s
          = operandAt a full.length (full.length - fromEnd x z) i s := by
        intro a ha
        exact operandAt_congr (hc a ha) (hr a ha) (fun p hp => by
          rw [if_neg (by omega), if_neg (by omega)]) s
      simp only [value2, List.map_cons, List.map_nil, List.headD_cons, List.tail_cons,
        Function.comp_apply]
      rw [he x (by simp), he w (by simp), he y (by simp)]
    rw [hs]
    show ((family2 [o0 + 1, o1 + 1]).reduceValsFromZero (toVals2 L)).map _ = _
    have hf : family2 (K := K) [o0 + 1, o1 + 1] = kernel2 o0 o1 := by simp [family2]
    rw [hf, e1]
    simp [core2, momCoords, List.range_succ]

example := C54_reduce_vals_comoments (o0 := 2) (o1 := 1) (by decide) (by decide) exVals_good2

/-- `resample_vals`: the sample axis gets the number of replicates as its size and stays where it
is, or with `axes_to_end` comes after the other axes. -/
theorem C54_resample_vals (val : List K → V) {core : Core K M} {fam : List ℕ → Kernel K V M}
    {mom : List ℕ} (hm : mom.length = core.nd) (freq : List (List K)) {w : Arr K}
    {ys : List (Arr K)} (hy : ys.length + 1 = core.nd) (g : GoodValues x (w :: ys) z full)
    (orderCF axesToEnd : Bool) :
    ∃ out, resampleValsNd val core fam mom (axesLast core.nd) freq (sampleCount x z) x (w :: ys)
        (.int z) orderCF axesToEnd = .ok out ∧
      Shows out (rowsLayout full.length (full.length - fromEnd x z) core.nd axesToEnd)
        (valuesSize full (full.length - fromEnd x z) freq.length mom) (fun i =>
          (((fam (mom.map (· + 1))).resampleVals freq
            (samplesOver val x w ys full.length (full.length - fromEnd x z) (sampleCount x z) i))[
              i (full.length - fromEnd x z)]?).join.map
            (fun r => core.ent r (momCoords full.length core.nd i))) :=
  resampleValsNd_spec val hm freq hy g orderCF axesToEnd

example : entries (resampleValsNd value1 core1 family1 [2] [-1] [[3, 0, 0], [1, 1, 1]] 3 exVals
    [exWeight1] (.int 1) false true) [[0, 0, 0, 0], [0, 0, 0, 1], [0, 0, 1, 0], [1, 1, 1, 1]]
    = some ([2, 2, 2, 3], [some 3, some 0, some 6, some (10 / 3)]) := by
  decide +kernel

example := C54_resample_vals value1 (core := core1) (fam := family1) (mom := [2]) rfl
  [[3, 0, 0], [1, 1, 1]] rfl exVals_good1 false true
example := C54_resample_vals value2 (core := core2) (fam := family2) (mom := [2, 1]) rfl
  [[3, 0, 0]] rfl exVals_good2 true false

/-- `jackknife_vals`: likewise, one row for each sample left out. -/
theorem C54_jackknife_vals (val : List K → V) {core : Core K M} (hc : core.Ok)
    {fam : List ℕ → Kernel K V M} {mom : List ℕ} (hm : mom.length = core.nd) {w : Arr K}
    {ys : List (Arr K)} (hy : ys.length + 1 = core.nd) (g : GoodValues x (w :: ys) z full)
    (orderCF axesToEnd : Bool) :
    ∃ out, jackknifeValsNd val core fam mom (axesLast core.nd) x (w :: ys) (.int z) orderCF
        axesToEnd = .ok out ∧
      Shows out (rowsLayout full.length (full.length - fromEnd x z) core.nd axesToEnd)
        (valuesSize full (full.length - fromEnd x z) (sampleCount x z) mom) (fun i =>
          (((fam (mom.map (· + 1))).jackknifeVals
            (samplesOver val x w ys full.length (full.length - fromEnd x z) (sampleCount x z) i)).bind
              (fun rows => (rows[i (full.length - fromEnd x z)]?).join)).map
            (fun r => core.ent r (momCoords full.length core.nd i))) :=
  jackknifeValsNd_spec val hc hm hy g orderCF axesToEnd

example : entries (jackknifeValsNd value1 core1 family1 [2] [-1] exVals [exWeight1] (.int 1) false
    false) [[0, 0, 0, 0], [0, 0, 0, 1], [0, 2, 0, 0], [0, 2, 0, 1], [0, 2, 0, 2]]
    = some ([2, 3, 2, 3], [some 5, some (14 / 5), some 3, some (2 / 3), some (2 / 9)]) := by
  decide +kernel

example := C54_jackknife_vals value1 core1_ok (fam := family1) (mom := [2]) rfl rfl exVals_good1
  false true
example := C54_jackknife_vals value2 core2_ok (fam := family2) (mom := [2, 1]) rfl rfl
  exVals_good2 true false

/-- Which calls of `reduce_vals`, `resample_vals` and `jackknife_vals` succeed: the number of arrays
has to be right, the axis in range, weight and further values usable, and all shapes with more than
one axis have a common shape; a table has to be as wide as there are samples. -/
theorem C54_accepts (val : List K → V) {core : Core K M} (hc : core.Ok)
    {fam : List ℕ → Kernel K V M} {mom : List ℕ} (hm : mom.length = core.nd) (hnd : core.nd ≠ 0)
    (freq : List (List K)) (nsamp : ℕ) {others : List (Arr K)} (hx : x.Proper)
    (hp : ∀ a ∈ others, a.Proper) (orderCF axesToEnd : Bool) :
    ((∃ out, reduceValsNd val core fam mom (axesLast core.nd) x others (.int z) = .ok out) ↔
      others.length = core.nd ∧ ∃ full, GoodValues x others z full) ∧
    ((∃ out, resampleValsNd val core fam mom (axesLast core.nd) freq nsamp x others (.int z)
        orderCF axesToEnd = .ok out) ↔
      others.length = core.nd ∧ nsamp = sampleCount x z ∧ ∃ full, GoodValues x others z full) ∧
    ((∃ out, jackknifeValsNd val core fam mom (axesLast core.nd) x others (.int z) orderCF
        axesToEnd = .ok out) ↔
      others.length = core.nd ∧ ∃ full, GoodValues x others z full) :=
  ⟨reduceValsNd_accepts val hm hnd hx hp, resampleValsNd_accepts val hm hnd freq nsamp hx hp orderCF
    axesToEnd, jackknifeValsNd_accepts val hc hm hnd hx hp orderCF axesToEnd⟩

-- a weight with as many entries as another axis has, but not as there are samples
example : entries (reduceValsNd value1 core1 family1 [2] [-1] exVals [exWeight1] (.int 0)) [] = none := by
  decide +kernel
-- a weight array whose samples are on its first axis, but not second from the end
example : entries (reduceValsNd value1 core1 family1 [2] [-1] exVals
    [⟨[3, 2, 1], fun _ => 1⟩] (.int 1)) [] = none := by
  decide +kernel
example : entries (reduceValsNd value1 core1 family1 [2] [-1] exVals [exWeight1, exVals2] (.int 1)) []
    = none := by
  decide +kernel

/-- The errors: a wrong number of arrays gives `ValueError`, an axis out of range `AxisError`, and
arrays without a common shape `ValueError`. -/
theorem C54_errors (val : List K → V) {core : Core K M}
    {fam : List ℕ → Kernel K V M} {mom : List ℕ} {momAxes : List ℤ} {others : List (Arr K)} :
    (others.length ≠ core.nd →
      reduceValsNd val core fam mom momAxes x others (.int z) = .error .valueError) ∧
    (others.length = core.nd → ¬ InRange x.shape.length z →
      reduceValsNd val core fam mom momAxes x others (.int z) = .error .axisError) ∧
    (others.length = core.nd → InRange x.shape.length z →
      (∀ a ∈ others, Usable a (fromEnd x z) (sampleCount x z)) →
      (¬ ∃ full, IsBroadcast (wideShapes x others) full) →
      reduceValsNd val core fam mom momAxes x others (.int z) = .error .valueError) := by
  refine ⟨fun h => ?_, fun h hz => ?_, fun h hz hu hb => ?_⟩
  · unfold reduceValsNd prepareValues
    rw [if_pos (by omega)]
    rfl
  · unfold reduceValsNd prepareValues
    rw [if_neg (by omega)]
    have : normalizeAxisIndex (.int z) x.shape.length none = .error .axisError :=
      (npNormalize_error _ _ _).2 ⟨rfl, hz⟩
    rw [this]
    rfl
  · unfold reduceValsNd reduceValsFrom
    rw [prepareValues_eq hz hu false _ (by omega)]
    simp only [Except.bind, Bool.false_and, Bool.false_eq_true, if_false]
    have : outFromValues x (others.map (prepOne false (fromEnd x z) (sampleCount x z))) mom
        (-(fromEnd x z : ℤ)) none false = .error .valueError := by
      unfold outFromValues
      cases hs : broadcastShapes (x.shape :: ((others.map (prepOne false (fromEnd x z)
          (sampleCount x z))).filter (fun a => 1 < a.shape.length)).map Arr.shape) with
      | error e => rw [broadcastShapes_error hs]; rfl
      | ok F =>
        exfalso
        apply hb
        have := common_of_prepared hz hu (move := false) (by simp) (full' := F)
          (broadcastShapes_iff.1 hs)
        exact ⟨F, by simpa using this⟩
    rw [this]

example : reduceValsNd value1 core1 family1 [2] [-1] exVals [⟨[5, 3, 2], fun _ => 1⟩] (.int 1)
    = .error .valueError :=
  (C54_errors value1).2.2 rfl (by unfold InRange; decide)
    (by
      intro a ha
      rw [List.mem_singleton.1 ha, exVals_count.1, exVals_count.2]
      exact ⟨fun _ _ _ => rfl, .inr (.inr ⟨by decide, by decide, rfl⟩)⟩)
    (by
      rintro ⟨full, h⟩
      have h1 := h.fits [2, 3, 2] (by decide) 0 (by decide)
      have h2 := h.fits [5, 3, 2] (by decide) 0 (by decide)
      simp at h1 h2
      omega)

/-- Moment axes that are not the last ones: the result of `reduce_vals` is allocated with the
moments last whatever `mom_params` says, so for values with one axis besides the samples the call
with the moments in front fails unless that axis has size one or the size of the moment axis. -/
theorem C54_mom_axes_not_last (n k m : ℕ) (v : (ℕ → ℕ) → K) (c : K) (hk : k ≠ 1) (hkm : k ≠ m + 1) :
    reduceValsNd value1 core1 family1 [m] [0] ⟨[n, k], v⟩ [⟨[], fun _ => c⟩] (.int 0)
      = .error .valueError := by
  set x : Arr K := ⟨[n, k], v⟩ with hx
  set w : Arr K := ⟨[], fun _ => c⟩ with hw
  have hz : InRange x.shape.length 0 := by unfold InRange; simp [hx]
  have hd : fromEnd x 0 = 2 := by simp [fromEnd, wrap, hx]
  have hn : sampleCount x 0 = n := by simp [sampleCount, axisSize, wrap, hx]
  have hu : ∀ a ∈ [w], Usable a (fromEnd x 0) (sampleCount x 0) := by
    intro a ha
    rw [List.mem_singleton.1 ha]
    exact ⟨fun _ _ _ => rfl, .inl rfl⟩
  unfold reduceValsNd reduceValsFrom
  rw [prepareValues_eq hz hu false ((core1 (K := K)).nd + 1) rfl, hd, hn]
  simp only [Except.bind, Bool.false_and, Bool.false_eq_true, if_false]
  have hp : [w].map (prepOne false 2 n) = [(⟨[n], fun _ => c⟩ : Arr K)] := by simp [prepOne, hw]
  rw [hp]
  have hb : broadcastShapes [[n, k]] = .ok [n, k] := by
    refine broadcastShapes_iff.2 ⟨by simp, ?_, ?_⟩
    · intro s hs p _
      rw [List.mem_singleton.1 hs]
      exact .inr rfl
    · intro q hq
      exact ⟨[n, k], by simp, by omega, by simp⟩
  have ho : outFromValues x [(⟨[n], fun _ => c⟩ : Arr K)] [m] (-((2 : ℕ) : ℤ)) none false
      = .ok [k, m + 1] := by
    have : outFromValues x [(⟨[n], fun _ => c⟩ : Arr K)] [m] (-((2 : ℕ) : ℤ)) none false
        = (broadcastShapes [[n, k]]).bind fun shape =>
          (normalizeAxisIndex (.int (-((2 : ℕ) : ℤ))) shape.length none).bind fun ax =>
            .ok (shape.take ax ++ shape.drop (ax + 1) ++ [m + 1]) := by
      simp [outFromValues, hx]
    rw [this, hb]
    rfl
  rw [ho]
  have hs : sampleOperands (valueOperands x [(⟨[n], fun _ => c⟩ : Arr K)] (-((2 : ℕ) : ℤ)))
      (sizeOf x (-((2 : ℕ) : ℤ))) = .ok [(x, 0), (⟨[n], fun _ => c⟩, 0)] := by
    have e1 : sizeOf x (-((2 : ℕ) : ℤ)) = n := rfl
    have e2 : sampleOperand (x, axisOfValue x (-((2 : ℕ) : ℤ))) = .ok (x, 0) := rfl
    have e3 : sampleOperand ((⟨[n], fun _ => c⟩ : Arr K),
        axisOfValue (⟨[n], fun _ => c⟩ : Arr K) (-((2 : ℕ) : ℤ))) = .ok (⟨[n], fun _ => c⟩, 0) := rfl
    unfold sampleOperands valueOperands
    rw [e1, List.map_cons, List.map_cons, List.map_nil, List.mapM_cons, List.mapM_cons, e2, e3]
    have e4 : List.all [(x, 0), ((⟨[n], fun _ => c⟩ : Arr K), 0)]
        (fun o => decide (sampleSize o = n)) = true := by
      simp [sampleSize, hx]
    show (if List.all [(x, 0), ((⟨[n], fun _ => c⟩ : Arr K), 0)]
        (fun o => decide (sampleSize o = n)) = true then _ else _) = _
    rw [if_pos e4]
    rfl
  simp only
  rw [hs]
  simp only
  unfold fillVals
  have hc : coreAxes [k, m + 1].length [0] = .ok [0] := rfl
  rw [hc]
  simp only [Except.bind]
  rw [if_neg (by simp)]
  have hl : (loopAxes [k, m + 1].length [0]).map (fun a => [k, m + 1].getD a 0) = [m + 1] := rfl
  rw [hl]
  cases hB : broadcastShapes ([m + 1] :: [] ++ [(x, 0), ((⟨[n], fun _ => c⟩ : Arr K), 0)].map
      (fun o => o.1.loopShape [o.2])) with
  | error e => rw [broadcastShapes_error hB]
  | ok loop =>
    simp only
    have hbc := broadcastShapes_iff.1 hB
    have hf := hbc.fits [k] (by
      simp only [List.map_cons]
      rw [show Arr.loopShape x [0] = [k] from rfl]
      simp) 0 (by simp)
    have hr : loop.length ≤ 1 := by
      by_contra hc
      obtain ⟨s, hs, h1, _⟩ := hbc.attained 0 (by omega)
      simp only [List.map_cons, List.map_nil, List.cons_append, List.nil_append,
        List.mem_cons, List.not_mem_nil, or_false] at hs
      rcases hs with rfl | rfl | rfl
      · simp at h1; omega
      · rw [show Arr.loopShape x [0] = [k] from rfl] at h1
        simp at h1; omega
      · rw [show Arr.loopShape (⟨[n], fun _ => c⟩ : Arr K) [0] = [] from rfl] at h1
        exact hc (le_trans h1 (by simp))
    have key : ∀ j, loop ≠ List.replicate j 1 ++ [m + 1] := by
      rintro j rfl
      obtain rfl : j = 0 := by simpa using hr
      simp at hf
      omega
    rw [if_pos (by simpa using key 0)]
    unfold widenError
    rw [if_neg (key _)]

-- six columns: refused; three columns, which is the number of moments: the moments come first
example := C54_mom_axes_not_last 2 6 2 (fun _ => (1 : ℚ)) 1 (by decide) (by decide)
example : entries (reduceValsNd value1 core1 family1 [2] [0] ⟨[2, 3], fun i => i 0 * 2 + i 1⟩
    [⟨[], fun _ => 1⟩] (.int 0)) [[0, 0], [1, 0], [1, 2], [2, 1]]
    = some ([3, 3], [some 2, some 1, some 3, some 1]) := by
  decide +kernel

end

section Ordered

variable {K V M : Type*} [Field K] [LinearOrder K] [IsStrictOrderedRing K]
variable {x : Arr K} {z : ℤ} {full : List ℕ}

/-- `rolling_vals`, centred or not: wherever the one-dimensional rolling average of the samples is
defined, the entries are those of its rows, a missing row being `nan`, except that
`zero_missing_weights` makes its weight zero. -/
theorem C54_rolling_vals (val : List K → V) {core : Core K M} {fam : List ℕ → Kernel K V M}
    {mom : List ℕ} (hm : mom.length = core.nd) (window : ℕ) (minPeriods : Option ℤ)
    (center zeroMissing : Bool) {w : Arr K} {ys : List (Arr K)} (hy : ys.length + 1 = core.nd)
    (g : GoodValues x (w :: ys) z full) (orderCF axesToEnd : Bool) :
    ∃ out, rollingValsNd val core fam mom (axesLast core.nd) window minPeriods center zeroMissing x
        (w :: ys) (.int z) orderCF axesToEnd = .ok out ∧
      out.shape = (rowsLayout full.length (full.length - fromEnd x z) core.nd axesToEnd).map
        (valuesSize full (full.length - fromEnd x z) (sampleCount x z) mom) ∧
      ∀ i, (∀ a ∈ rowsLayout full.length (full.length - fromEnd x z) core.nd axesToEnd,
          i a < valuesSize full (full.length - fromEnd x z) (sampleCount x z) mom a) →
        ∀ rows, (fam (mom.map (· + 1))).rollingVals (val (List.replicate core.nd 0)) window
            minPeriods center
            (samplesOver val x w ys full.length (full.length - fromEnd x z) (sampleCount x z) i)
              = some rows →
          out.get (along (rowsLayout full.length (full.length - fromEnd x z) core.nd axesToEnd) i) =
            match (rows[i (full.length - fromEnd x z)]?).join with
            | some r => some (core.ent r (momCoords full.length core.nd i))
            | none =>
              if zeroMissing = true ∧ ∀ m ∈ momCoords full.length core.nd i, m = 0 then some 0
              else none := by
  obtain ⟨out, h1, h2, h3⟩ := rollingValsNd_spec val (fam := fam) hm window minPeriods center
    zeroMissing hy g orderCF axesToEnd
  refine ⟨out, h1, h2, fun i hi rows hrows => ?_⟩
  rw [h3 i hi]
  beta_reduce
  rw [hrows]
  simp only [Option.bind_some]
  unfold zeroWeight
  cases (rows[i (full.length - fromEnd x z)]?).join with
  | some r => exact if_neg (by simp)
  | none => simp

example : entries (rollingValsNd value1 core1 family1 [2] [-1] 2 none false true exVals [exWeight1]
    (.int 1) false false) [[0, 0, 0, 0], [0, 0, 0, 1], [0, 1, 0, 0], [0, 1, 0, 1], [0, 2, 0, 1]]
    = some ([2, 3, 2, 3], [some 0, none, some 3, some (2 / 3), some (14 / 5)]) := by
  decide +kernel

example := C54_rolling_vals value1 (core := core1) (fam := family1) (mom := [2]) rfl 2 (some 1) true
  true rfl exVals_good1 false true
example := C54_rolling_vals value2 (core := core2) (fam := family2) (mom := [2, 1]) rfl 3 none false
  false rfl exVals_good2 true false

/-- `rolling_exp_vals`: likewise, with a decay constant that is a number, one number per sample or
an array that fits into the common shape of values and weight. -/
theorem C54_rolling_exp_vals (val : List K → V) {core : Core K M} {fam : List ℕ → Kernel K V M}
    {mom : List ℕ} (hm : mom.length = core.nd) (adjust : Bool) (minPeriods : Option ℤ)
    (zeroMissing : Bool) {w alpha : Arr K} {ys : List (Arr K)} (hy : ys.length + 1 = core.nd)
    (g : GoodValues x (w :: ys) z full) (ga : GoodValues x (w :: alpha :: ys) z full)
    (orderCF axesToEnd : Bool) :
    ∃ out, rollingExpValsNd val core fam mom (axesLast core.nd) adjust minPeriods zeroMissing x w
        alpha ys (.int z) orderCF axesToEnd = .ok out ∧
      out.shape = (rowsLayout full.length (full.length - fromEnd x z) core.nd axesToEnd).map
        (valuesSize full (full.length - fromEnd x z) (sampleCount x z) mom) ∧
      ∀ i, (∀ a ∈ rowsLayout full.length (full.length - fromEnd x z) core.nd axesToEnd,
          i a < valuesSize full (full.length - fromEnd x z) (sampleCount x z) mom a) →
        ∀ rows, (fam (mom.map (· + 1))).rollingExpVals adjust minPeriods
            ((List.range (sampleCount x z)).map
              (operandAt alpha full.length (full.length - fromEnd x z) i))
            (samplesOver val x w ys full.length (full.length - fromEnd x z) (sampleCount x z) i)
              = some rows →
          out.get (along (rowsLayout full.length (full.length - fromEnd x z) core.nd axesToEnd) i) =
            match (rows[i (full.length - fromEnd x z)]?).join with
            | some r => some (core.ent r (momCoords full.length core.nd i))
            | none =>
              if zeroMissing = true ∧ ∀ m ∈ momCoords full.length core.nd i, m = 0 then some 0
              else none := by
  obtain ⟨out, h1, h2, h3⟩ := rollingExpValsNd_spec val (fam := fam) hm adjust minPeriods
    zeroMissing hy g ga orderCF axesToEnd
  refine ⟨out, h1, h2, fun i hi rows hrows => ?_⟩
  rw [h3 i hi]
  beta_reduce
  rw [hrows]
  simp only [Option.bind_some]
  unfold zeroWeight
  cases (rows[i (full.length - fromEnd x z)]?).join with
  | some r => exact if_neg (by simp)
  | none => simp

example : entries (rollingExpValsNd value1 core1 family1 [2] [-1] true none false exVals exWeight1
    ⟨[], fun _ => 1 / 2⟩ [] (.int 1) false true)
    [[0, 0, 0, 0], [0, 0, 0, 1], [0, 0, 1, 0], [0, 0, 1, 1]]
    = some ([2, 2, 3, 3], [some 1, some 0, some (5 / 2), some (4 / 5)]) := by
  decide +kernel

example := C54_rolling_exp_vals value1 (core := core1) (fam := family1) (mom := [2]) rfl true none
  true rfl exVals_good1 exVals_goodAlpha false true

/-- Which calls of `rolling_vals` and `rolling_exp_vals` succeed. An array of decay constants may
not make the result wider: it has to fit into the common shape of values and weight. -/
theorem C54_rolling_accepts (val : List K → V) {core : Core K M} {fam : List ℕ → Kernel K V M}
    {mom : List ℕ} (hm : mom.length = core.nd) (hnd : core.nd ≠ 0) (window : ℕ)
    (minPeriods : Option ℤ) (adjust center zeroMissing : Bool) {w alpha : Arr K}
    {ys others : List (Arr K)} (hx : x.Proper) (hp : ∀ a ∈ others, a.Proper)
    (hpa : ∀ a ∈ w :: alpha :: ys, a.Proper) (orderCF axesToEnd : Bool) :
    ((∃ out, rollingValsNd val core fam mom (axesLast core.nd) window minPeriods center zeroMissing
        x others (.int z) orderCF axesToEnd = .ok out) ↔
      others.length = core.nd ∧ ∃ full, GoodValues x others z full) ∧
    ((∃ out, rollingExpValsNd val core fam mom (axesLast core.nd) adjust minPeriods zeroMissing x w
        alpha ys (.int z) orderCF axesToEnd = .ok out) ↔
      ys.length + 1 = core.nd ∧ ∃ full, GoodValues x (w :: ys) z full ∧
        GoodValues x (w :: alpha :: ys) z full) :=
  ⟨rollingValsNd_accepts val hm hnd window minPeriods center zeroMissing hx hp orderCF axesToEnd,
    rollingExpValsNd_accepts val hm adjust minPeriods zeroMissing hx hpa orderCF axesToEnd⟩

/-- An array of decay constants that would make the result wider is refused with `ValueError`,
although the same array as a weight widens the result. (With leading axes of size one only: not
settled.) -/
theorem C54_rolling_exp_alpha_wider (val : List K → V) {core : Core K M}
    {fam : List ℕ → Kernel K V M} {mom : List ℕ} (hm : mom.length = core.nd) (adjust : Bool)
    (minPeriods : Option ℤ) (zeroMissing : Bool) {w alpha : Arr K} {ys : List (Arr K)}
    (hy : ys.length + 1 = core.nd) {fullA : List ℕ} (g : GoodValues x (w :: ys) z full)
    (ga : GoodValues x (w :: alpha :: ys) z fullA) (hne : ∀ k, fullA ≠ List.replicate k 1 ++ full) (orderCF axesToEnd : Bool) :
    rollingExpValsNd val core fam mom (axesLast core.nd) adjust minPeriods zeroMissing x w alpha ys
        (.int z) orderCF axesToEnd = .error .valueError :=
  (rollingExpValsNd_refuses val hm adjust minPeriods zeroMissing hy g (ga.usable alpha (by simp))
    (fun h => hne 0 (IsBroadcast_unique ga.common h.common)) orderCF axesToEnd).2
    fun k h => hne k (IsBroadcast_unique ga.common h.common)

example : entries (rollingExpValsNd value1 core1 family1 [2] [-1] true none false exVals exWeight1
    exWeight4 [] (.int 1) false true) [] = none := by
  decide +kernel

example := C54_rolling_exp_alpha_wider value1 (core := core1) (fam := family1) (mom := [2]) rfl true
  none false rfl exVals_good1 exVals_goodAlpha4 (by
    intro k h
    have hl := congrArg List.length h
    simp at hl
    obtain rfl : k = 1 := by omega
    revert h
    decide) false true

end Ordered

end Cmomy
