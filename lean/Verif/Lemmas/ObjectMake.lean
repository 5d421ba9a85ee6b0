import Verif.Lemmas.ObjectMethods
import Verif.Lemmas.ObjectStats
import Verif.Lemmas.ValsMain
import Verif.Model.ObjectMake
import Verif.Spec.ObjectMake

/-!
# Array objects made from values and raw moments
-/

set_option linter.unusedSectionVars false

namespace Cmomy

open Spec Nd Axes Validate ObjectMake

section Operands

variable {K V M ι σ : Type*} [Field K] [DecidableEq K] {x w : Arr K} {others ys : List (Arr K)} {z : ℤ} {full : List ℕ}

theorem _root_.Cmomy.Spec.GoodValues.axis_lt (g : GoodValues x others z full) :
    full.length - fromEnd x z < full.length := by
  obtain ⟨h1, _, h3⟩ := g.d_le
  omega

theorem _root_.Cmomy.Spec.GoodValues.facts (g : GoodValues x others z full) {a : Arr K}
    (ha : a = x ∨ a ∈ others) : a.Proper ∧ a.shape.length ≤ full.length := by
  obtain ⟨h1, h2, h3⟩ := g.d_le
  rcases ha with rfl | ha
  · exact ⟨g.proper, g.common.rank _ (by simp [wideShapes])⟩
  · refine ⟨(g.usable a ha).1, ?_⟩
    by_cases h : 1 < a.shape.length
    · refine g.common.rank _ (List.mem_cons_of_mem _ (List.mem_map.2 ⟨a, ?_, rfl⟩))
      exact List.mem_filter.2 ⟨ha, by simpa using h⟩
    · omega

/-- A weight or further value is read within its bounds. -/
theorem operandAt_within (g : GoodValues x others z full) {a : Arr K} (ha : a ∈ others) {i : ℕ → ℕ}
    (hi : ∀ q < full.length, q ≠ full.length - fromEnd x z → i q < full.getD q 0) {s : ℕ}
    (hs : s < sampleCount x z) :
    ∃ j, InBounds a.shape j ∧
      operandAt a full.length (full.length - fromEnd x z) i s = a.get j := by
  obtain ⟨h1, h2, h3⟩ := g.d_le
  obtain ⟨hp, hu⟩ := g.usable a ha
  unfold operandAt
  rcases hu with h | ⟨h, hc⟩ | ⟨h, hd, hc⟩
  · rw [if_pos h]
    exact ⟨_, fun ax hax => by omega, rfl⟩
  · rw [if_neg (by omega), if_pos h]
    refine ⟨_, fun ax hax => ?_, rfl⟩
    obtain rfl : ax = 0 := by omega
    unfold axisSize at hc
    rw [hc]; exact hs
  · rw [if_neg (by omega), if_neg (by omega)]
    refine ⟨_, fun p hp' => ?_, rfl⟩
    have hmem : a.shape ∈ wideShapes x others :=
      List.mem_cons_of_mem _ (List.mem_map.2 ⟨a, List.mem_filter.2 ⟨ha, by simp; omega⟩, rfl⟩)
    have hl := g.common.rank _ hmem
    show (if p + (full.length - a.shape.length) = full.length - fromEnd x z then s else
      if axisSize a p = 1 then 0 else i (p + (full.length - a.shape.length))) < _
    by_cases e : p + (full.length - a.shape.length) = full.length - fromEnd x z
    · rw [if_pos e]
      obtain rfl : p = a.shape.length - fromEnd x z := by omega
      unfold axisSize at hc
      rw [hc]; exact hs
    · rw [if_neg e]
      by_cases e1 : axisSize a p = 1
      · rw [if_pos e1]
        unfold axisSize at e1
        omega
      · rw [if_neg e1]
        rcases g.common.fits _ hmem p hp' with h' | h'
        · exact absurd h' e1
        · rw [h']
          exact hi _ (by omega) e

theorem samplesOver_congr (val : List K → V) (g : GoodValues x (w :: ys) z full) {i j : ℕ → ℕ}
    (h : ∀ a < full.length, i a = j a) (ax count : ℕ) :
    samplesOver val x w ys full.length ax count i = samplesOver val x w ys full.length ax count j := by
  unfold samplesOver
  refine List.map_congr_left fun s _ => ?_
  have key : ∀ a, (a = x ∨ a ∈ w :: ys) →
      operandAt a full.length ax i s = operandAt a full.length ax j s := fun a ha =>
    operandAt_congr (g.facts ha).1 (g.facts ha).2 h s
  rw [key w (by simp)]
  congr 2
  refine List.map_congr_left fun a ha => key a ?_
  rcases List.mem_cons.1 ha with rfl | ha
  · exact .inl rfl
  · exact .inr (by simp [ha])

theorem samplesOver_nonneg [LinearOrder K] (val : List K → V)
    (g : GoodValues x (w :: ys) z full) (hw : NonNeg w) {i : ℕ → ℕ}
    (hi : ∀ q < full.length, q ≠ full.length - fromEnd x z → i q < full.getD q 0) :
    ∀ p ∈ samplesOver val x w ys full.length (full.length - fromEnd x z) (sampleCount x z) i,
      0 ≤ p.2 := by
  intro p hp
  obtain ⟨s, hs, rfl⟩ := List.mem_map.1 hp
  obtain ⟨j, h1, h2⟩ := operandAt_within g (a := w) (by simp) hi (List.mem_range.1 hs)
  show 0 ≤ operandAt w _ _ _ _
  rw [h2]
  exact hw j h1

theorem valuesSize_kept {full : List ℕ} {ax count : ℕ} {mom : List ℕ} {a : ℕ} (h : a < full.length) :
    valuesSize full ax count mom a = if a = ax then count else full.getD a 0 := by
  unfold valuesSize
  rw [if_pos h]

theorem valuesSize_mom {full : List ℕ} {ax count : ℕ} (hax : ax < full.length) (mom : List ℕ) (j : ℕ) :
    valuesSize full ax count mom (full.length + j) = (mom.map (· + 1)).getD j 0 := by
  unfold valuesSize
  rw [if_neg (by omega), if_neg (by omega), Nat.add_sub_cancel_left]

end Operands

section Values

variable {K V M ι σ : Type*} [Field K] [LinearOrder K] [IsStrictOrderedRing K]
  {k : Kernel K V M} {law : Lawful k ι} {H : List σ → M → Prop} {wt : List σ → K}
  {scaled : K → σ → σ} {smp : V → K → σ}

/-- Values stand for samples: one value is the record of one sample. -/
theorem Meaning.of_value (T : Meaning k law H wt scaled) (h1 : ∀ v c, T.raw [smp v c] = c • law.vraw v)
    (v : V) (c : K) : H [smp v c] (k.ofVal v c) := by
  rw [T.iff, h1, law.raw_ofVal]

theorem Meaning.of_values (T : Meaning k law H wt scaled)
    (h1 : ∀ v c, T.raw [smp v c] = c • law.vraw v) (xs : List (V × K)) :
    List.Forall₂ H (xs.map (fun p => [smp p.1 p.2])) (xs.map (fun p => k.ofVal p.1 p.2)) := by
  induction xs with
  | nil => exact .nil
  | cons p xs ih => exact .cons (T.of_value h1 p.1 p.2) ih

theorem flatten_singles {α β : Type*} (f : α → β) (l : List α) :
    (l.map (fun a => [f a])).flatten = l.map f := by
  induction l with
  | nil => rfl
  | cons a l ih => simp [ih]

theorem Meaning.weight_value (T : Meaning k law H wt scaled)
    (h1 : ∀ v c, T.raw [smp v c] = c • law.vraw v) (v : V) (c : K) : wt [smp v c] = c := by
  rw [← T.cell_weight (T.of_value h1 v c), law.weight_ofVal]

theorem Meaning.values_nonneg (T : Meaning k law H wt scaled)
    (h1 : ∀ v c, T.raw [smp v c] = c • law.vraw v) {xs : List (V × K)} (hx : ∀ p ∈ xs, 0 ≤ p.2) :
    ∀ A ∈ xs.map (fun p => [smp p.1 p.2]), 0 ≤ wt A := by
  intro A hA
  obtain ⟨p, hp, rfl⟩ := List.mem_map.1 hA
  show 0 ≤ wt [smp p.1 p.2]
  rw [T.weight_value h1]
  exact hx p hp

theorem Meaning.reduce_values (T : Meaning k law H wt scaled)
    (h1 : ∀ v c, T.raw [smp v c] = c • law.vraw v) {xs : List (V × K)} (hx : ∀ p ∈ xs, 0 ≤ p.2) :
    ∃ r, k.reduceValsFromZero xs = some r ∧ H (xs.map (fun p => smp p.1 p.2)) r := by
  obtain ⟨r, e, hr⟩ := T.reduce (T.of_values h1 xs) (T.values_nonneg h1 hx)
  refine ⟨r, ?_, ?_⟩
  · rw [← e]
    unfold Kernel.reduceValsFromZero Kernel.reduceDataFromZero
    exact law.reduceVals_eq_reduceData xs k.zero
  · rwa [flatten_singles (fun p : V × K => smp p.1 p.2) xs] at hr

theorem Meaning.resample_values (T : Meaning k law H wt scaled)
    (h1 : ∀ v c, T.raw [smp v c] = c • law.vraw v) (h2 : ∀ f v c, smp v (c * f) = scaled f (smp v c))
    {xs : List (V × K)} (hx : ∀ p ∈ xs, 0 ≤ p.2) {freq : List (List K)}
    (hf : ∀ fs ∈ freq, ∀ f ∈ fs, 0 ≤ f) {j : ℕ} (hj : j < freq.length) :
    ∃ r, ((k.resampleVals freq xs)[j]?).join = some r ∧
      H (((freq.getD j []).zip xs).map (fun p => scaled p.1 (smp p.2.1 p.2.2))) r := by
  have e := law.resampleValsRow_eq_reduceVals (freq[j].zip xs) k.zero
  obtain ⟨r, hr, h⟩ := T.reduce_values h1 (xs := (freq[j].zip xs).map (fun p => (p.2.1, p.2.2 * p.1)))
    (by
      intro q hq
      obtain ⟨p, hp, rfl⟩ := List.mem_map.1 hq
      exact mul_nonneg (hx _ (List.of_mem_zip hp).2)
        (hf _ (List.getElem_mem hj) _ (List.of_mem_zip hp).1))
  refine ⟨r, ?_, ?_⟩
  · rw [← hr, Kernel.reduceValsFromZero, ← e]
    simp [Kernel.resampleVals, hj]
  · rw [List.getD_eq_getElem _ _ hj]
    rw [List.map_map] at h
    have : (freq[j].zip xs).map (fun p => scaled p.1 (smp p.2.1 p.2.2))
        = (freq[j].zip xs).map ((fun p => smp p.1 p.2) ∘ fun p => (p.2.1, p.2.2 * p.1)) :=
      List.map_congr_left fun p _ => (h2 p.1 p.2.1 p.2.2).symm
    rw [this]
    exact h

variable {core : Core K M} {x w : Arr K} {ys : List (Arr K)} {z : ℤ} {full : List ℕ} {val : List K → V}
  {fam : List ℕ → Kernel K V M} {mom : List ℕ}

/-- `reduce_vals`, in terms of samples. -/
theorem Meaning.reduceVals_stands (T : Meaning k law H wt scaled)
    (h1 : ∀ v c, T.raw [smp v c] = c • law.vraw v) (hk : fam (mom.map (· + 1)) = k)
    (hm : mom.length = core.nd) (hy : ys.length + 1 = core.nd) (g : GoodValues x (w :: ys) z full)
    (hw : NonNeg w) :
    ∃ out, reduceValsNd val core fam mom (axesLast core.nd) x (w :: ys) (.int z) = .ok out ∧
      ResultStands core H out
        ((keptAxes full.length [full.length - fromEnd x z]).map (full.getD · 0)) (mom.map (· + 1))
        (fun i => (samplesOver val x w ys full.length (full.length - fromEnd x z) (sampleCount x z)
          (readAs (keptAxes full.length [full.length - fromEnd x z]) i)).map
            (fun p => smp p.1 p.2)) := by
  obtain ⟨out, e, hl, _⟩ := reduceValsNd_spec val (fam := fam) hm hy g
  have hax := g.axis_lt
  refine ⟨out, e, ?_⟩
  have hkept : ∀ a ∈ keptAxes full.length [full.length - fromEnd x z],
      a < full.length ∧ a ≠ full.length - fromEnd x z := by
    intro a ha
    simpa [keptAxes] using ha
  have hsize : (keptAxes full.length [full.length - fromEnd x z]).map (full.getD · 0)
      = (keptAxes full.length [full.length - fromEnd x z]).map
        (valuesSize full (full.length - fromEnd x z) 0 mom) := by
    refine List.map_congr_left fun a ha => ?_
    rw [valuesSize_kept (hkept a ha).1, if_neg (hkept a ha).2]
  rw [hsize]
  have hlen : (mom.map (· + 1)).length = core.nd := by rw [List.length_map, hm]
  refine resultStands_of_shows (nv := full.length)
    (F := fun i => ((fam (mom.map (· + 1))).reduceValsFromZero
            (samplesOver val x w ys full.length (full.length - fromEnd x z) (sampleCount x z) i)).map
            (fun r => core.ent r (momCoords full.length core.nd i)))
    (R := fun i => k.reduceValsFromZero
            (samplesOver val x w ys full.length (full.length - fromEnd x z) (sampleCount x z) i))
    (L := fun i => (samplesOver val x w ys full.length (full.length - fromEnd x z) (sampleCount x z)
          i).map (fun p => smp p.1 p.2))
    ?_ (List.nodup_range.filter _) (fun a ha => (hkept a ha).1)
    (fun j _ => valuesSize_mom hax mom j) (fun i => ?_) (fun i j hij => ?_) (fun i hi => ?_)
  · rw [hlen]
    exact ⟨hl.1, fun i _ => hl.2 i⟩
  · rw [hk, hlen]; rfl
  · rw [samplesOver_congr val g hij]
  · refine T.reduce_values h1 (samplesOver_nonneg val g hw fun q hq hne => ?_)
    have := hi q (by simpa [keptAxes] using ⟨hq, hne⟩)
    rwa [valuesSize_kept hq, if_neg hne] at this

/-- `resample_vals`, in terms of samples. -/
theorem Meaning.resampleVals_stands (T : Meaning k law H wt scaled)
    (h1 : ∀ v c, T.raw [smp v c] = c • law.vraw v) (h2 : ∀ f v c, smp v (c * f) = scaled f (smp v c))
    (hk : fam (mom.map (· + 1)) = k)
    (hm : mom.length = core.nd) (hy : ys.length + 1 = core.nd) (g : GoodValues x (w :: ys) z full)
    (hw : NonNeg w) {freq : List (List K)} (hf : ∀ fs ∈ freq, ∀ f ∈ fs, 0 ≤ f)
    (orderCF axesToEnd : Bool) :
    ∃ out, resampleValsNd val core fam mom (axesLast core.nd) freq (sampleCount x z) x (w :: ys)
        (.int z) orderCF axesToEnd = .ok out ∧
      ResultStands core H out
        ((axesOfResult full.length (full.length - fromEnd x z) axesToEnd).map (fun a =>
          if a = full.length - fromEnd x z then freq.length else full.getD a 0)) (mom.map (· + 1))
        (fun i => ((freq.getD (readAs
              (axesOfResult full.length (full.length - fromEnd x z) axesToEnd) i
                (full.length - fromEnd x z)) []).zip
            (samplesOver val x w ys full.length (full.length - fromEnd x z) (sampleCount x z)
              (readAs (axesOfResult full.length (full.length - fromEnd x z) axesToEnd) i))).map
          (fun p => scaled p.1 (smp p.2.1 p.2.2))) := by
  obtain ⟨out, e, hl⟩ := resampleValsNd_spec val (fam := fam) hm freq hy g orderCF axesToEnd
  have hax := g.axis_lt
  refine ⟨out, e, ?_⟩
  have hperm := axesOfResult_perm hax axesToEnd
  have hmem : ∀ a, a ∈ axesOfResult full.length (full.length - fromEnd x z) axesToEnd ↔
      a < full.length := fun a => by rw [hperm.mem_iff, List.mem_range]
  have hsize : (axesOfResult full.length (full.length - fromEnd x z) axesToEnd).map (fun a =>
        if a = full.length - fromEnd x z then freq.length else full.getD a 0)
      = (axesOfResult full.length (full.length - fromEnd x z) axesToEnd).map
        (valuesSize full (full.length - fromEnd x z) freq.length mom) := by
    refine List.map_congr_left fun a ha => ?_
    rw [valuesSize_kept ((hmem a).1 ha)]
  rw [hsize]
  have hlen : (mom.map (· + 1)).length = core.nd := by rw [List.length_map, hm]
  refine resultStands_of_shows (nv := full.length)
    (F := fun i => (((fam (mom.map (· + 1))).resampleVals freq
            (samplesOver val x w ys full.length (full.length - fromEnd x z) (sampleCount x z) i))[
              i (full.length - fromEnd x z)]?).join.map
            (fun r => core.ent r (momCoords full.length core.nd i)))
    (R := fun i => ((k.resampleVals freq
            (samplesOver val x w ys full.length (full.length - fromEnd x z) (sampleCount x z) i))[
              i (full.length - fromEnd x z)]?).join)
    (L := fun i => ((freq.getD (i (full.length - fromEnd x z)) []).zip
            (samplesOver val x w ys full.length (full.length - fromEnd x z) (sampleCount x z) i)).map
          (fun p => scaled p.1 (smp p.2.1 p.2.2)))
    ?_ (hperm.nodup_iff.2 List.nodup_range) (fun a ha => (hmem a).1 ha)
    (fun j _ => valuesSize_mom hax mom j) (fun i => ?_) (fun i j hij => ?_) (fun i hi => ?_)
  · rw [hlen]
    have : rowsLayout full.length (full.length - fromEnd x z) core.nd axesToEnd
        = axesOfResult full.length (full.length - fromEnd x z) axesToEnd
          ++ (List.range core.nd).map (fun j => full.length + j) := by
      unfold rowsLayout axesOfResult
      cases axesToEnd
      · simp [List.range_add]
      · simp
    rw [← this]
    exact hl
  · rw [hk, hlen]; rfl
  · rw [samplesOver_congr val g hij, hij _ hax]
  · refine T.resample_values h1 h2 (samplesOver_nonneg val g hw fun q hq hne => ?_) hf ?_
    · have := hi q ((hmem q).2 hq)
      rwa [valuesSize_kept hq, if_neg hne] at this
    · have := hi _ ((hmem _).2 hax)
      rwa [valuesSize_kept hax, if_pos rfl] at this

end Values

end Cmomy
