import Verif.Lemmas.Resample
import Verif.Lemmas.Freq
import Verif.Props.Merge

/-!
# C03 (reductions), C19-C24, C51: reductions of arrays, resampling, jackknife, cumulative
-/

namespace Cmomy

open Spec

/-! ## C19: frequencies and indices -/

open Freq in
/-- **C19.** `freq_to_indices` followed by `indices_to_freq` returns the table, whatever the
uninitialised memory held. The indices are the positions, each repeated as often as the
frequency says. -/
theorem C19_freq_roundtrip (junk : ℕ → ℕ → ℕ) (freq : List (List ℕ)) (ndat nsamp : ℕ)
    (hne : freq ≠ []) (hs : 0 < nsamp) (hrow : ∀ f ∈ freq, f.length = ndat ∧ f.sum = nsamp) :
    ∃ idx, freqToIndices junk freq = .ok idx ∧ idx = freq.map positions ∧
      (∀ r ∈ idx, r.length = nsamp ∧ ∀ i ∈ r, i < ndat) ∧
      indicesToFreq (idx.map (fun r => r.map Int.ofNat)) nsamp (some ndat) = .ok freq := by
  have hlt : ∀ f ∈ freq, ∀ i ∈ positions f, i < ndat := by
    intro f hf i hi
    rw [positions_eq] at hi
    have := (mem_posFrom hi).2
    rw [(hrow f hf).1] at this
    omega
  have hlen : ∀ f ∈ freq, (positions f).length = nsamp := by
    intro f hf
    rw [positions_eq, length_posFrom, (hrow f hf).2]
  refine ⟨freq.map positions, ?_, rfl, ?_, ?_⟩
  · obtain ⟨f0, fs, rfl⟩ := List.exists_cons_of_ne_nil hne
    have h0 := (hrow f0 List.mem_cons_self).2
    have hany : ((f0 :: fs).map List.sum).any (fun n => decide (n ≠ f0.sum)) = false := by
      rw [List.any_eq_false]
      intro n hn
      obtain ⟨f, hf, rfl⟩ := List.mem_map.1 hn
      simp [(hrow f hf).2, h0]
    unfold freqToIndices
    simp only [List.map_cons] at hany ⊢
    rw [if_neg (by simp only [hany]; decide)]
    congr 1
    rw [← List.map_cons]
    apply List.ext_getElem
    · simp
    · intro i h1 h2
      simp only [List.getElem_mapIdx, List.getElem_map]
      rw [freqToIndicesRow_eq]
      have hm := (hrow _ (List.getElem_mem (by simpa using h1))).2
      simp [h0, hm]
  · intro r hr
    obtain ⟨f, hf, rfl⟩ := List.mem_map.1 hr
    exact ⟨hlen f hf, hlt f hf⟩
  · unfold indicesToFreq
    have hfl : ∀ i : ℤ, i ∈ ((freq.map positions).map (fun r => r.map Int.ofNat)).flatten →
        (0 : ℤ) ≤ i ∧ i < ndat := by
      intro i hi
      simp only [List.mem_flatten, List.mem_map] at hi
      obtain ⟨l, ⟨a, ⟨f, hf, rfl⟩, rfl⟩, hi⟩ := hi
      obtain ⟨j, hj, rfl⟩ := List.mem_map.1 hi
      have := hlt f hf j hj
      simp only [Int.ofNat_eq_natCast]
      omega
    rw [if_neg, if_neg]
    · simp only [Option.getD_some]
      rw [rows_eq_some (g := fun r => counts ndat (r.map (fun i => (i % (ndat : ℤ)).toNat)))]
      · simp only [List.map_map]
        congr 1
        conv_rhs => rw [← List.map_id freq]
        refine List.map_congr_left fun f hf => ?_
        simp only [Function.comp_apply, List.map_map, id]
        have : (positions f).map ((fun i : ℤ => (i % (ndat : ℤ)).toNat) ∘ Int.ofNat) =
            positions f := by
          conv_rhs => rw [← List.map_id (positions f)]
          refine List.map_congr_left fun i hi => ?_
          have hi' := hlt f hf i hi
          simp only [Function.comp_apply, Int.ofNat_eq_natCast, id]
          rw [Int.emod_eq_of_lt (by omega) (by omega)]
          simp
        rw [this]
        have := counts_positions f
        rwa [(hrow f hf).1] at this
      · intro r hr
        refine indicesToFreqRow_zero r fun i hi => ?_
        have := hfl i (List.mem_flatten.2 ⟨r, hr, hi⟩)
        omega
    · simp only [Option.getD_some, List.any_eq_true, decide_eq_true_eq, not_exists, not_and]
      intro i hi
      have := hfl i hi
      omega
    · obtain ⟨f0, fs, rfl⟩ := List.exists_cons_of_ne_nil hne
      intro he
      have hl := congrArg List.length he
      have := hlen f0 List.mem_cons_self
      simp [this] at hl
      omega

open Freq in
/-- **C19.** `indices_to_freq` counts, its rows sum to the number of drawn samples, and going back
gives each row sorted. Negative indices (down to `-ndat`) are silently counted from the end. -/
theorem C19_indices_roundtrip (junk : ℕ → ℕ → ℕ) (idx : List (List ℤ)) (ndat nsamp : ℕ)
    (hne : idx ≠ []) (hs : 0 < nsamp)
    (hrow : ∀ r ∈ idx, r.length = nsamp ∧ ∀ i ∈ r, -(ndat : ℤ) ≤ i ∧ i < ndat) :
    ∃ freq, indicesToFreq idx nsamp (some ndat) = .ok freq ∧
      freq = idx.map (fun r => counts ndat (r.map (fun i => (i % (ndat : ℤ)).toNat))) ∧
      (∀ f ∈ freq, f.length = ndat ∧ f.sum = nsamp) ∧
      ∃ idx', freqToIndices junk freq = .ok idx' ∧
        List.Forall₂ (fun r' r => r'.Pairwise (· ≤ ·) ∧
          r'.Perm (r.map (fun i => (i % (ndat : ℤ)).toNat))) idx' idx := by
  have hlt : ∀ r ∈ idx, ∀ i ∈ r.map (fun i => (i % (ndat : ℤ)).toNat), i < ndat := by
    intro r hr i hi
    obtain ⟨j, hj, rfl⟩ := List.mem_map.1 hi
    have h := (hrow r hr).2 j hj
    exact (wrapIndex_eq h.1 h.2).2
  have hprop : ∀ f ∈ idx.map (fun r => counts ndat (r.map (fun i => (i % (ndat : ℤ)).toNat))),
      f.length = ndat ∧ f.sum = nsamp := by
    intro f hf
    obtain ⟨r, hr, rfl⟩ := List.mem_map.1 hf
    exact ⟨by simp [counts], by rw [sum_counts (hlt r hr), List.length_map, (hrow r hr).1]⟩
  refine ⟨_, ?_, rfl, hprop, ?_⟩
  · unfold indicesToFreq
    rw [if_neg, if_neg]
    · simp only [Option.getD_some]
      rw [rows_eq_some (g := fun r => counts ndat (r.map (fun i => (i % (ndat : ℤ)).toNat)))]
      intro r hr
      exact indicesToFreqRow_zero r (hrow r hr).2
    · simp only [Option.getD_some, List.any_eq_true, decide_eq_true_eq, not_exists, not_and]
      intro i hi
      obtain ⟨r, hr, hi⟩ := List.mem_flatten.1 hi
      have := (hrow r hr).2 i hi
      omega
    · obtain ⟨f0, fs, rfl⟩ := List.exists_cons_of_ne_nil hne
      intro he
      have hl := congrArg List.length he
      have := (hrow f0 List.mem_cons_self).1
      simp [this] at hl
      omega
  · obtain ⟨idx', e, rfl, -, -⟩ := C19_freq_roundtrip junk _ ndat nsamp (by simpa using hne) hs hprop
    refine ⟨_, e, ?_⟩
    rw [List.map_map, List.forall₂_map_left_iff, List.forall₂_same]
    intro r hr
    simp only [Function.comp_apply]
    refine ⟨?_, count_counts_perm (hlt r hr)⟩
    rw [positions_eq]
    exact sorted_posFrom _ _

open Freq in
/-- **C19.** Shuffling rows (`shuffle=True`) does not change the counted table. -/
theorem C19_shuffle_invariant (idx idx' : List (List ℤ)) (ndat nsamp : ℕ)
    (hp : List.Forall₂ List.Perm idx idx')
    (hrow : ∀ r ∈ idx, ∀ i ∈ r, -(ndat : ℤ) ≤ i) :
    indicesToFreq idx nsamp (some ndat) = indicesToFreq idx' nsamp (some ndat) := by
  have hfl : idx.flatten.Perm idx'.flatten := by
    induction hp with
    | nil => exact List.Perm.refl _
    | cons h _ ih =>
      simp only [List.flatten_cons]
      exact h.append (ih (fun r hr => hrow r (List.mem_cons_of_mem _ hr)))
  unfold indicesToFreq
  simp only [Option.getD_some]
  have hnil : (idx.flatten = []) ↔ (idx'.flatten = []) := by
    constructor
    · intro h; rw [h] at hfl; exact hfl.symm.eq_nil
    · intro h; rw [h] at hfl; exact hfl.eq_nil
  have hany : idx.flatten.any (fun i => decide ((ndat : ℤ) ≤ i)) =
      idx'.flatten.any (fun i => decide ((ndat : ℤ) ≤ i)) := by
    rw [Bool.eq_iff_iff]
    simp only [List.any_eq_true]
    constructor
    · rintro ⟨x, hx, h⟩; exact ⟨x, hfl.mem_iff.1 hx, h⟩
    · rintro ⟨x, hx, h⟩; exact ⟨x, hfl.mem_iff.2 hx, h⟩
  simp only [hnil, ← hany]
  split_ifs with h1 h2
  · rfl
  · rfl
  · have hlt : ∀ i ∈ idx.flatten, i < (ndat : ℤ) := by
      intro i hi
      by_contra hc
      apply h2
      rw [List.any_eq_true]
      exact ⟨i, hi, by simpa using hc⟩
    have hrows : rows (fun r => indicesToFreqRow r (List.replicate ndat 0)) idx =
        rows (fun r => indicesToFreqRow r (List.replicate ndat 0)) idx' := by
      clear hnil hany h1 h2 hfl
      induction hp with
      | nil => rfl
      | @cons a b l l' h _ ih =>
        have ha : ∀ i ∈ a, -(ndat : ℤ) ≤ i ∧ i < ndat := fun i hi =>
          ⟨hrow a List.mem_cons_self i hi, hlt i (by simp [hi])⟩
        rw [rows, rows, ih (fun r hr => hrow r (List.mem_cons_of_mem _ hr))
          (fun i hi => hlt i (by
            rw [List.flatten_cons, List.mem_append]; exact Or.inr hi)),
          indicesToFreqRow_zero a ha,
          indicesToFreqRow_zero b (fun i hi => ha i (h.mem_iff.2 hi)),
          counts_perm (h.map _)]
    rw [hrows]

open Freq in
/-- **C19.** What is rejected: rows with different numbers of samples, an index beyond the data,
and (although a table of empty draws is consistent) any table of zero draws. An index below
`-ndat` is *not* rejected: compiled code writes outside the array. -/
theorem C19_rejections (junk : ℕ → ℕ → ℕ) (nsamp ndat : ℕ) :
    (∀ freq : List (List ℕ), (∃ f ∈ freq, ∃ g ∈ freq, f.sum ≠ g.sum) →
      freqToIndices junk freq = .error .valueError) ∧
    (∀ idx : List (List ℤ), (∃ r ∈ idx, ∃ i ∈ r, (ndat : ℤ) ≤ i) →
      indicesToFreq idx nsamp (some ndat) = .error .valueError) ∧
    (∀ idx : List (List ℤ), (∀ r ∈ idx, r = []) →
      indicesToFreq idx nsamp (some ndat) = .error .valueError) ∧
    (∀ idx : List (List ℤ), (∀ r ∈ idx, ∀ i ∈ r, i < (ndat : ℤ)) →
      (∃ r ∈ idx, ∃ i ∈ r, i < -(ndat : ℤ)) →
      indicesToFreq idx nsamp (some ndat) = .error .undefined) := by
  refine ⟨?_, ?_, ?_, ?_⟩
  · rintro freq ⟨f, hf, g, hg, hfg⟩
    cases freq with
    | nil => simp at hf
    | cons f0 fs =>
      unfold freqToIndices
      simp only [List.map_cons]
      rw [if_pos]
      rw [← List.map_cons, List.any_eq_true]
      by_cases h : f.sum = f0.sum
      · exact ⟨g.sum, List.mem_map_of_mem hg, by simpa [← h] using Ne.symm hfg⟩
      · exact ⟨f.sum, List.mem_map_of_mem hf, by simpa using h⟩
  · rintro idx ⟨r, hr, i, hi, h⟩
    have hm : i ∈ idx.flatten := List.mem_flatten.2 ⟨r, hr, hi⟩
    unfold indicesToFreq
    rw [if_neg (by intro he; rw [he] at hm; simp at hm), if_pos]
    rw [List.any_eq_true]
    exact ⟨i, hm, by simpa using h⟩
  · intro idx h
    unfold indicesToFreq
    rw [if_pos]
    simpa using h
  · rintro idx hlt ⟨r, hr, i, hi, h⟩
    have hm : i ∈ idx.flatten := List.mem_flatten.2 ⟨r, hr, hi⟩
    unfold indicesToFreq
    rw [if_neg (by intro he; rw [he] at hm; simp at hm), if_neg]
    · simp only [Option.getD_some]
      rw [rows_eq_none ⟨r, hr, indicesToFreqRow_none (n := ndat) r _ (by simp) (hlt r hr) ⟨i, hi, h⟩⟩]
    · simp only [Option.getD_some, List.any_eq_true, decide_eq_true_eq, not_exists, not_and]
      intro j hj
      obtain ⟨r', hr', hj⟩ := List.mem_flatten.1 hj
      have := hlt r' hr' j hj
      omega

example : ∃ idx, Freq.freqToIndices (fun r i => 100 * r + i) [[2, 0, 1], [0, 3, 0]] = .ok idx ∧
    idx = [[0, 0, 2], [1, 1, 1]] := ⟨_, by decide +kernel, rfl⟩
example : Freq.indicesToFreq [[2, 0, 0], [1, -2, 1]] 3 (some 3) = .ok [[2, 0, 1], [0, 3, 0]] := by
  decide +kernel
example : ∀ f ∈ [[2, 0, 1], [0, 3, 0]], f.length = 3 ∧ f.sum = 3 := by decide

section field

variable {K : Type*} [Field K] [DecidableEq K] [CharZero K]

/-! ## C03: reductions of arrays against the samples they stand for -/

/-- **C03**, any number of arrays: the reduction stands for all samples together. -/
theorem C03_reduce_data_holds {order : ℕ} (ho : 1 ≤ order) (Ls : List (List (Sample K)))
    (data : List (Mom K)) (hd : List.Forall₂ (Holds order) Ls data) (out : Mom K)
    (e : (kernel1 order).reduceDataFromZero data = some out) : Holds order Ls.flatten out := by
  rw [holds_iff_raw ho]
  intro n
  have e' := (lawful1 (K := K) order ho).reduceData_raw e
  rw [e', (lawful1 (K := K) order ho).raw_zero, zero_add]
  clear e e'
  induction hd with
  | nil => rfl
  | @cons L d Ls data h _ ih =>
    rw [(lawful1 (K := K) order ho).rsum_cons, Pi.add_apply, ih, (holds_iff_raw ho).1 h n,
      List.flatten_cons, wsum_append]

/-- **C03**, any number of comoment arrays. -/
theorem C03_reduce_data_holds_cov {o0 o1 : ℕ} (h0 : 1 ≤ o0) (h1 : 1 ≤ o1)
    (Ls : List (List (Sample2 K)))
    (data : List (Com K)) (hd : List.Forall₂ (Holds2 o0 o1) Ls data) (out : Com K)
    (e : (kernel2 o0 o1).reduceDataFromZero data = some out) :
    Holds2 o0 o1 Ls.flatten out := by
  rw [holds2_iff_raw h0 h1]
  intro n
  have e' := (lawful2 (K := K) o0 o1 h0 h1).reduceData_raw e
  rw [e', (lawful2 (K := K) o0 o1 h0 h1).raw_zero, zero_add]
  clear e e'
  induction hd with
  | nil => rfl
  | @cons L d Ls data h _ ih =>
    rw [(lawful2 (K := K) o0 o1 h0 h1).rsum_cons, Pi.add_apply, ih, (holds2_iff_raw h0 h1).1 h n,
      List.flatten_cons, wsum2_append]

/-! ## C51: values turned into arrays -/

omit [DecidableEq K] [CharZero K] in
/-- **C51.** `vals_to_data` rows are the moment arrays of single weighted values. -/
theorem C51_row_is_single_value (order : ℕ) (x w : K) (hw : w ≠ 0) :
    IsMoments order [⟨w, x⟩] (valToData x w) := by
  have hm : mean [(⟨w, x⟩ : Sample K)] = x := by
    simp [Spec.mean, Spec.wsum, Spec.weight, hw]
  refine ⟨by simp [valToData, Spec.weight], by simp [valToData, hm], fun n hn _ => ?_⟩
  have h1 : n ≠ 1 := by omega
  have h0 : n ≠ 0 := by omega
  simp [valToData, Spec.central, hm, Spec.wsum, h0, h1]

omit [DecidableEq K] [CharZero K] in
/-- **C51**, comoments. -/
theorem C51_row_is_single_value_cov (o0 o1 : ℕ) (x y w : K) (hw : w ≠ 0) :
    IsComoments o0 o1 [⟨w, x, y⟩] (valToDataCov x y w) := by
  have hx : meanX [(⟨w, x, y⟩ : Sample2 K)] = x := by
    simp [Spec.meanX, Spec.wsum2, Spec.weight2, hw]
  have hy : meanY [(⟨w, x, y⟩ : Sample2 K)] = y := by
    simp [Spec.meanY, Spec.wsum2, Spec.weight2, hw]
  refine ⟨?_, ?_, ?_, fun i j _ _ hij => ?_⟩
  · simp [valToDataCov, setAt_apply, Spec.weight2]
  · simp [valToDataCov, setAt_apply, hx]
  · simp [valToDataCov, setAt_apply, hy]
  · have h00 : ¬(i = 0 ∧ j = 0) := by omega
    have h10 : ¬(i = 1 ∧ j = 0) := by omega
    have h01 : ¬(i = 0 ∧ j = 1) := by omega
    have hz : valToDataCov x y w i j = 0 := by
      simp only [valToDataCov, setAt_apply]
      rw [if_neg (by simpa using h01), if_neg (by simpa using h10), if_neg (by simpa using h00)]
    rw [hz]
    simp only [Spec.central2, hx, hy, Spec.wsum2, List.map_cons, List.map_nil, List.sum_cons,
      List.sum_nil, sub_self, add_zero]
    rcases Nat.eq_zero_or_pos i with rfl | hi
    · rw [zero_pow (by omega : j ≠ 0)]; simp
    · rw [zero_pow (by omega : i ≠ 0)]; simp

/-- **C51.** Converting values to arrays and reducing the arrays equals accumulating the values,
in every entry, from any accumulator, and with the same divisions by zero. -/
theorem C51_vals_to_data_then_reduce {order : ℕ} (ho : 1 ≤ order) (xs : List (K × K))
    (out : Mom K) :
    (kernel1 order).reduceData (xs.map (fun p => valToData p.1 p.2)) out =
      (kernel1 order).reduceVals xs out :=
  ((lawful1 (K := K) order ho).reduceVals_eq_reduceData xs out).symm

/-- **C51**, comoments. -/
theorem C51_vals_to_data_then_reduce_cov {o0 o1 : ℕ} (h0 : 1 ≤ o0) (h1 : 1 ≤ o1)
    (xs : List ((K × K) × K)) (out : Com K) :
    (kernel2 o0 o1).reduceData (xs.map (fun p => valToDataCov p.1.1 p.1.2 p.2)) out =
      (kernel2 o0 o1).reduceVals xs out :=
  ((lawful2 (K := K) o0 o1 h0 h1).reduceVals_eq_reduceData xs out).symm

/-! ## C20, C21: resampling -/

/-- **C20**, real frequencies: the row stands for every sample with its weight multiplied by the
frequency. -/
theorem C20_row_stands_for_reweighted {order : ℕ} (ho : 1 ≤ order)
    (rows : List (K × List (Sample K) × Mom K)) (hd : ∀ p ∈ rows, Holds order p.2.1 p.2.2)
    (out : Mom K)
    (e : (kernel1 order).resampleDataRow (rows.map (fun p => (p.1, p.2.2))) = some out) :
    Holds order
      (rows.flatMap (fun p => p.2.1.map (fun s : Sample K => ⟨s.w * p.1, s.x⟩))) out := by
  rw [holds_iff_raw ho]
  intro n
  rw [(lawful1 (K := K) order ho).resampleDataRow_raw e]
  clear e
  induction rows with
  | nil => rfl
  | cons p rows ih =>
    rw [List.map_cons, (lawful1 (K := K) order ho).rtot_cons, Pi.add_apply,
      ih (fun q hq => hd q (List.mem_cons_of_mem _ hq)), List.flatMap_cons, wsum_append,
      Pi.smul_apply, (holds_iff_raw ho).1 (hd p List.mem_cons_self) n, smul_eq_mul]
    congr 1
    simp only [Spec.wsum, List.map_map, ← List.sum_map_mul_left]
    congr 1
    refine List.map_congr_left fun s _ => ?_
    simp only [Function.comp_apply]
    ring

/-- **C20**, real frequencies, comoments. -/
theorem C20_row_stands_for_reweighted_cov {o0 o1 : ℕ} (h0 : 1 ≤ o0) (h1 : 1 ≤ o1)
    (rows : List (K × List (Sample2 K) × Com K)) (hd : ∀ p ∈ rows, Holds2 o0 o1 p.2.1 p.2.2)
    (out : Com K)
    (e : (kernel2 o0 o1).resampleDataRow (rows.map (fun p => (p.1, p.2.2))) = some out) :
    Holds2 o0 o1
      (rows.flatMap (fun p => p.2.1.map (fun s : Sample2 K => ⟨s.w * p.1, s.x, s.y⟩))) out := by
  rw [holds2_iff_raw h0 h1]
  intro n
  rw [(lawful2 (K := K) o0 o1 h0 h1).resampleDataRow_raw e]
  clear e
  induction rows with
  | nil => rfl
  | cons p rows ih =>
    rw [List.map_cons, (lawful2 (K := K) o0 o1 h0 h1).rtot_cons, Pi.add_apply,
      ih (fun q hq => hd q (List.mem_cons_of_mem _ hq)), List.flatMap_cons, wsum2_append,
      Pi.smul_apply, (holds2_iff_raw h0 h1).1 (hd p List.mem_cons_self) n, smul_eq_mul]
    congr 1
    simp only [Spec.wsum2, List.map_map, ← List.sum_map_mul_left]
    congr 1
    refine List.map_congr_left fun s _ => ?_
    simp only [Function.comp_apply]
    ring

/-- **C21.** Resampling values is accumulating each value with weight `w * freq`, in every entry
and with the same divisions by zero. -/
theorem C21_resample_vals_is_weighted {order : ℕ} (ho : 1 ≤ order) (freq : List (List K))
    (xs : List (K × K)) :
    (kernel1 order).resampleVals freq xs = freq.map (fun fs =>
      (kernel1 order).reduceValsFromZero (List.zipWith (fun f p => (p.1, p.2 * f)) fs xs)) := by
  unfold Kernel.resampleVals
  refine List.map_congr_left fun fs _ => ?_
  rw [(lawful1 (K := K) order ho).resampleValsRow_eq_reduceVals, Kernel.reduceValsFromZero]
  congr 1
  rw [List.zip, List.map_zipWith]

/-- **C21**, comoments. -/
theorem C21_resample_vals_is_weighted_cov {o0 o1 : ℕ} (h0 : 1 ≤ o0) (h1 : 1 ≤ o1)
    (freq : List (List K)) (xs : List ((K × K) × K)) :
    (kernel2 o0 o1).resampleVals freq xs = freq.map (fun fs =>
      (kernel2 o0 o1).reduceValsFromZero (List.zipWith (fun f p => (p.1, p.2 * f)) fs xs)) := by
  unfold Kernel.resampleVals
  refine List.map_congr_left fun fs _ => ?_
  rw [(lawful2 (K := K) o0 o1 h0 h1).resampleValsRow_eq_reduceVals, Kernel.reduceValsFromZero]
  congr 1
  rw [List.zip, List.map_zipWith]

/-! ## C22: jackknife -/

/-- **C22.** If the full reduction exists, every jackknife row whose remaining samples have
non-zero weight is the leave-one-out reduction. -/
theorem C22_row_is_leave_one_out {order : ℕ} (ho : 1 ≤ order) (data : List (Mom K)) (red : Mom K)
    (e : (kernel1 order).reduceDataFromZero data = some red) (i : ℕ) (hi : i < data.length)
    (hw : ((data.eraseIdx i).map (fun d => d 0)).sum ≠ 0) (r' : Mom K)
    (e' : (kernel1 order).reduceDataFromZero (data.eraseIdx i) = some r') :
    ∃ rows r, (kernel1 order).jackknifeData data = some rows ∧ rows[i]? = some (some r) ∧
      EqUpTo order r r' := by
  obtain ⟨r, er, hraw, hne⟩ := (lawful1 (K := K) order ho).jackknife_row data red e i hi hw
  refine ⟨_, r, by rw [Kernel.jackknifeData, e]; rfl, ?_, (eqv1_iff ho).1 ?_⟩
  · simp [Kernel.jackknifeDataKernel, hi, er]
  · refine (lawful1 (K := K) order ho).eqv_of_raw hne ?_
    rw [hraw, (lawful1 (K := K) order ho).reduceData_raw e', (lawful1 (K := K) order ho).raw_zero, zero_add]

/-- **C22**, comoments. -/
theorem C22_row_is_leave_one_out_cov {o0 o1 : ℕ} (h0 : 1 ≤ o0) (h1 : 1 ≤ o1)
    (data : List (Com K)) (red : Com K)
    (e : (kernel2 o0 o1).reduceDataFromZero data = some red) (i : ℕ) (hi : i < data.length)
    (hw : ((data.eraseIdx i).map (fun d => d 0 0)).sum ≠ 0) (r' : Com K)
    (e' : (kernel2 o0 o1).reduceDataFromZero (data.eraseIdx i) = some r') :
    ∃ rows r, (kernel2 o0 o1).jackknifeData data = some rows ∧ rows[i]? = some (some r) ∧
      EqUpTo2 o0 o1 r r' := by
  obtain ⟨r, er, hraw, hne⟩ := (lawful2 (K := K) o0 o1 h0 h1).jackknife_row data red e i hi hw
  refine ⟨_, r, by rw [Kernel.jackknifeData, e]; rfl, ?_, (eqv2_iff h0 h1).1 ?_⟩
  · simp [Kernel.jackknifeDataKernel, hi, er]
  · refine (lawful2 (K := K) o0 o1 h0 h1).eqv_of_raw hne ?_
    rw [hraw, (lawful2 (K := K) o0 o1 h0 h1).reduceData_raw e', (lawful2 (K := K) o0 o1 h0 h1).raw_zero, zero_add]

/-- **C22.** A row has no finite value exactly when sample `i` has non-zero weight and the others
have total weight zero. -/
theorem C22_row_missing_iff {order : ℕ} (ho : 1 ≤ order) (data : List (Mom K))
    (rows : List (Option (Mom K))) (e : (kernel1 order).jackknifeData data = some rows) (i : ℕ)
    (hi : i < data.length) :
    rows[i]? = some none ↔
      data[i] 0 ≠ 0 ∧ ((data.eraseIdx i).map (fun d => d 0)).sum = 0 := by
  rw [Kernel.jackknifeData] at e
  obtain ⟨red, ered, e⟩ := Option.bind_eq_some_iff.1 e
  cases e
  refine Iff.trans ?_ ((lawful1 (K := K) order ho).jackknife_row_none data red ered i hi)
  simp [Kernel.jackknifeDataKernel, hi]

/-- **C22**, comoments. -/
theorem C22_row_missing_iff_cov {o0 o1 : ℕ} (h0 : 1 ≤ o0) (h1 : 1 ≤ o1) (data : List (Com K))
    (rows : List (Option (Com K))) (e : (kernel2 o0 o1).jackknifeData data = some rows) (i : ℕ)
    (hi : i < data.length) :
    rows[i]? = some none ↔
      data[i] 0 0 ≠ 0 ∧ ((data.eraseIdx i).map (fun d => d 0 0)).sum = 0 := by
  rw [Kernel.jackknifeData] at e
  obtain ⟨red, ered, e⟩ := Option.bind_eq_some_iff.1 e
  cases e
  refine Iff.trans ?_ ((lawful2 (K := K) o0 o1 h0 h1).jackknife_row_none data red ered i hi)
  simp [Kernel.jackknifeDataKernel, hi]

/-- **C22.** Jackknife of values is jackknife of their arrays, in every entry. -/
theorem C22_vals_equals_data {order : ℕ} (ho : 1 ≤ order) (xs : List (K × K)) :
    (kernel1 order).jackknifeVals xs =
      (kernel1 order).jackknifeData (xs.map (fun p => valToData p.1 p.2)) :=
  (lawful1 (K := K) order ho).jackknifeVals_eq xs

/-- **C22**, comoments. -/
theorem C22_vals_equals_data_cov {o0 o1 : ℕ} (h0 : 1 ≤ o0) (h1 : 1 ≤ o1)
    (xs : List ((K × K) × K)) :
    (kernel2 o0 o1).jackknifeVals xs =
      (kernel2 o0 o1).jackknifeData (xs.map (fun p => valToDataCov p.1.1 p.1.2 p.2)) :=
  (lawful2 (K := K) o0 o1 h0 h1).jackknifeVals_eq xs

/-! ## C23, C24: cumulative -/

/-- **C23.** Row `i` of `cumulative` is the reduction of rows `0..i`, wherever their weight is
non-zero; its weight entry is right in any case. -/
theorem C23_row_is_partial_reduction {order : ℕ} (ho : 1 ≤ order) (data rs : List (Mom K))
    (e : (kernel1 order).cumulative data = some rs) :
    rs.length = data.length ∧ ∀ i (hi : i < rs.length) (r' : Mom K),
      (kernel1 order).reduceDataFromZero (data.take (i + 1)) = some r' →
      rs[i] 0 = r' 0 ∧ (r' 0 ≠ 0 → EqUpTo order rs[i] r') := by
  obtain ⟨hl, hr⟩ := (lawful1 (K := K) order ho).cumulative_spec e
  refine ⟨hl, fun i hi r' e' => ?_⟩
  have h2 : (lawful1 (K := K) order ho).raw rs[i] = (lawful1 (K := K) order ho).raw r' := by
    rw [hr i hi, (lawful1 (K := K) order ho).reduceData_raw e', (lawful1 (K := K) order ho).raw_zero, zero_add]
  refine ⟨(lawful1 (K := K) order ho).weight_eq_of_raw h2, fun hne => (eqv1_iff ho).1 ?_⟩
  exact Lawful.Eqv.symm ((lawful1 (K := K) order ho).eqv_of_raw hne h2.symm)

/-- **C23**, comoments. -/
theorem C23_row_is_partial_reduction_cov {o0 o1 : ℕ} (h0 : 1 ≤ o0) (h1 : 1 ≤ o1)
    (data rs : List (Com K)) (e : (kernel2 o0 o1).cumulative data = some rs) :
    rs.length = data.length ∧ ∀ i (hi : i < rs.length) (r' : Com K),
      (kernel2 o0 o1).reduceDataFromZero (data.take (i + 1)) = some r' →
      rs[i] 0 0 = r' 0 0 ∧ (r' 0 0 ≠ 0 → EqUpTo2 o0 o1 rs[i] r') := by
  obtain ⟨hl, hr⟩ := (lawful2 (K := K) o0 o1 h0 h1).cumulative_spec e
  refine ⟨hl, fun i hi r' e' => ?_⟩
  have h2 : (lawful2 (K := K) o0 o1 h0 h1).raw rs[i] = (lawful2 (K := K) o0 o1 h0 h1).raw r' := by
    rw [hr i hi, (lawful2 (K := K) o0 o1 h0 h1).reduceData_raw e', (lawful2 (K := K) o0 o1 h0 h1).raw_zero,
      zero_add]
  refine ⟨(lawful2 (K := K) o0 o1 h0 h1).weight_eq_of_raw h2, fun hne => (eqv2_iff h0 h1).1 ?_⟩
  exact Lawful.Eqv.symm ((lawful2 (K := K) o0 o1 h0 h1).eqv_of_raw hne h2.symm)

/-- **C24.** `cumulative_inverse` undoes `cumulative` when the weights after the first row and
the partial sums of the weights are non-zero. -/
theorem C24_inverse_undoes_cumulative {order : ℕ} (ho : 1 ≤ order) (data : List (Mom K))
    (hw : ∀ d ∈ data.tail, d 0 ≠ 0)
    (hp : ∀ i, 1 ≤ i → i < data.length → ((data.take (i + 1)).map (fun d => d 0)).sum ≠ 0) :
    ∃ rs bs, (kernel1 order).cumulative data = some rs ∧
      (kernel1 order).cumulativeInverse rs = some bs ∧
      List.Forall₂ (EqUpTo order) bs data := by
  obtain ⟨rs, bs, e1, e2, hb⟩ := (lawful1 (K := K) order ho).cumulativeInverse_cumulative data hw hp
  exact ⟨rs, bs, e1, e2, hb.imp fun _ _ h => (eqv1_iff ho).1 h⟩

/-- **C24**, comoments. -/
theorem C24_inverse_undoes_cumulative_cov {o0 o1 : ℕ} (h0 : 1 ≤ o0) (h1 : 1 ≤ o1)
    (data : List (Com K)) (hw : ∀ d ∈ data.tail, d 0 0 ≠ 0)
    (hp : ∀ i, 1 ≤ i → i < data.length → ((data.take (i + 1)).map (fun d => d 0 0)).sum ≠ 0) :
    ∃ rs bs, (kernel2 o0 o1).cumulative data = some rs ∧
      (kernel2 o0 o1).cumulativeInverse rs = some bs ∧
      List.Forall₂ (EqUpTo2 o0 o1) bs data := by
  obtain ⟨rs, bs, e1, e2, hb⟩ := (lawful2 (K := K) o0 o1 h0 h1).cumulativeInverse_cumulative data hw hp
  exact ⟨rs, bs, e1, e2, hb.imp fun _ _ h => (eqv2_iff h0 h1).1 h⟩

/-- **C24**, the negative part: a zero-weight row following a row of non-zero accumulated weight
makes the inverse divide by zero. -/
theorem C24_zero_weight_row_not_invertible {order : ℕ} (ho : 1 ≤ order) (a d : Mom K)
    (rest rs : List (Mom K)) (ha : a 0 ≠ 0) (hd : d 0 = 0)
    (e : (kernel1 order).cumulative (a :: d :: rest) = some rs) :
    (kernel1 order).cumulativeInverse rs = none := by
  rw [Kernel.cumulative] at e
  obtain ⟨rs1, e1, e⟩ := Option.bind_eq_some_iff.1 e
  cases e
  rw [Kernel.cumulativeGo] at e1
  obtain ⟨r, er, e1⟩ := Option.bind_eq_some_iff.1 e1
  obtain ⟨rs2, e2, e1⟩ := Option.bind_eq_some_iff.1 e1
  cases e1
  rw [(lawful1 (K := K) order ho).data_eq] at er
  have hr : r 0 = a 0 := by
    have := (lawful1 (K := K) order ho).pushScale_weight er
    simpa [kernel1, hd] using this
  have hn : (kernel1 order).pushScale a (-1) r = none := by
    rw [(lawful1 (K := K) order ho).pushScale_eq_none_iff]
    simp [kernel1, hr, ha]
  simp [Kernel.cumulativeInverse, Kernel.cumulativeInverseGo, hn]

end field

section ordered

variable {K : Type*} [Field K] [LinearOrder K] [IsStrictOrderedRing K]

/-- **C20.** With integer frequencies and non-negative weights, each resampled row equals the
reduction of the multiset in which sample `k` occurs `freq[k]` times. -/
theorem C20_resample_equals_reduce_drawn {order : ℕ} (ho : 1 ≤ order) (freq : List (List ℕ))
    (data : List (Mom K)) (hw : ∀ d ∈ data, 0 ≤ d 0) (i : ℕ) (hi : i < freq.length)
    (hpos : 0 < ((drawn freq[i] data).map (fun d => d 0)).sum) :
    ∃ r r', ((kernel1 order).resampleData (freq.map (List.map Nat.cast)) data)[i]? =
        some (some r) ∧
      (kernel1 order).reduceDataFromZero (drawn freq[i] data) = some r' ∧ EqUpTo order r r' := by
  have hsum := congrFun ((lawful1 (K := K) order ho).rsum_drawn (freq[i].zip data))
    (lawful1 (K := K) order ho).i0
  rw [(lawful1 (K := K) order ho).rsum_i0, (lawful1 (K := K) order ho).rtot_i0] at hsum
  obtain ⟨r, r', e, e', h⟩ := (lawful1 (K := K) order ho).resample_eq_reduce_drawn
    (freq[i].zip data) (fun p hp => hw _ (List.of_mem_zip hp).2) (by rw [← hsum]; exact hpos.ne')
  refine ⟨r, r', ?_, e', (eqv1_iff ho).1 h⟩
  have hz : (freq[i].zip data).map (fun p => ((p.1 : K), p.2)) =
      (freq[i].map Nat.cast).zip data := by
    rw [List.zip_map_left]; rfl
  rw [hz] at e
  simp [Kernel.resampleData, hi, e]

/-- **C20**, comoments. -/
theorem C20_resample_equals_reduce_drawn_cov {o0 o1 : ℕ} (h0 : 1 ≤ o0) (h1 : 1 ≤ o1)
    (freq : List (List ℕ))
    (data : List (Com K)) (hw : ∀ d ∈ data, 0 ≤ d 0 0) (i : ℕ) (hi : i < freq.length)
    (hpos : 0 < ((drawn freq[i] data).map (fun d => d 0 0)).sum) :
    ∃ r r', ((kernel2 o0 o1).resampleData (freq.map (List.map Nat.cast)) data)[i]? =
        some (some r) ∧
      (kernel2 o0 o1).reduceDataFromZero (drawn freq[i] data) = some r' ∧
      EqUpTo2 o0 o1 r r' := by
  have hsum := congrFun ((lawful2 (K := K) o0 o1 h0 h1).rsum_drawn (freq[i].zip data))
    (lawful2 (K := K) o0 o1 h0 h1).i0
  rw [(lawful2 (K := K) o0 o1 h0 h1).rsum_i0, (lawful2 (K := K) o0 o1 h0 h1).rtot_i0] at hsum
  obtain ⟨r, r', e, e', h⟩ := (lawful2 (K := K) o0 o1 h0 h1).resample_eq_reduce_drawn
    (freq[i].zip data) (fun p hp => hw _ (List.of_mem_zip hp).2) (by rw [← hsum]; exact hpos.ne')
  refine ⟨r, r', ?_, e', (eqv2_iff h0 h1).1 h⟩
  have hz : (freq[i].zip data).map (fun p => ((p.1 : K), p.2)) =
      (freq[i].map Nat.cast).zip data := by
    rw [List.zip_map_left]; rfl
  rw [hz] at e
  simp [Kernel.resampleData, hi, e]

/-- **C20.** Resampling with the counts of an index row equals reducing the data taken at those
indices (bootstrap by indices), in whatever order the indices are listed. -/
theorem C20_resample_equals_reduce_taken {order : ℕ} (ho : 1 ≤ order) (idx : List ℕ)
    (data : List (Mom K)) (hw : ∀ d ∈ data, 0 ≤ d 0) (hidx : ∀ i ∈ idx, i < data.length)
    (hpos : 0 < ((takeAt data idx).map (fun d => d 0)).sum) :
    ∃ r r', (kernel1 order).resampleData [(counts data.length idx).map Nat.cast] data =
        [some r] ∧
      (kernel1 order).reduceDataFromZero (takeAt data idx) = some r' ∧ EqUpTo order r r' := by
  have hp := Freq.takeAt_perm_drawn hidx data
  obtain ⟨r, r', e, e', h⟩ := C20_resample_equals_reduce_drawn ho [counts data.length idx] data hw 0
    (by simp) (by rw [List.getElem_cons_zero, ← (hp.map _).sum_eq]; exact hpos)
  have hnn : ∀ d ∈ takeAt data idx, 0 ≤ (kernel1 order).weight d := by
    intro d hd
    obtain ⟨j, -, hj⟩ := List.mem_filterMap.1 hd
    exact hw d (List.mem_of_getElem? hj)
  obtain ⟨q, r'', eq, e'', h2⟩ := (lawful1 (K := K) order ho).reduce_eqv_of_rsum
    (l := drawn (counts data.length idx) data) (l' := takeAt data idx)
    (fun d hd => hnn d (hp.mem_iff.2 hd)) hnn
    ((lawful1 (K := K) order ho).rsum_perm hp.symm)
  rw [List.getElem_cons_zero] at e'
  rw [eq] at e'
  cases e'
  refine ⟨r, r'', ?_, e'', fun n hn => (h n hn).trans ((eqv1_iff ho).1 h2 n hn)⟩
  simpa [Kernel.resampleData] using e

/-- **C20**, comoments. -/
theorem C20_resample_equals_reduce_taken_cov {o0 o1 : ℕ} (h0 : 1 ≤ o0) (h1 : 1 ≤ o1)
    (idx : List ℕ)
    (data : List (Com K)) (hw : ∀ d ∈ data, 0 ≤ d 0 0) (hidx : ∀ i ∈ idx, i < data.length)
    (hpos : 0 < ((takeAt data idx).map (fun d => d 0 0)).sum) :
    ∃ r r', (kernel2 o0 o1).resampleData [(counts data.length idx).map Nat.cast] data =
        [some r] ∧
      (kernel2 o0 o1).reduceDataFromZero (takeAt data idx) = some r' ∧ EqUpTo2 o0 o1 r r' := by
  have hp := Freq.takeAt_perm_drawn hidx data
  obtain ⟨r, r', e, e', h⟩ := C20_resample_equals_reduce_drawn_cov h0 h1 [counts data.length idx]
    data hw 0 (by simp) (by rw [List.getElem_cons_zero, ← (hp.map _).sum_eq]; exact hpos)
  have hnn : ∀ d ∈ takeAt data idx, 0 ≤ (kernel2 o0 o1).weight d := by
    intro d hd
    obtain ⟨j, -, hj⟩ := List.mem_filterMap.1 hd
    exact hw d (List.mem_of_getElem? hj)
  obtain ⟨q, r'', eq, e'', h2⟩ := (lawful2 (K := K) o0 o1 h0 h1).reduce_eqv_of_rsum
    (l := drawn (counts data.length idx) data) (l' := takeAt data idx)
    (fun d hd => hnn d (hp.mem_iff.2 hd)) hnn
    ((lawful2 (K := K) o0 o1 h0 h1).rsum_perm hp.symm)
  rw [List.getElem_cons_zero] at e'
  rw [eq] at e'
  cases e'
  refine ⟨r, r'', ?_, e'', fun i j hi hj => (h i j hi hj).trans ((eqv2_iff h0 h1).1 h2 i j hi hj)⟩
  simpa [Kernel.resampleData] using e

omit [IsStrictOrderedRing K] in
/-- **C20**, the exception: when every drawn sample has weight zero the row is *not* the zero
array that a reduction would give, but a copy of the first drawn sample. -/
theorem C20_zero_weight_draw_copies_first (order : ℕ) (fs : List K) (d : Mom K)
    (data : List (Mom K)) (f : K) (hf : f ≠ 0) (hd : d 0 = 0) (hw : ∀ d ∈ data, d 0 = 0) :
    (kernel1 order).resampleDataRow ((f :: fs).zip (d :: data)) = some d := by
  rw [List.zip_cons_cons, Kernel.resampleDataRow, if_pos hf]
  have hm : (kernel1 order).mulWeight d f = d := by
    funext n
    by_cases hn : n = 0
    · subst hn; simp [kernel1, hd]
    · simp [kernel1, hn]
  rw [hm]
  unfold Kernel.resampleRest
  have : ∀ l : List (K × Mom K), (∀ p ∈ l, p.2 0 = 0) →
      l.foldlM (fun o p => if p.1 ≠ 0 then (kernel1 order).pushScale p.2 p.1 o else some o) d =
        some d := by
    intro l
    induction l with
    | nil => intro _; rfl
    | cons p l ih =>
      intro hl
      have hp : (kernel1 order).pushScale p.2 p.1 d = some d :=
        (C05_zero_weight_push order 0 p.1 p.2 d).2.2
          (by rw [hl p List.mem_cons_self, zero_mul])
      rw [List.foldlM_cons, hp]
      simp only [ite_self]
      exact ih (fun q hq => hl q (List.mem_cons_of_mem _ hq))
  exact this _ (fun p hp => hw _ (List.of_mem_zip hp).2)

/-- **C21.** Resampling values by integer frequencies, against the plain definition: the row is
the moment array of the samples with multiplied weights. -/
theorem C21_resample_vals_moments {order : ℕ} (ho : 1 ≤ order) (fs : List ℕ) (L : List (Sample K))
    (hL : ∀ s ∈ L, 0 ≤ s.w)
    (hpos : 0 < weight (List.zipWith (fun (f : ℕ) (s : Sample K) => ⟨s.w * f, s.x⟩) fs L)) :
    ∃ r, (kernel1 order).resampleVals [fs.map Nat.cast] (toVals L) = [some r] ∧
      IsMoments order (List.zipWith (fun (f : ℕ) (s : Sample K) => ⟨s.w * f, s.x⟩) fs L) r := by
  have hnn : ∀ s ∈ List.zipWith (fun (f : ℕ) (s : Sample K) => (⟨s.w * f, s.x⟩ : Sample K)) fs L,
      0 ≤ s.w := by
    intro s hs
    rw [← List.map_uncurry_zip_eq_zipWith] at hs
    obtain ⟨⟨f, t⟩, hft, rfl⟩ := List.mem_map.1 hs
    exact mul_nonneg (hL t (List.of_mem_zip hft).2) (Nat.cast_nonneg f)
  obtain ⟨r, e, h⟩ := C01_reduce_vals_exact_nonneg ho _ hnn hpos
  refine ⟨r, ?_, h⟩
  rw [C21_resample_vals_is_weighted ho, List.map_singleton, ← e]
  congr 2
  simp only [toVals, List.map_zipWith, List.zipWith_map]

/-- **C21**, comoments. -/
theorem C21_resample_vals_moments_cov {o0 o1 : ℕ} (h0 : 1 ≤ o0) (h1 : 1 ≤ o1) (fs : List ℕ)
    (L : List (Sample2 K)) (hL : ∀ s ∈ L, 0 ≤ s.w)
    (hpos : 0 < weight2 (List.zipWith
      (fun (f : ℕ) (s : Sample2 K) => ⟨s.w * f, s.x, s.y⟩) fs L)) :
    ∃ r, (kernel2 o0 o1).resampleVals [fs.map Nat.cast] (toVals2 L) = [some r] ∧
      IsComoments o0 o1
        (List.zipWith (fun (f : ℕ) (s : Sample2 K) => ⟨s.w * f, s.x, s.y⟩) fs L) r := by
  have hnn : ∀ s ∈ List.zipWith
      (fun (f : ℕ) (s : Sample2 K) => (⟨s.w * f, s.x, s.y⟩ : Sample2 K)) fs L, 0 ≤ s.w := by
    intro s hs
    rw [← List.map_uncurry_zip_eq_zipWith] at hs
    obtain ⟨⟨f, t⟩, hft, rfl⟩ := List.mem_map.1 hs
    exact mul_nonneg (hL t (List.of_mem_zip hft).2) (Nat.cast_nonneg f)
  obtain ⟨r, e, h⟩ := C02_reduce_vals_cov_exact_nonneg h0 h1 _ hnn hpos
  refine ⟨r, ?_, h⟩
  rw [C21_resample_vals_is_weighted_cov h0 h1, List.map_singleton, ← e]
  congr 2
  simp only [toVals2, List.map_zipWith, List.zipWith_map]

/-- **C21.** Resampling values equals resampling their arrays, when something of positive weight
is drawn. -/
theorem C21_equals_resample_data {order : ℕ} (ho : 1 ≤ order) (fs : List K) (xs : List (K × K))
    (hf : ∀ f ∈ fs, 0 ≤ f) (hx : ∀ p ∈ xs, 0 ≤ p.2)
    (hpos : 0 < (List.zipWith (fun f (p : K × K) => p.2 * f) fs xs).sum) :
    ∃ r r', (kernel1 order).resampleVals [fs] xs = [some r] ∧
      (kernel1 order).resampleData [fs] (xs.map (fun p => valToData p.1 p.2)) = [some r'] ∧
      EqUpTo order r r' := by
  obtain ⟨r, r', e, e', h⟩ :=
    (lawful1 (K := K) order ho).resampleVals_eqv_resampleData fs xs hf hx hpos
  exact ⟨r, r', e, e', (eqv1_iff ho).1 h⟩

/-- **C21**, comoments. -/
theorem C21_equals_resample_data_cov {o0 o1 : ℕ} (h0 : 1 ≤ o0) (h1 : 1 ≤ o1) (fs : List K)
    (xs : List ((K × K) × K)) (hf : ∀ f ∈ fs, 0 ≤ f) (hx : ∀ p ∈ xs, 0 ≤ p.2)
    (hpos : 0 < (List.zipWith (fun f (p : (K × K) × K) => p.2 * f) fs xs).sum) :
    ∃ r r', (kernel2 o0 o1).resampleVals [fs] xs = [some r] ∧
      (kernel2 o0 o1).resampleData [fs] (xs.map (fun p => valToDataCov p.1.1 p.1.2 p.2)) =
        [some r'] ∧
      EqUpTo2 o0 o1 r r' := by
  obtain ⟨r, r', e, e', h⟩ :=
    (lawful2 (K := K) o0 o1 h0 h1).resampleVals_eqv_resampleData fs xs hf hx hpos
  exact ⟨r, r', e, e', (eqv2_iff h0 h1).1 h⟩

/-- **C22.** With non-negative weights the jackknife always exists, and row `i` equals both the
leave-one-out reduction and the resample by row `i` of `jackknife_freq`, when the remaining
weight is positive. -/
theorem C22_jackknife_nonneg {order : ℕ} (ho : 1 ≤ order) (data : List (Mom K))
    (hw : ∀ d ∈ data, 0 ≤ d 0) :
    ∃ rows, (kernel1 order).jackknifeData data = some rows ∧ rows.length = data.length ∧
      ∀ i < data.length, 0 < ((data.eraseIdx i).map (fun d => d 0)).sum →
      ∃ r r' r'', rows[i]? = some (some r) ∧
        (kernel1 order).reduceDataFromZero (data.eraseIdx i) = some r' ∧
        ((kernel1 order).resampleData
          ((Freq.jackknifeFreq data.length).map (List.map Nat.cast)) data)[i]? = some (some r'') ∧
        EqUpTo order r r' ∧ EqUpTo order r'' r' := by
  obtain ⟨red, e⟩ := (lawful1 (K := K) order ho).reduceData_exists (data := data)
    (o := (kernel1 order).zero) (by rw [(lawful1 (K := K) order ho).weight_zero]) hw
  refine ⟨_, by rw [Kernel.jackknifeData, Kernel.reduceDataFromZero, e]; rfl,
    by simp [Kernel.jackknifeDataKernel], fun i hi hpos => ?_⟩
  have hj : i < (Freq.jackknifeFreq data.length).length := by simpa [Freq.jackknifeFreq] using hi
  have hdr : drawn (Freq.jackknifeFreq data.length)[i] data = data.eraseIdx i := by
    simp only [Freq.jackknifeFreq, List.getElem_map, List.getElem_range]
    exact Freq.drawn_jackknife data i
  obtain ⟨r'', r', e2, e3, h3⟩ := C20_resample_equals_reduce_drawn ho
    (Freq.jackknifeFreq data.length) data hw i hj (by rw [hdr]; exact hpos)
  rw [hdr] at e3
  obtain ⟨rows, r, e4, e5, h5⟩ := C22_row_is_leave_one_out ho data red e i hi hpos.ne' r' e3
  rw [Kernel.jackknifeData, Kernel.reduceDataFromZero, e] at e4
  cases e4
  exact ⟨r, r', r'', e5, e3, e2, h5, h3⟩

/-- **C22**, comoments. -/
theorem C22_jackknife_nonneg_cov {o0 o1 : ℕ} (h0 : 1 ≤ o0) (h1 : 1 ≤ o1) (data : List (Com K))
    (hw : ∀ d ∈ data, 0 ≤ d 0 0) :
    ∃ rows, (kernel2 o0 o1).jackknifeData data = some rows ∧ rows.length = data.length ∧
      ∀ i < data.length, 0 < ((data.eraseIdx i).map (fun d => d 0 0)).sum →
      ∃ r r' r'', rows[i]? = some (some r) ∧
        (kernel2 o0 o1).reduceDataFromZero (data.eraseIdx i) = some r' ∧
        ((kernel2 o0 o1).resampleData
          ((Freq.jackknifeFreq data.length).map (List.map Nat.cast)) data)[i]? = some (some r'') ∧
        EqUpTo2 o0 o1 r r' ∧ EqUpTo2 o0 o1 r'' r' := by
  obtain ⟨red, e⟩ := (lawful2 (K := K) o0 o1 h0 h1).reduceData_exists (data := data)
    (o := (kernel2 o0 o1).zero) (by rw [(lawful2 (K := K) o0 o1 h0 h1).weight_zero]) hw
  refine ⟨_, by rw [Kernel.jackknifeData, Kernel.reduceDataFromZero, e]; rfl,
    by simp [Kernel.jackknifeDataKernel], fun i hi hpos => ?_⟩
  have hj : i < (Freq.jackknifeFreq data.length).length := by simpa [Freq.jackknifeFreq] using hi
  have hdr : drawn (Freq.jackknifeFreq data.length)[i] data = data.eraseIdx i := by
    simp only [Freq.jackknifeFreq, List.getElem_map, List.getElem_range]
    exact Freq.drawn_jackknife data i
  obtain ⟨r'', r', e2, e3, h3⟩ := C20_resample_equals_reduce_drawn_cov h0 h1
    (Freq.jackknifeFreq data.length) data hw i hj (by rw [hdr]; exact hpos)
  rw [hdr] at e3
  obtain ⟨rows, r, e4, e5, h5⟩ := C22_row_is_leave_one_out_cov h0 h1 data red e i hi hpos.ne' r' e3
  rw [Kernel.jackknifeData, Kernel.reduceDataFromZero, e] at e4
  cases e4
  exact ⟨r, r', r'', e5, e3, e2, h5, h3⟩

/-- **C23.** With non-negative weights `cumulative` never divides by zero, every row from the
first positive weight on is the reduction of the rows so far, and the last row is the full
reduction. -/
theorem C23_cumulative_nonneg {order : ℕ} (ho : 1 ≤ order) (data : List (Mom K))
    (hw : ∀ d ∈ data, 0 ≤ d 0) :
    ∃ rs, (kernel1 order).cumulative data = some rs ∧ rs.length = data.length ∧
      ∀ i < data.length, 0 < ((data.take (i + 1)).map (fun d => d 0)).sum →
        ∃ r r', rs[i]? = some r ∧
          (kernel1 order).reduceDataFromZero (data.take (i + 1)) = some r' ∧
          EqUpTo order r r' := by
  obtain ⟨rs, e⟩ := (lawful1 (K := K) order ho).cumulative_exists data hw
  obtain ⟨hl, hr⟩ := C23_row_is_partial_reduction ho data rs e
  refine ⟨rs, e, hl, fun i hi hpos => ?_⟩
  obtain ⟨r', e'⟩ := (lawful1 (K := K) order ho).reduceData_exists (data := data.take (i + 1))
    (o := (kernel1 order).zero) (by rw [(lawful1 (K := K) order ho).weight_zero])
    (fun d hd => hw d (List.mem_of_mem_take hd))
  have hi' : i < rs.length := by rw [hl]; exact hi
  have hW := (lawful1 (K := K) order ho).reduceData_weight e'
  rw [(lawful1 (K := K) order ho).weight_zero, zero_add] at hW
  exact ⟨rs[i], r', by simp [hi'], e',
    (hr i hi' r' e').2 (by
      have : r' 0 = ((data.take (i + 1)).map (fun d => d 0)).sum := hW
      rw [this]; exact hpos.ne')⟩

/-- **C23**, comoments. -/
theorem C23_cumulative_nonneg_cov {o0 o1 : ℕ} (h0 : 1 ≤ o0) (h1 : 1 ≤ o1) (data : List (Com K))
    (hw : ∀ d ∈ data, 0 ≤ d 0 0) :
    ∃ rs, (kernel2 o0 o1).cumulative data = some rs ∧ rs.length = data.length ∧
      ∀ i < data.length, 0 < ((data.take (i + 1)).map (fun d => d 0 0)).sum →
        ∃ r r', rs[i]? = some r ∧
          (kernel2 o0 o1).reduceDataFromZero (data.take (i + 1)) = some r' ∧
          EqUpTo2 o0 o1 r r' := by
  obtain ⟨rs, e⟩ := (lawful2 (K := K) o0 o1 h0 h1).cumulative_exists data hw
  obtain ⟨hl, hr⟩ := C23_row_is_partial_reduction_cov h0 h1 data rs e
  refine ⟨rs, e, hl, fun i hi hpos => ?_⟩
  obtain ⟨r', e'⟩ := (lawful2 (K := K) o0 o1 h0 h1).reduceData_exists
    (data := data.take (i + 1))
    (o := (kernel2 o0 o1).zero) (by rw [(lawful2 (K := K) o0 o1 h0 h1).weight_zero])
    (fun d hd => hw d (List.mem_of_mem_take hd))
  have hi' : i < rs.length := by rw [hl]; exact hi
  have hW := (lawful2 (K := K) o0 o1 h0 h1).reduceData_weight e'
  rw [(lawful2 (K := K) o0 o1 h0 h1).weight_zero, zero_add] at hW
  exact ⟨rs[i], r', by simp [hi'], e',
    (hr i hi' r' e').2 (by
      have : r' 0 0 = ((data.take (i + 1)).map (fun d => d 0 0)).sum := hW
      rw [this]; exact hpos.ne')⟩

/-- **C24** for positive weights. -/
theorem C24_inverse_undoes_cumulative_pos {order : ℕ} (ho : 1 ≤ order) (data : List (Mom K))
    (hw : ∀ d ∈ data, 0 < d 0) :
    ∃ rs bs, (kernel1 order).cumulative data = some rs ∧
      (kernel1 order).cumulativeInverse rs = some bs ∧
      List.Forall₂ (EqUpTo order) bs data := by
  refine C24_inverse_undoes_cumulative ho data
    (fun d hd => (hw d (List.mem_of_mem_tail hd)).ne') (fun i hi1 hi => ?_)
  refine (List.sum_pos _ ?_ ?_).ne'
  · intro x hx
    obtain ⟨d, hd, rfl⟩ := List.mem_map.1 hx
    exact hw d (List.mem_of_mem_take hd)
  · intro h
    have := congrArg List.length h
    rw [List.length_map, List.length_take, List.length_nil] at this
    omega

end ordered

/-! ### Concrete cases -/

/-- A third regular array. -/
def exD : Mom ℚ := fun n => [1, 4, 1, 0].getD n 0

example : (∀ d ∈ [exA, exB, exD], (0 : ℚ) ≤ d 0) ∧
    0 < ((drawn [2, 0, 1] [exA, exB, exD]).map (fun d => d 0)).sum := by decide +kernel

example : 0 < ((takeAt [exA, exB, exD] [2, 0, 0]).map (fun d => d 0)).sum := by decide +kernel

/-- Jackknife: rows with positive remaining weight exist. -/
example : 0 < (([exA, exB, exD].eraseIdx 1).map (fun d => d 0)).sum := by decide +kernel

/-- Jackknife: the missing row occurs (all weight on sample 0). -/
example : exA 0 ≠ 0 ∧ ((([exA, fun _ => 0] : List (Mom ℚ)).eraseIdx 0).map (fun d => d 0)).sum = 0 := by
  decide +kernel

/-- The exceptional case of C20 is reachable: the result differs from the reduction. -/
example : ((kernel1 2).resampleDataRow [((1 : ℚ), (fun n => if n = 0 then 0 else 7 : Mom ℚ))]).map
      (fun m => m 1) = some 7 ∧
    ((kernel1 2).reduceDataFromZero [(fun n => if n = 0 then 0 else 7 : Mom ℚ)]).map (fun m => m 1)
      = some 0 := by decide +kernel

example : (∀ s ∈ exL, 0 ≤ s.w) ∧ 0 < weight (List.zipWith
    (fun (f : ℕ) (s : Sample ℚ) => (⟨s.w * f, s.x⟩ : Sample ℚ)) [2, 1, 0] exL) := by decide +kernel

/-- C24: the hypotheses hold for signed weights too. -/
example : (∀ d ∈ [exA, exB, exD].tail, d 0 ≠ 0) ∧
    ∀ i, 1 ≤ i → i < 3 → (([exA, exB, exD].take (i + 1)).map (fun d => d 0)).sum ≠ 0 := by
  decide +kernel

end Cmomy
