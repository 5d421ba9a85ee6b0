import Verif.Lemmas.RollingExp
import Verif.Props.Resample

/-!
# C25-C30: rolling windows and exponential averages

Vocabulary in `Verif/Spec/Rolling.lean`: `windowRows`, `centredRows`, `validCount`, `RowsSpec`,
`decayCoefs`, `unadjustedCoefs`, `reweight`, `scaleBy`.
-/

set_option linter.unusedSectionVars false

namespace Cmomy

open Spec

section ordered

variable {K : Type*} [Field K] [LinearOrder K] [IsStrictOrderedRing K]

theorem RowsSpec.mono {M : Type*} {n : ℕ} {present : ℕ → Prop} {P Q : ℕ → M → Prop}
    {rows : List (Option M)} (h : RowsSpec n present P rows)
    (hPQ : ∀ i r, i < n → present i → P i r → Q i r) : RowsSpec n present Q rows :=
  ⟨h.1, fun i hi => (h.2 i hi).imp (fun ⟨p, r, e, hr⟩ => ⟨p, r, e, hPQ i r hi p hr⟩) id⟩

/-! ## C25: rolling windows of moment arrays -/

/-- **C25.** For non-negative weights, row `i` of `rolling_data` is the reduction of the window
rows when the window has at least `max(min_periods, 1)` rows of non-zero weight, and is missing
otherwise. `min_periods` defaults to `window`. -/
theorem C25_rolling_data {order : ℕ} (ho : 1 ≤ order) (window : ℕ) (minPeriods : Option ℤ)
    (data : List (Mom K)) (hd : ∀ d ∈ data, 0 ≤ d 0) :
    ∃ rows, (kernel1 order).rollingData window minPeriods false data = some rows ∧
      RowsSpec data.length
        (fun i => max (minPeriods.getD window) 1 ≤
          (validCount ((windowRows window i data).map (fun d => d 0)) : ℤ))
        (fun i r => ∃ r', (kernel1 order).reduceDataFromZero (windowRows window i data) = some r' ∧
          EqUpTo order r r') rows := by
  obtain ⟨rows, e, h⟩ :=
    Kernel.rollingData_rows (lawful1 (K := K) order ho) window minPeriods data hd
  exact ⟨rows, e, RowsSpec.mono h fun i r _ _ ⟨r', a, b⟩ => ⟨r', a, (eqv1_iff ho).1 b⟩⟩

/-- **C25**, comoments. -/
theorem C25_rolling_data_cov {o0 o1 : ℕ} (h0 : 1 ≤ o0) (h1 : 1 ≤ o1) (window : ℕ)
    (minPeriods : Option ℤ) (data : List (Com K)) (hd : ∀ d ∈ data, 0 ≤ d 0 0) :
    ∃ rows, (kernel2 o0 o1).rollingData window minPeriods false data = some rows ∧
      RowsSpec data.length
        (fun i => max (minPeriods.getD window) 1 ≤
          (validCount ((windowRows window i data).map (fun d => d 0 0)) : ℤ))
        (fun i r => ∃ r', (kernel2 o0 o1).reduceDataFromZero (windowRows window i data) = some r' ∧
          EqUpTo2 o0 o1 r r') rows := by
  obtain ⟨rows, e, h⟩ :=
    Kernel.rollingData_rows (lawful2 (K := K) o0 o1 h0 h1) window minPeriods data hd
  exact ⟨rows, e, RowsSpec.mono h fun i r _ _ ⟨r', a, b⟩ => ⟨r', a, (eqv2_iff h0 h1).1 b⟩⟩

theorem forall2_window {α β : Type*} {R : α → β → Prop} {l : List α} {l' : List β}
    (h : List.Forall₂ R l l') (a b : ℕ) : List.Forall₂ R ((l.take a).drop b) ((l'.take a).drop b) :=
  List.forall₂_drop _ (List.forall₂_take _ h)

theorem holds_of_eqUpTo {order : ℕ} (ho : 1 ≤ order) {L : List (Sample K)} {a b : Mom K}
    (e : EqUpTo order a b) (h : Holds order L b) : Holds order L a := by
  rcases h with ⟨hW, hm⟩ | ⟨hz, hs⟩
  · exact Or.inl ⟨hW, isMoments_of_eqUpTo ho e hm⟩
  · exact Or.inr ⟨(e 0 (by omega)).trans hz, hs⟩

theorem holds2_of_eqUpTo2 {o0 o1 : ℕ} (h0 : 1 ≤ o0) (h1 : 1 ≤ o1) {L : List (Sample2 K)}
    {a b : Com K} (e : EqUpTo2 o0 o1 a b) (h : Holds2 o0 o1 L b) : Holds2 o0 o1 L a := by
  rcases h with ⟨hW, hm⟩ | ⟨hz, hs⟩
  · exact Or.inl ⟨hW, isComoments_of_eqUpTo2 h0 h1 e hm⟩
  · exact Or.inr ⟨(e 0 0 (by omega) (by omega)).trans hz, hs⟩

/-- **C25** against the samples the rows stand for. -/
theorem C25_rolling_data_samples {order : ℕ} (ho : 1 ≤ order) (window : ℕ)
    (minPeriods : Option ℤ) (Ls : List (List (Sample K))) (data : List (Mom K))
    (hL : List.Forall₂ (Holds order) Ls data) (hd : ∀ d ∈ data, 0 ≤ d 0) :
    ∃ rows, (kernel1 order).rollingData window minPeriods false data = some rows ∧
      RowsSpec data.length
        (fun i => max (minPeriods.getD window) 1 ≤
          (validCount ((windowRows window i data).map (fun d => d 0)) : ℤ))
        (fun i r => Holds order (windowRows window i Ls).flatten r) rows := by
  obtain ⟨rows, e, h⟩ := C25_rolling_data ho window minPeriods data hd
  refine ⟨rows, e, RowsSpec.mono h fun i r _ _ ⟨r', a, b⟩ => ?_⟩
  exact holds_of_eqUpTo ho b (C03_reduce_data_holds ho _ _ (forall2_window hL _ _) r' a)

/-- **C25** against the samples, comoments. -/
theorem C25_rolling_data_samples_cov {o0 o1 : ℕ} (h0 : 1 ≤ o0) (h1 : 1 ≤ o1) (window : ℕ)
    (minPeriods : Option ℤ) (Ls : List (List (Sample2 K))) (data : List (Com K))
    (hL : List.Forall₂ (Holds2 o0 o1) Ls data) (hd : ∀ d ∈ data, 0 ≤ d 0 0) :
    ∃ rows, (kernel2 o0 o1).rollingData window minPeriods false data = some rows ∧
      RowsSpec data.length
        (fun i => max (minPeriods.getD window) 1 ≤
          (validCount ((windowRows window i data).map (fun d => d 0 0)) : ℤ))
        (fun i r => Holds2 o0 o1 (windowRows window i Ls).flatten r) rows := by
  obtain ⟨rows, e, h⟩ := C25_rolling_data_cov h0 h1 window minPeriods data hd
  refine ⟨rows, e, RowsSpec.mono h fun i r _ _ ⟨r', a, b⟩ => ?_⟩
  exact holds2_of_eqUpTo2 h0 h1 b
    (C03_reduce_data_holds_cov h0 h1 _ _ (forall2_window hL _ _) r' a)

/-! ## C27: centred windows -/

/-- **C27.** With `center=True` and `window ≥ 1` the output has one row per input row and row `i`
covers positions `i - window//2 .. i + (window-1)//2` clipped to the data. -/
theorem C27_centred {order : ℕ} (ho : 1 ≤ order) (window : ℕ) (hw : 1 ≤ window)
    (minPeriods : Option ℤ) (data : List (Mom K)) (hd : ∀ d ∈ data, 0 ≤ d 0) :
    ∃ rows, (kernel1 order).rollingData window minPeriods true data = some rows ∧
      RowsSpec data.length
        (fun i => max (minPeriods.getD window) 1 ≤
          (validCount ((centredRows window i data).map (fun d => d 0)) : ℤ))
        (fun i r => ∃ r', (kernel1 order).reduceDataFromZero (centredRows window i data) = some r' ∧
          EqUpTo order r r') rows := by
  obtain ⟨rows, e, h⟩ :=
    Kernel.rollingData_centred (lawful1 (K := K) order ho) window hw minPeriods data hd
  exact ⟨rows, e, RowsSpec.mono h fun i r _ _ ⟨r', a, b⟩ => ⟨r', a, (eqv1_iff ho).1 b⟩⟩

/-- **C27**, comoments. -/
theorem C27_centred_cov {o0 o1 : ℕ} (h0 : 1 ≤ o0) (h1 : 1 ≤ o1) (window : ℕ) (hw : 1 ≤ window)
    (minPeriods : Option ℤ) (data : List (Com K)) (hd : ∀ d ∈ data, 0 ≤ d 0 0) :
    ∃ rows, (kernel2 o0 o1).rollingData window minPeriods true data = some rows ∧
      RowsSpec data.length
        (fun i => max (minPeriods.getD window) 1 ≤
          (validCount ((centredRows window i data).map (fun d => d 0 0)) : ℤ))
        (fun i r => ∃ r', (kernel2 o0 o1).reduceDataFromZero (centredRows window i data) = some r' ∧
          EqUpTo2 o0 o1 r r') rows := by
  obtain ⟨rows, e, h⟩ :=
    Kernel.rollingData_centred (lawful2 (K := K) o0 o1 h0 h1) window hw minPeriods data hd
  exact ⟨rows, e, RowsSpec.mono h fun i r _ _ ⟨r', a, b⟩ => ⟨r', a, (eqv2_iff h0 h1).1 b⟩⟩

/-- The centred window, position by position: element `j` of the data belongs to it exactly when
`i - window//2 ≤ j ≤ i + (window-1)//2`. -/
theorem C27_window_positions (window i n j : ℕ) :
    j ∈ centredRows window i (List.range n) ↔
      j < n ∧ (i : ℤ) - (window / 2 : ℕ) ≤ j ∧ j ≤ i + (window - 1) / 2 := by
  unfold centredRows
  rw [List.take_range, List.mem_drop_iff_getElem]
  constructor
  · rintro ⟨k, hk, rfl⟩
    simp only [List.length_range] at hk
    simp only [List.getElem_range]
    omega
  · rintro ⟨h1, h2, h3⟩
    refine ⟨j - (i - window / 2), ?_, ?_⟩
    · simp only [List.length_range]; omega
    · simp only [List.getElem_range]; omega

/-- The trailing window of C25, position by position. -/
theorem C25_window_positions (window i n j : ℕ) :
    j ∈ windowRows window i (List.range n) ↔
      j < n ∧ (i : ℤ) - window < j ∧ j ≤ i := by
  unfold windowRows
  rw [List.take_range, List.mem_drop_iff_getElem]
  constructor
  · rintro ⟨k, hk, rfl⟩
    simp only [List.length_range] at hk
    simp only [List.getElem_range]
    omega
  · rintro ⟨h1, h2, h3⟩
    refine ⟨j - (i + 1 - window), ?_, ?_⟩
    · simp only [List.length_range]; omega
    · simp only [List.getElem_range]; omega

/-! ## C26: rolling windows of values -/

/-- **C26.** `rolling_vals` is `rolling_data` of the single-value moment arrays, entry by entry,
centred or not, for any weights. -/
theorem C26_rolling_vals_eq_data {order : ℕ} (ho : 1 ≤ order) (window : ℕ)
    (minPeriods : Option ℤ) (center : Bool) (xs : List (K × K)) :
    (kernel1 order).rollingVals 0 window minPeriods center xs =
      (kernel1 order).rollingData window minPeriods center
        (xs.map (fun p => valToData p.1 p.2)) := by
  refine Kernel.rollingVals_eq (lawful1 (K := K) order ho) 0 ?_ window minPeriods center xs
  funext n
  simp [kernel1, valToData, Function.update_apply]

/-- **C26**, comoments. -/
theorem C26_rolling_vals_eq_data_cov {o0 o1 : ℕ} (h0 : 1 ≤ o0) (h1 : 1 ≤ o1) (window : ℕ)
    (minPeriods : Option ℤ) (center : Bool) (xs : List ((K × K) × K)) :
    (kernel2 o0 o1).rollingVals (0, 0) window minPeriods center xs =
      (kernel2 o0 o1).rollingData window minPeriods center
        (xs.map (fun p => valToDataCov p.1.1 p.1.2 p.2)) := by
  refine Kernel.rollingVals_eq (lawful2 (K := K) o0 o1 h0 h1) (0, 0) ?_ window minPeriods center xs
  funext i j
  simp [kernel2, valToDataCov, setAt_apply]

theorem windowRows_map {α β : Type*} (f : α → β) (window i : ℕ) (l : List α) :
    windowRows window i (l.map f) = (windowRows window i l).map f := by
  unfold windowRows; rw [List.map_drop, List.map_take]

theorem centredRows_map {α β : Type*} (f : α → β) (window i : ℕ) (l : List α) :
    centredRows window i (l.map f) = (centredRows window i l).map f := by
  unfold centredRows; rw [List.map_drop, List.map_take]

theorem weight_pos_of_valid {L : List (Sample K)} (hL : ∀ s ∈ L, 0 ≤ s.w) {c : ℤ} (hc : 1 ≤ c)
    (hv : c ≤ (validCount (L.map Sample.w) : ℤ)) : 0 < weight L := by
  refine lt_of_le_of_ne (List.sum_nonneg ?_) fun hz => ?_
  · intro x hx
    obtain ⟨s, hs, rfl⟩ := List.mem_map.1 hx
    exact hL s hs
  · have hall := Lawful.all_zero_of_sum_zero (l := L.map Sample.w) (by
      intro x hx
      obtain ⟨s, hs, rfl⟩ := List.mem_map.1 hx
      exact hL s hs) hz.symm
    have : validCount (L.map Sample.w) = 0 := List.countP_eq_zero.2 fun w hw => by
      simp [hall w hw]
    omega

theorem weight2_pos_of_valid {L : List (Sample2 K)} (hL : ∀ s ∈ L, 0 ≤ s.w) {c : ℤ} (hc : 1 ≤ c)
    (hv : c ≤ (validCount (L.map Sample2.w) : ℤ)) : 0 < weight2 L := by
  refine lt_of_le_of_ne (List.sum_nonneg ?_) fun hz => ?_
  · intro x hx
    obtain ⟨s, hs, rfl⟩ := List.mem_map.1 hx
    exact hL s hs
  · have hall := Lawful.all_zero_of_sum_zero (l := L.map Sample2.w) (by
      intro x hx
      obtain ⟨s, hs, rfl⟩ := List.mem_map.1 hx
      exact hL s hs) hz.symm
    have : validCount (L.map Sample2.w) = 0 := List.countP_eq_zero.2 fun w hw => by
      simp [hall w hw]
    omega

private theorem reduce_toVals {order : ℕ} (ho : 1 ≤ order) {L : List (Sample K)}
    (hW : weight L ≠ 0) {r : Mom K}
    (e : (kernel1 order).reduceDataFromZero
      ((toVals L).map (fun p => valToData p.1 p.2)) = some r) : IsMoments order L r := by
  have e' : (kernel1 order).reduceVals (toVals L) (kernel1 order).zero = some r := by
    rw [(lawful1 (K := K) order ho).reduceVals_eq_reduceData]; exact e
  refine (isMoments_iff_raw ho hW).2 fun n => ?_
  rw [(lawful1 order ho).reduceVals_raw e', (lawful1 order ho).raw_zero, zero_add, vsum1_eq]

private theorem reduce_toVals2 {o0 o1 : ℕ} (h0 : 1 ≤ o0) (h1 : 1 ≤ o1) {L : List (Sample2 K)}
    (hW : weight2 L ≠ 0) {r : Com K}
    (e : (kernel2 o0 o1).reduceDataFromZero
      ((toVals2 L).map (fun p => valToDataCov p.1.1 p.1.2 p.2)) = some r) :
    IsComoments o0 o1 L r := by
  have e' : (kernel2 o0 o1).reduceVals (toVals2 L) (kernel2 o0 o1).zero = some r := by
    rw [(lawful2 (K := K) o0 o1 h0 h1).reduceVals_eq_reduceData]; exact e
  refine (isComoments_iff_raw h0 h1 hW).2 fun n => ?_
  rw [(lawful2 o0 o1 h0 h1).reduceVals_raw e', (lawful2 o0 o1 h0 h1).raw_zero, zero_add, vsum2_eq]

/-- The window used by row `i`, by mode. -/
private theorem vals_rows {order : ℕ} (ho : 1 ≤ order) (window : ℕ) (minPeriods : Option ℤ)
    (center : Bool) (hc : center = true → 1 ≤ window) (L : List (Sample K))
    (hL : ∀ s ∈ L, 0 ≤ s.w) :
    ∃ rows, (kernel1 order).rollingVals 0 window minPeriods center (toVals L) = some rows ∧
      RowsSpec L.length
        (fun i => max (minPeriods.getD window) 1 ≤
          (validCount ((if center then centredRows window i L else windowRows window i L).map
            Sample.w) : ℤ))
        (fun i r => IsMoments order
          (if center then centredRows window i L else windowRows window i L) r) rows := by
  rw [C26_rolling_vals_eq_data ho]
  have hd : ∀ d ∈ (toVals L).map (fun p => valToData p.1 p.2), 0 ≤ d 0 := by
    intro d hd
    obtain ⟨p, hp, rfl⟩ := List.mem_map.1 hd
    obtain ⟨s, hs, rfl⟩ := List.mem_map.1 hp
    simpa [valToData, Function.update_apply] using hL s hs
  have hcount : ∀ S : List (Sample K),
      ((toVals S).map (fun p => valToData p.1 p.2)).map (fun d => d 0) = S.map Sample.w := by
    intro S; simp [toVals, valToData, Function.comp_def]
  cases center with
  | false =>
    obtain ⟨rows, e, h⟩ := C25_rolling_data ho window minPeriods _ hd
    have hlen : ((toVals L).map (fun p => valToData p.1 p.2)).length = L.length := by
      simp [toVals]
    have hwin : ∀ i, windowRows window i ((toVals L).map (fun p => valToData p.1 p.2)) =
        (toVals (windowRows window i L)).map (fun p => valToData p.1 p.2) := by
      intro i; rw [windowRows_map, toVals, windowRows_map]; rfl
    simp only [hwin, hcount, hlen] at h
    refine ⟨rows, e, ?_⟩
    simp only [Bool.false_eq_true, if_false]
    refine RowsSpec.mono h fun i r _ hp ⟨r', a, b⟩ => ?_
    have hpos := weight_pos_of_valid (L := windowRows window i L)
      (fun s hs => hL s (List.mem_of_mem_take (List.mem_of_mem_drop hs))) (le_max_right _ _) hp
    exact isMoments_of_eqUpTo ho b (reduce_toVals ho hpos.ne' a)
  | true =>
    obtain ⟨rows, e, h⟩ := C27_centred ho window (hc rfl) minPeriods _ hd
    have hlen : ((toVals L).map (fun p => valToData p.1 p.2)).length = L.length := by
      simp [toVals]
    have hwin : ∀ i, centredRows window i ((toVals L).map (fun p => valToData p.1 p.2)) =
        (toVals (centredRows window i L)).map (fun p => valToData p.1 p.2) := by
      intro i; rw [centredRows_map, toVals, centredRows_map]; rfl
    simp only [hwin, hcount, hlen] at h
    refine ⟨rows, e, ?_⟩
    simp only [if_true]
    refine RowsSpec.mono h fun i r _ hp ⟨r', a, b⟩ => ?_
    have hpos := weight_pos_of_valid (L := centredRows window i L)
      (fun s hs => hL s (List.mem_of_mem_take (List.mem_of_mem_drop hs))) (le_max_right _ _) hp
    exact isMoments_of_eqUpTo ho b (reduce_toVals ho hpos.ne' a)

/-- **C26.** Row `i` of `rolling_vals` holds weight, mean and central moments of the samples
`i - window + 1 .. i`. -/
theorem C26_rolling_vals {order : ℕ} (ho : 1 ≤ order) (window : ℕ) (minPeriods : Option ℤ)
    (L : List (Sample K)) (hL : ∀ s ∈ L, 0 ≤ s.w) :
    ∃ rows, (kernel1 order).rollingVals 0 window minPeriods false (toVals L) = some rows ∧
      RowsSpec L.length
        (fun i => max (minPeriods.getD window) 1 ≤
          (validCount ((windowRows window i L).map Sample.w) : ℤ))
        (fun i r => IsMoments order (windowRows window i L) r) rows :=
  vals_rows ho window minPeriods false (by simp) L hL

/-- **C27** for values. -/
theorem C27_centred_vals {order : ℕ} (ho : 1 ≤ order) (window : ℕ) (hw : 1 ≤ window)
    (minPeriods : Option ℤ) (L : List (Sample K)) (hL : ∀ s ∈ L, 0 ≤ s.w) :
    ∃ rows, (kernel1 order).rollingVals 0 window minPeriods true (toVals L) = some rows ∧
      RowsSpec L.length
        (fun i => max (minPeriods.getD window) 1 ≤
          (validCount ((centredRows window i L).map Sample.w) : ℤ))
        (fun i r => IsMoments order (centredRows window i L) r) rows :=
  vals_rows ho window minPeriods true (fun _ => hw) L hL

private theorem vals_rows2 {o0 o1 : ℕ} (h0 : 1 ≤ o0) (h1 : 1 ≤ o1) (window : ℕ)
    (minPeriods : Option ℤ) (center : Bool) (hc : center = true → 1 ≤ window)
    (L : List (Sample2 K)) (hL : ∀ s ∈ L, 0 ≤ s.w) :
    ∃ rows, (kernel2 o0 o1).rollingVals (0, 0) window minPeriods center (toVals2 L) = some rows ∧
      RowsSpec L.length
        (fun i => max (minPeriods.getD window) 1 ≤
          (validCount ((if center then centredRows window i L else windowRows window i L).map
            Sample2.w) : ℤ))
        (fun i r => IsComoments o0 o1
          (if center then centredRows window i L else windowRows window i L) r) rows := by
  rw [C26_rolling_vals_eq_data_cov h0 h1]
  have hd : ∀ d ∈ (toVals2 L).map (fun p => valToDataCov p.1.1 p.1.2 p.2), 0 ≤ d 0 0 := by
    intro d hd
    obtain ⟨p, hp, rfl⟩ := List.mem_map.1 hd
    obtain ⟨s, hs, rfl⟩ := List.mem_map.1 hp
    simpa [valToDataCov, setAt_apply] using hL s hs
  have hcount : ∀ S : List (Sample2 K),
      ((toVals2 S).map (fun p => valToDataCov p.1.1 p.1.2 p.2)).map (fun d => d 0 0) =
        S.map Sample2.w := by
    intro S; simp [toVals2, valToDataCov, setAt_apply, Function.comp_def]
  have hlen : ((toVals2 L).map (fun p => valToDataCov p.1.1 p.1.2 p.2)).length = L.length := by
    simp [toVals2]
  cases center with
  | false =>
    obtain ⟨rows, e, h⟩ := C25_rolling_data_cov h0 h1 window minPeriods _ hd
    have hwin : ∀ i, windowRows window i
        ((toVals2 L).map (fun p => valToDataCov p.1.1 p.1.2 p.2)) =
        (toVals2 (windowRows window i L)).map (fun p => valToDataCov p.1.1 p.1.2 p.2) := by
      intro i; rw [windowRows_map, toVals2, windowRows_map]; rfl
    simp only [hwin, hcount, hlen] at h
    refine ⟨rows, e, ?_⟩
    simp only [Bool.false_eq_true, if_false]
    refine RowsSpec.mono h fun i r _ hp ⟨r', a, b⟩ => ?_
    have hpos := weight2_pos_of_valid (L := windowRows window i L)
      (fun s hs => hL s (List.mem_of_mem_take (List.mem_of_mem_drop hs))) (le_max_right _ _) hp
    exact isComoments_of_eqUpTo2 h0 h1 b (reduce_toVals2 h0 h1 hpos.ne' a)
  | true =>
    obtain ⟨rows, e, h⟩ := C27_centred_cov h0 h1 window (hc rfl) minPeriods _ hd
    have hwin : ∀ i, centredRows window i
        ((toVals2 L).map (fun p => valToDataCov p.1.1 p.1.2 p.2)) =
        (toVals2 (centredRows window i L)).map (fun p => valToDataCov p.1.1 p.1.2 p.2) := by
      intro i; rw [centredRows_map, toVals2, centredRows_map]; rfl
    simp only [hwin, hcount, hlen] at h
    refine ⟨rows, e, ?_⟩
    simp only [if_true]
    refine RowsSpec.mono h fun i r _ hp ⟨r', a, b⟩ => ?_
    have hpos := weight2_pos_of_valid (L := centredRows window i L)
      (fun s hs => hL s (List.mem_of_mem_take (List.mem_of_mem_drop hs))) (le_max_right _ _) hp
    exact isComoments_of_eqUpTo2 h0 h1 b (reduce_toVals2 h0 h1 hpos.ne' a)

/-- **C26**, comoments. -/
theorem C26_rolling_vals_cov {o0 o1 : ℕ} (h0 : 1 ≤ o0) (h1 : 1 ≤ o1) (window : ℕ)
    (minPeriods : Option ℤ) (L : List (Sample2 K)) (hL : ∀ s ∈ L, 0 ≤ s.w) :
    ∃ rows, (kernel2 o0 o1).rollingVals (0, 0) window minPeriods false (toVals2 L) = some rows ∧
      RowsSpec L.length
        (fun i => max (minPeriods.getD window) 1 ≤
          (validCount ((windowRows window i L).map Sample2.w) : ℤ))
        (fun i r => IsComoments o0 o1 (windowRows window i L) r) rows :=
  vals_rows2 h0 h1 window minPeriods false (by simp) L hL

/-- **C27** for values, comoments. -/
theorem C27_centred_vals_cov {o0 o1 : ℕ} (h0 : 1 ≤ o0) (h1 : 1 ≤ o1) (window : ℕ)
    (hw : 1 ≤ window) (minPeriods : Option ℤ) (L : List (Sample2 K)) (hL : ∀ s ∈ L, 0 ≤ s.w) :
    ∃ rows, (kernel2 o0 o1).rollingVals (0, 0) window minPeriods true (toVals2 L) = some rows ∧
      RowsSpec L.length
        (fun i => max (minPeriods.getD window) 1 ≤
          (validCount ((centredRows window i L).map Sample2.w) : ℤ))
        (fun i r => IsComoments o0 o1 (centredRows window i L) r) rows :=
  vals_rows2 h0 h1 window minPeriods true (fun _ => hw) L hL

/-! ## C28, C29: exponential averages -/

theorem rtot_reweight {order : ℕ} (ho : 1 ≤ order) (cs : List K) (Ls : List (List (Sample K)))
    (data : List (Mom K)) (hL : List.Forall₂ (Holds order) Ls data) (n : Fin (order + 1)) :
    (lawful1 (K := K) order ho).rtot (cs.zip data) n =
      wsum (reweight cs Ls) (fun x => x ^ (n : ℕ)) := by
  have hscale : ∀ (c : K) (L : List (Sample K)) (f : K → K),
      wsum (L.map (fun s => ⟨s.w * c, s.x⟩)) f = c * wsum L f := by
    intro c L f
    induction L with
    | nil => simp [wsum_nil]
    | cons s L ih => rw [List.map_cons, wsum_cons, wsum_cons, ih]; ring
  induction hL generalizing cs with
  | nil => cases cs <;> rfl
  | @cons L d Ls data h _ ih =>
    cases cs with
    | nil => rfl
    | cons c cs =>
      have := ih cs
      unfold reweight at this ⊢
      rw [List.zip_cons_cons, Lawful.rtot_cons, Pi.add_apply, this, List.zipWith_cons_cons,
        List.flatten_cons, wsum_append, hscale, Pi.smul_apply, (holds_iff_raw ho).1 h n,
        smul_eq_mul]

theorem rtot_reweight2 {o0 o1 : ℕ} (h0 : 1 ≤ o0) (h1 : 1 ≤ o1) (cs : List K)
    (Ls : List (List (Sample2 K))) (data : List (Com K))
    (hL : List.Forall₂ (Holds2 o0 o1) Ls data) (n : Fin (o0 + 1) × Fin (o1 + 1)) :
    (lawful2 (K := K) o0 o1 h0 h1).rtot (cs.zip data) n =
      wsum2 (reweight2 cs Ls) (fun x y => x ^ (n.1 : ℕ) * y ^ (n.2 : ℕ)) := by
  have hscale : ∀ (c : K) (L : List (Sample2 K)) (f : K → K → K),
      wsum2 (L.map (fun s => ⟨s.w * c, s.x, s.y⟩)) f = c * wsum2 L f := by
    intro c L f
    induction L with
    | nil => simp [wsum2_nil]
    | cons s L ih => rw [List.map_cons, wsum2_cons, wsum2_cons, ih]; ring
  induction hL generalizing cs with
  | nil => cases cs <;> rfl
  | @cons L d Ls data h _ ih =>
    cases cs with
    | nil => rfl
    | cons c cs =>
      have := ih cs
      unfold reweight2 at this ⊢
      rw [List.zip_cons_cons, Lawful.rtot_cons, Pi.add_apply, this, List.zipWith_cons_cons,
        List.flatten_cons, wsum2_append, hscale, Pi.smul_apply, (holds2_iff_raw h0 h1).1 h n,
        smul_eq_mul]

/-- **C28.** `adjust=True`: row `i` stands for samples `0..i`, group `j` carrying the factor
`Π_{j<k≤i} (1 - alpha_k)`; it is missing while fewer than `max(min_periods, 1)` groups of non-zero
weight were seen. -/
theorem C28_adjusted {order : ℕ} (ho : 1 ≤ order) (minPeriods : Option ℤ) (alpha : List K)
    (Ls : List (List (Sample K))) (data : List (Mom K)) (hL : List.Forall₂ (Holds order) Ls data)
    (hlen : alpha.length = data.length) (hd : ∀ d ∈ data, 0 ≤ d 0) (ha : ∀ a ∈ alpha, a ≤ 1) :
    ∃ rows, (kernel1 order).rollingExpData true minPeriods alpha data = some rows ∧
      RowsSpec data.length
        (fun i => max (minPeriods.getD 1) 1 ≤
          (validCount ((data.take (i + 1)).map (fun d => d 0)) : ℤ))
        (fun i r => Holds order
          (reweight (decayCoefs (alpha.take (i + 1))) (Ls.take (i + 1))) r) rows := by
  obtain ⟨rows, e, h⟩ := Kernel.rollingExpData_rows (lawful1 (K := K) order ho) true minPeriods
    alpha data hlen hd (fun a h => ⟨ha a h, by simp⟩)
  refine ⟨rows, e, RowsSpec.mono h fun i r _ _ hr => ?_⟩
  rw [holds_iff_raw ho]
  intro n
  rw [hr, ← rtot_reweight ho _ _ _ (List.forall₂_take _ hL)]
  simp only [Kernel.expCoefs, if_true, Kernel.flags_fst alpha data hlen]

/-- **C28**, comoments. -/
theorem C28_adjusted_cov {o0 o1 : ℕ} (h0 : 1 ≤ o0) (h1 : 1 ≤ o1) (minPeriods : Option ℤ)
    (alpha : List K) (Ls : List (List (Sample2 K))) (data : List (Com K))
    (hL : List.Forall₂ (Holds2 o0 o1) Ls data) (hlen : alpha.length = data.length)
    (hd : ∀ d ∈ data, 0 ≤ d 0 0) (ha : ∀ a ∈ alpha, a ≤ 1) :
    ∃ rows, (kernel2 o0 o1).rollingExpData true minPeriods alpha data = some rows ∧
      RowsSpec data.length
        (fun i => max (minPeriods.getD 1) 1 ≤
          (validCount ((data.take (i + 1)).map (fun d => d 0 0)) : ℤ))
        (fun i r => Holds2 o0 o1
          (reweight2 (decayCoefs (alpha.take (i + 1))) (Ls.take (i + 1))) r) rows := by
  obtain ⟨rows, e, h⟩ := Kernel.rollingExpData_rows (lawful2 (K := K) o0 o1 h0 h1) true minPeriods
    alpha data hlen hd (fun a h => ⟨ha a h, by simp⟩)
  refine ⟨rows, e, RowsSpec.mono h fun i r _ _ hr => ?_⟩
  rw [holds2_iff_raw h0 h1]
  intro n
  rw [hr, ← rtot_reweight2 h0 h1 _ _ _ (List.forall₂_take _ hL)]
  simp only [Kernel.expCoefs, if_true, Kernel.flags_fst alpha data hlen]

/-- **C29.** `adjust=False`: row `i` stands for samples `0..i` with the coefficients of
`unadjustedCoefs`. -/
theorem C29_unadjusted {order : ℕ} (ho : 1 ≤ order) (minPeriods : Option ℤ) (alpha : List K)
    (Ls : List (List (Sample K))) (data : List (Mom K)) (hL : List.Forall₂ (Holds order) Ls data)
    (hlen : alpha.length = data.length) (hd : ∀ d ∈ data, 0 ≤ d 0)
    (ha : ∀ a ∈ alpha, 0 < a ∧ a ≤ 1) :
    ∃ rows, (kernel1 order).rollingExpData false minPeriods alpha data = some rows ∧
      RowsSpec data.length
        (fun i => max (minPeriods.getD 1) 1 ≤
          (validCount ((data.take (i + 1)).map (fun d => d 0)) : ℤ))
        (fun i r => Holds order
          (reweight (unadjustedCoefs ((alpha.zip (data.map (fun d => decide (d 0 ≠ 0)))).take (i + 1)))
            (Ls.take (i + 1))) r) rows := by
  obtain ⟨rows, e, h⟩ := Kernel.rollingExpData_rows (lawful1 (K := K) order ho) false minPeriods
    alpha data hlen hd (fun a h => ⟨(ha a h).2, fun _ => (ha a h).1⟩)
  refine ⟨rows, e, RowsSpec.mono h fun i r _ _ hr => ?_⟩
  rw [holds_iff_raw ho]
  intro n
  rw [hr, ← rtot_reweight ho _ _ _ (List.forall₂_take _ hL)]
  simp only [Kernel.expCoefs, Bool.false_eq_true, if_false, Kernel.flags]
  rfl

/-- **C29**, comoments. -/
theorem C29_unadjusted_cov {o0 o1 : ℕ} (h0 : 1 ≤ o0) (h1 : 1 ≤ o1) (minPeriods : Option ℤ)
    (alpha : List K) (Ls : List (List (Sample2 K))) (data : List (Com K))
    (hL : List.Forall₂ (Holds2 o0 o1) Ls data) (hlen : alpha.length = data.length)
    (hd : ∀ d ∈ data, 0 ≤ d 0 0) (ha : ∀ a ∈ alpha, 0 < a ∧ a ≤ 1) :
    ∃ rows, (kernel2 o0 o1).rollingExpData false minPeriods alpha data = some rows ∧
      RowsSpec data.length
        (fun i => max (minPeriods.getD 1) 1 ≤
          (validCount ((data.take (i + 1)).map (fun d => d 0 0)) : ℤ))
        (fun i r => Holds2 o0 o1
          (reweight2
            (unadjustedCoefs ((alpha.zip (data.map (fun d => decide (d 0 0 ≠ 0)))).take (i + 1)))
            (Ls.take (i + 1))) r) rows := by
  obtain ⟨rows, e, h⟩ := Kernel.rollingExpData_rows (lawful2 (K := K) o0 o1 h0 h1) false minPeriods
    alpha data hlen hd (fun a h => ⟨(ha a h).2, fun _ => (ha a h).1⟩)
  refine ⟨rows, e, RowsSpec.mono h fun i r _ _ hr => ?_⟩
  rw [holds2_iff_raw h0 h1]
  intro n
  rw [hr, ← rtot_reweight2 h0 h1 _ _ _ (List.forall₂_take _ hL)]
  simp only [Kernel.expCoefs, Bool.false_eq_true, if_false, Kernel.flags]
  rfl

/-- **C29.** The textbook recursion `y_0 = x_0`, `y_i = (1 - alpha_i) y_{i-1} + alpha_i x_i`, for
data of non-zero weight at `i` and `i + 1` and present rows: row `i + 1` stands for what row `i`
stands for, scaled by `1 - alpha_{i+1}`, together with sample `i + 1` scaled by `alpha_{i+1}`. -/
theorem C29_recursion {order : ℕ} (ho : 1 ≤ order) (minPeriods : Option ℤ) (alpha : List K)
    (data : List (Mom K)) (hlen : alpha.length = data.length) (hd : ∀ d ∈ data, 0 ≤ d 0)
    (ha : ∀ a ∈ alpha, 0 < a ∧ a ≤ 1) (rows : List (Option (Mom K)))
    (e : (kernel1 order).rollingExpData false minPeriods alpha data = some rows) (i : ℕ)
    (hi : i + 1 < data.length) (hv : data[i] 0 ≠ 0) (hv' : data[i + 1] 0 ≠ 0) (r r' : Mom K)
    (er : rows[i]? = some (some r)) (er' : rows[i + 1]? = some (some r')) (S T : List (Sample K))
    (hS : Holds order S r) (hT : Holds order T data[i + 1]) :
    Holds order (reweight [1 - alpha[i + 1], alpha[i + 1]] [S, T]) r' := by
  obtain ⟨rows', e', h⟩ := Kernel.rollingExpData_rows (lawful1 (K := K) order ho) false minPeriods
    alpha data hlen hd (fun a h => ⟨(ha a h).2, fun _ => (ha a h).1⟩)
  rw [e] at e'
  cases e'
  have key : ∀ j s, j < data.length → rows[j]? = some (some s) →
      (lawful1 (K := K) order ho).raw s = (lawful1 (K := K) order ho).rtot
        ((Kernel.expCoefs false (Kernel.flags (kernel1 order) alpha data j)).zip
          (data.take (j + 1))) := by
    intro j s hj es
    rcases h.2 j hj with ⟨-, s', es', hs⟩ | ⟨-, hn⟩
    · rw [es] at es'; cases es'; exact hs
    · rw [es] at hn; cases hn
  have k1 := key i r (by omega) er
  have k2 := key (i + 1) r' hi er'
  rw [Kernel.unadjusted_raw_step (lawful1 (K := K) order ho) alpha data i hlen hi hv hv', ← k1] at k2
  rw [holds_iff_raw ho]
  intro n
  rw [k2, ← rtot_reweight ho _ [S, T] [r, data[i + 1]]
    (List.Forall₂.cons hS (List.Forall₂.cons hT List.Forall₂.nil)) n]
  simp [Lawful.rtot_cons, Lawful.rtot_nil]

/-- **C29**, comoments: the recursion. -/
theorem C29_recursion_cov {o0 o1 : ℕ} (h0 : 1 ≤ o0) (h1 : 1 ≤ o1) (minPeriods : Option ℤ)
    (alpha : List K) (data : List (Com K)) (hlen : alpha.length = data.length)
    (hd : ∀ d ∈ data, 0 ≤ d 0 0) (ha : ∀ a ∈ alpha, 0 < a ∧ a ≤ 1) (rows : List (Option (Com K)))
    (e : (kernel2 o0 o1).rollingExpData false minPeriods alpha data = some rows) (i : ℕ)
    (hi : i + 1 < data.length) (hv : data[i] 0 0 ≠ 0) (hv' : data[i + 1] 0 0 ≠ 0) (r r' : Com K)
    (er : rows[i]? = some (some r)) (er' : rows[i + 1]? = some (some r')) (S T : List (Sample2 K))
    (hS : Holds2 o0 o1 S r) (hT : Holds2 o0 o1 T data[i + 1]) :
    Holds2 o0 o1 (reweight2 [1 - alpha[i + 1], alpha[i + 1]] [S, T]) r' := by
  obtain ⟨rows', e', h⟩ := Kernel.rollingExpData_rows (lawful2 (K := K) o0 o1 h0 h1) false
    minPeriods alpha data hlen hd (fun a h => ⟨(ha a h).2, fun _ => (ha a h).1⟩)
  rw [e] at e'
  cases e'
  have key : ∀ j s, j < data.length → rows[j]? = some (some s) →
      (lawful2 (K := K) o0 o1 h0 h1).raw s = (lawful2 (K := K) o0 o1 h0 h1).rtot
        ((Kernel.expCoefs false (Kernel.flags (kernel2 o0 o1) alpha data j)).zip
          (data.take (j + 1))) := by
    intro j s hj es
    rcases h.2 j hj with ⟨-, s', es', hs⟩ | ⟨-, hn⟩
    · rw [es] at es'; cases es'; exact hs
    · rw [es] at hn; cases hn
  have k1 := key i r (by omega) er
  have k2 := key (i + 1) r' hi er'
  rw [Kernel.unadjusted_raw_step (lawful2 (K := K) o0 o1 h0 h1) alpha data i hlen hi hv hv',
    ← k1] at k2
  rw [holds2_iff_raw h0 h1]
  intro n
  rw [k2, ← rtot_reweight2 h0 h1 _ [S, T] [r, data[i + 1]]
    (List.Forall₂.cons hS (List.Forall₂.cons hT List.Forall₂.nil)) n]
  simp [Lawful.rtot_cons, Lawful.rtot_nil]

omit [LinearOrder K] [IsStrictOrderedRing K] in
/-- **C29.** Without gaps the coefficients are `Π_{k>0}(1 - alpha_k)` for sample 0 and
`alpha_j Π_{k>j}(1 - alpha_k)` for sample `j`. -/
theorem C29_coefs_without_gaps (a : K) (ha : a ≠ 0) (as : List K) :
    unadjustedCoefs ((a :: as).map (fun x => (x, true))) =
      List.zipWith (fun c d => c * d) (1 :: as) (decayCoefs (a :: as)) :=
  unadjustedCoefs_all_valid a ha as

theorem unadjusted_rem_nonneg (l : List (K × Bool)) (ha : ∀ p ∈ l, 0 < p.1 ∧ p.1 ≤ 1) :
    0 ≤ (l.foldl unadjustedStep (([] : List K), 0)).2 := by
  induction l using List.reverseRecOn with
  | nil => exact le_rfl
  | append_singleton l p ih =>
    rw [unadjustedCoefs_snoc, unadjustedStep]
    have := ih (fun q hq => ha q (by simp [hq]))
    split
    · exact zero_le_one
    · exact mul_nonneg this (sub_nonneg.2 (ha p (by simp)).2)

/-- **C29.** Right after a valid sample the coefficients sum to 1, gaps or not. -/
theorem C29_coefs_sum (l : List (K × Bool)) (a : K)
    (ha : ∀ p ∈ l ++ [(a, true)], 0 < p.1 ∧ p.1 ≤ 1) :
    (unadjustedCoefs (l ++ [(a, true)])).sum = 1 := by
  unfold unadjustedCoefs
  rw [unadjusted_sum, unadjusted_rem_valid]
  rintro pre b ⟨post, e⟩
  have hb := ha (b, true) (by rw [e]; simp)
  have hpre := unadjusted_rem_nonneg pre (fun q hq => ha q (by rw [e]; simp [hq]))
  exact (add_pos_of_nonneg_of_pos (mul_nonneg hpre (sub_nonneg.2 hb.2)) hb.1).ne'

/-- **C29.** Row 0 of the unadjusted average of data of non-zero weight is the data itself. -/
theorem C29_first_row {order : ℕ} (ho : 1 ≤ order) (a : K) (as : List K) (d : Mom K)
    (ds : List (Mom K)) (hlen : as.length = ds.length) (hd : ∀ x ∈ d :: ds, 0 ≤ x 0)
    (ha : ∀ x ∈ a :: as, 0 < x ∧ x ≤ 1) (hv : d 0 ≠ 0) :
    ∃ rows r, (kernel1 order).rollingExpData false none (a :: as) (d :: ds) = some rows ∧
      rows[0]? = some (some r) ∧ EqUpTo order r d := by
  obtain ⟨rows, e, h⟩ := Kernel.rollingExpData_rows (lawful1 (K := K) order ho) false none
    (a :: as) (d :: ds) (by simp [hlen]) hd (fun x h => ⟨(ha x h).2, fun _ => (ha x h).1⟩)
  have hv' : (kernel1 order).weight d ≠ 0 := hv
  have hn : Kernel.nz (kernel1 order) [d] = 1 := by
    rw [Kernel.nz_cons, if_pos hv', Kernel.nz_nil]
  rcases h.2 0 (by simp) with ⟨-, r, er, hr⟩ | ⟨hp, -⟩
  · refine ⟨rows, r, e, er, (eqv1_iff ho).1 ?_⟩
    have ha0 : a ≠ 0 := (ha a (by simp)).1.ne'
    have hraw : (lawful1 (K := K) order ho).raw r = (lawful1 (K := K) order ho).raw d := by
      rw [hr]
      simp [Kernel.flags, hv', Kernel.expCoefs, unadjustedCoefs, unadjustedStep,
        Lawful.rtot_cons, Lawful.rtot_nil, ha0]
    refine (lawful1 (K := K) order ho).eqv_of_raw ?_ hraw
    rw [(lawful1 (K := K) order ho).weight_eq_of_raw hraw]; exact hv
  · exact absurd (by simp [hn]) hp

/-- **C29**, negative witness: `alpha = 0` at the first sample (of non-zero weight) divides by
zero. -/
theorem C29_alpha_zero_undefined {order : ℕ} (ho : 1 ≤ order) (minPeriods : Option ℤ)
    (as : List K) (d : Mom K) (ds : List (Mom K)) (hv : d 0 ≠ 0) :
    (kernel1 order).rollingExpData false minPeriods (0 :: as) (d :: ds) = none := by
  have hv' : (kernel1 order).weight d ≠ 0 := hv
  have hs : ∀ o, (kernel1 order).pushScale d 0 o = some o := fun o =>
    (lawful1 (K := K) order ho).scale_skip d 0 o (mul_zero _)
  simp [Kernel.rollingExpData, scanEmit, Kernel.expStep, hv', hs, Kernel.expRenorm]

/-- **C28, C29** for values: `rolling_exp_vals` is `rolling_exp_data` of the single-value
arrays. -/
theorem C28_vals_eq_data {order : ℕ} (ho : 1 ≤ order) (adjust : Bool) (minPeriods : Option ℤ)
    (alpha : List K) (xs : List (K × K)) :
    (kernel1 order).rollingExpVals adjust minPeriods alpha xs =
      (kernel1 order).rollingExpData adjust minPeriods alpha
        (xs.map (fun p => valToData p.1 p.2)) :=
  Kernel.rollingExpVals_eq (lawful1 (K := K) order ho) adjust minPeriods alpha xs

/-- **C28, C29** for values, comoments. -/
theorem C28_vals_eq_data_cov {o0 o1 : ℕ} (h0 : 1 ≤ o0) (h1 : 1 ≤ o1) (adjust : Bool)
    (minPeriods : Option ℤ) (alpha : List K) (xs : List ((K × K) × K)) :
    (kernel2 o0 o1).rollingExpVals adjust minPeriods alpha xs =
      (kernel2 o0 o1).rollingExpData adjust minPeriods alpha
        (xs.map (fun p => valToDataCov p.1.1 p.1.2 p.2)) :=
  Kernel.rollingExpVals_eq (lawful2 (K := K) o0 o1 h0 h1) adjust minPeriods alpha xs

theorem reweight_singletons (cs : List K) (L : List (Sample K)) :
    reweight cs (L.map (fun s => [s])) = scaleBy cs L := by
  unfold reweight scaleBy
  induction L generalizing cs with
  | nil => simp
  | cons s L ih =>
    cases cs with
    | nil => simp
    | cons c cs => simp [ih cs]

theorem reweight2_singletons (cs : List K) (L : List (Sample2 K)) :
    reweight2 cs (L.map (fun s => [s])) = scaleBy2 cs L := by
  unfold reweight2 scaleBy2
  induction L generalizing cs with
  | nil => simp
  | cons s L ih =>
    cases cs with
    | nil => simp
    | cons c cs => simp [ih cs]

theorem holds_singletons {order : ℕ} (ho : 1 ≤ order) (L : List (Sample K)) :
    List.Forall₂ (Holds order) (L.map (fun s => [s]))
      ((toVals L).map (fun p => valToData p.1 p.2)) := by
  unfold toVals
  induction L with
  | nil => exact List.Forall₂.nil
  | cons s L ih =>
    refine List.Forall₂.cons ?_ ih
    rw [holds_iff_raw ho]
    intro n
    have := (lawful1 (K := K) order ho).raw_ofVal s.x s.w
    refine (congrFun this n).trans ?_
    rw [wsum_cons, wsum_nil, add_zero]
    rfl

theorem holds2_singletons {o0 o1 : ℕ} (h0 : 1 ≤ o0) (h1 : 1 ≤ o1) (L : List (Sample2 K)) :
    List.Forall₂ (Holds2 o0 o1) (L.map (fun s => [s]))
      ((toVals2 L).map (fun p => valToDataCov p.1.1 p.1.2 p.2)) := by
  unfold toVals2
  induction L with
  | nil => exact List.Forall₂.nil
  | cons s L ih =>
    refine List.Forall₂.cons ?_ ih
    rw [holds2_iff_raw h0 h1]
    intro n
    have := (lawful2 (K := K) o0 o1 h0 h1).raw_ofVal (s.x, s.y) s.w
    refine (congrFun this n).trans ?_
    rw [wsum2_cons, wsum2_nil, add_zero]
    rfl

/-- **C28** for values. -/
theorem C28_adjusted_vals {order : ℕ} (ho : 1 ≤ order) (minPeriods : Option ℤ) (alpha : List K)
    (L : List (Sample K)) (hlen : alpha.length = L.length) (hL : ∀ s ∈ L, 0 ≤ s.w)
    (ha : ∀ a ∈ alpha, a ≤ 1) :
    ∃ rows, (kernel1 order).rollingExpVals true minPeriods alpha (toVals L) = some rows ∧
      RowsSpec L.length
        (fun i => max (minPeriods.getD 1) 1 ≤
          (validCount ((L.take (i + 1)).map Sample.w) : ℤ))
        (fun i r => Holds order
          (scaleBy (decayCoefs (alpha.take (i + 1))) (L.take (i + 1))) r) rows := by
  rw [C28_vals_eq_data ho]
  have hcount : ∀ S : List (Sample K),
      ((toVals S).map (fun p => valToData p.1 p.2)).map (fun d => d 0) = S.map Sample.w := by
    intro S; simp [toVals, valToData, Function.comp_def]
  have hd : ∀ d ∈ (toVals L).map (fun p => valToData p.1 p.2), 0 ≤ d 0 := by
    intro d hd
    obtain ⟨p, hp, rfl⟩ := List.mem_map.1 hd
    obtain ⟨s, hs, rfl⟩ := List.mem_map.1 hp
    simpa [valToData, Function.update_apply] using hL s hs
  obtain ⟨rows, e, h⟩ := C28_adjusted ho minPeriods alpha _ _ (holds_singletons ho L)
    (by simp [toVals, hlen]) hd ha
  have ht : ∀ i, ((toVals L).map (fun p => valToData p.1 p.2)).take i =
      (toVals (L.take i)).map (fun p => valToData p.1 p.2) := by
    intro i; simp [toVals]
  have hlen' : ((toVals L).map (fun p => valToData p.1 p.2)).length = L.length := by
    simp [toVals]
  simp only [hlen', ht, hcount, ← List.map_take, reweight_singletons] at h
  exact ⟨rows, e, h⟩

/-- **C29** for values. -/
theorem C29_unadjusted_vals {order : ℕ} (ho : 1 ≤ order) (minPeriods : Option ℤ) (alpha : List K)
    (L : List (Sample K)) (hlen : alpha.length = L.length) (hL : ∀ s ∈ L, 0 ≤ s.w)
    (ha : ∀ a ∈ alpha, 0 < a ∧ a ≤ 1) :
    ∃ rows, (kernel1 order).rollingExpVals false minPeriods alpha (toVals L) = some rows ∧
      RowsSpec L.length
        (fun i => max (minPeriods.getD 1) 1 ≤
          (validCount ((L.take (i + 1)).map Sample.w) : ℤ))
        (fun i r => Holds order
          (scaleBy (unadjustedCoefs ((alpha.zip (L.map (fun s => decide (s.w ≠ 0)))).take (i + 1)))
            (L.take (i + 1))) r) rows := by
  rw [C28_vals_eq_data ho]
  have hcount : ∀ S : List (Sample K),
      ((toVals S).map (fun p => valToData p.1 p.2)).map (fun d => d 0) = S.map Sample.w := by
    intro S; simp [toVals, valToData, Function.comp_def]
  have hcount' : ∀ S : List (Sample K),
      ((toVals S).map (fun p => valToData p.1 p.2)).map (fun d => decide (d 0 ≠ 0)) =
        S.map (fun s => decide (s.w ≠ 0)) := by
    intro S; simp [toVals, valToData, Function.comp_def]
  have hd : ∀ d ∈ (toVals L).map (fun p => valToData p.1 p.2), 0 ≤ d 0 := by
    intro d hd
    obtain ⟨p, hp, rfl⟩ := List.mem_map.1 hd
    obtain ⟨s, hs, rfl⟩ := List.mem_map.1 hp
    simpa [valToData, Function.update_apply] using hL s hs
  obtain ⟨rows, e, h⟩ := C29_unadjusted ho minPeriods alpha _ _ (holds_singletons ho L)
    (by simp [toVals, hlen]) hd ha
  have ht : ∀ i, ((toVals L).map (fun p => valToData p.1 p.2)).take i =
      (toVals (L.take i)).map (fun p => valToData p.1 p.2) := by
    intro i; simp [toVals]
  have hlen' : ((toVals L).map (fun p => valToData p.1 p.2)).length = L.length := by
    simp [toVals]
  simp only [hcount', hlen', ht, hcount, ← List.map_take, reweight_singletons] at h
  exact ⟨rows, e, h⟩

/-- **C28** for values, comoments. -/
theorem C28_adjusted_vals_cov {o0 o1 : ℕ} (h0 : 1 ≤ o0) (h1 : 1 ≤ o1) (minPeriods : Option ℤ) (alpha : List K)
    (L : List (Sample2 K)) (hlen : alpha.length = L.length) (hL : ∀ s ∈ L, 0 ≤ s.w)
    (ha : ∀ a ∈ alpha, a ≤ 1) :
    ∃ rows, (kernel2 o0 o1).rollingExpVals true minPeriods alpha (toVals2 L) = some rows ∧
      RowsSpec L.length
        (fun i => max (minPeriods.getD 1) 1 ≤
          (validCount ((L.take (i + 1)).map Sample2.w) : ℤ))
        (fun i r => Holds2 o0 o1
          (scaleBy2 (decayCoefs (alpha.take (i + 1))) (L.take (i + 1))) r) rows := by
  rw [C28_vals_eq_data_cov h0 h1]
  have hcount : ∀ S : List (Sample2 K),
      ((toVals2 S).map (fun p => valToDataCov p.1.1 p.1.2 p.2)).map (fun d => d 0 0) = S.map Sample2.w := by
    intro S; simp [toVals2, valToDataCov, setAt_apply, Function.comp_def]
  have hd : ∀ d ∈ (toVals2 L).map (fun p => valToDataCov p.1.1 p.1.2 p.2), 0 ≤ d 0 0 := by
    intro d hd
    obtain ⟨p, hp, rfl⟩ := List.mem_map.1 hd
    obtain ⟨s, hs, rfl⟩ := List.mem_map.1 hp
    simpa [valToDataCov, setAt_apply] using hL s hs
  obtain ⟨rows, e, h⟩ := C28_adjusted_cov h0 h1 minPeriods alpha _ _ (holds2_singletons h0 h1 L)
    (by simp [toVals2, hlen]) hd ha
  have ht : ∀ i, ((toVals2 L).map (fun p => valToDataCov p.1.1 p.1.2 p.2)).take i =
      (toVals2 (L.take i)).map (fun p => valToDataCov p.1.1 p.1.2 p.2) := by
    intro i; simp [toVals2]
  have hlen' : ((toVals2 L).map (fun p => valToDataCov p.1.1 p.1.2 p.2)).length = L.length := by
    simp [toVals2]
  simp only [hlen', ht, hcount, ← List.map_take, reweight2_singletons] at h
  exact ⟨rows, e, h⟩

/-- **C29** for values, comoments. -/
theorem C29_unadjusted_vals_cov {o0 o1 : ℕ} (h0 : 1 ≤ o0) (h1 : 1 ≤ o1) (minPeriods : Option ℤ) (alpha : List K)
    (L : List (Sample2 K)) (hlen : alpha.length = L.length) (hL : ∀ s ∈ L, 0 ≤ s.w)
    (ha : ∀ a ∈ alpha, 0 < a ∧ a ≤ 1) :
    ∃ rows, (kernel2 o0 o1).rollingExpVals false minPeriods alpha (toVals2 L) = some rows ∧
      RowsSpec L.length
        (fun i => max (minPeriods.getD 1) 1 ≤
          (validCount ((L.take (i + 1)).map Sample2.w) : ℤ))
        (fun i r => Holds2 o0 o1
          (scaleBy2 (unadjustedCoefs ((alpha.zip (L.map (fun s => decide (s.w ≠ 0)))).take (i + 1)))
            (L.take (i + 1))) r) rows := by
  rw [C28_vals_eq_data_cov h0 h1]
  have hcount : ∀ S : List (Sample2 K),
      ((toVals2 S).map (fun p => valToDataCov p.1.1 p.1.2 p.2)).map (fun d => d 0 0) = S.map Sample2.w := by
    intro S; simp [toVals2, valToDataCov, setAt_apply, Function.comp_def]
  have hcount' : ∀ S : List (Sample2 K),
      ((toVals2 S).map (fun p => valToDataCov p.1.1 p.1.2 p.2)).map (fun d => decide (d 0 0 ≠ 0)) =
        S.map (fun s => decide (s.w ≠ 0)) := by
    intro S; simp [toVals2, valToDataCov, setAt_apply, Function.comp_def]
  have hd : ∀ d ∈ (toVals2 L).map (fun p => valToDataCov p.1.1 p.1.2 p.2), 0 ≤ d 0 0 := by
    intro d hd
    obtain ⟨p, hp, rfl⟩ := List.mem_map.1 hd
    obtain ⟨s, hs, rfl⟩ := List.mem_map.1 hp
    simpa [valToDataCov, setAt_apply] using hL s hs
  obtain ⟨rows, e, h⟩ := C29_unadjusted_cov h0 h1 minPeriods alpha _ _ (holds2_singletons h0 h1 L)
    (by simp [toVals2, hlen]) hd ha
  have ht : ∀ i, ((toVals2 L).map (fun p => valToDataCov p.1.1 p.1.2 p.2)).take i =
      (toVals2 (L.take i)).map (fun p => valToDataCov p.1.1 p.1.2 p.2) := by
    intro i; simp [toVals2]
  have hlen' : ((toVals2 L).map (fun p => valToDataCov p.1.1 p.1.2 p.2)).length = L.length := by
    simp [toVals2]
  simp only [hcount', hlen', ht, hcount, ← List.map_take, reweight2_singletons] at h
  exact ⟨rows, e, h⟩

/-! ## C30: bias correction -/

theorem coefSum_one (cs ws : List K) : coefSum 1 cs ws = sumCW cs ws := by
  unfold coefSum sumCW; simp

theorem coefSum_two (cs ws : List K) : coefSum 2 cs ws = sumC2W cs ws := by
  unfold coefSum sumC2W; simp only [sq]

theorem biasEmit_eq (s : BiasState K) :
    biasEmit s = biasValue s.sumWeight s.sumWeight2 := by
  unfold biasEmit biasValue
  simp only [sq, gt_iff_lt, sub_pos]

/-- **C30.** `adjust=True`, any `alpha`, any weights: entry `i` is `V1²/(V1² - V2)` with
`V1 = Σ c_j w_j`, `V2 = Σ c_j² w_j` over samples `0..i` and `c_j = Π_{j<k≤i} (1 - alpha_k)`, and
missing exactly when `V1² ≤ V2`. -/
theorem C30_bias_adjusted (alpha weight : List K) (hlen : alpha.length = weight.length) :
    ∃ rows, biasCorrection true alpha weight = some rows ∧ rows.length = weight.length ∧
      ∀ i, i < weight.length → rows[i]? = some
        (biasValue (sumCW (decayCoefs (alpha.take (i + 1))) (weight.take (i + 1)))
          (sumC2W (decayCoefs (alpha.take (i + 1))) (weight.take (i + 1)))) := by
  obtain ⟨rows, e, hl, hrows⟩ := biasCorrection_spec true alpha weight hlen (by simp)
  refine ⟨rows, e, hl, fun i hi => ?_⟩
  obtain ⟨s, ⟨g1, g2, -⟩, es⟩ := hrows i hi
  have h1 : ((alpha.zip weight).take (i + 1)).map Prod.snd = weight.take (i + 1) := by
    rw [List.map_take, List.map_snd_zip (by omega)]
  have h2 : ((alpha.zip weight).take (i + 1)).map Prod.fst = alpha.take (i + 1) := by
    rw [List.map_take, List.map_fst_zip (by omega)]
  simp only [Kernel.expCoefs, if_true, List.map_map, Function.comp_def] at g1 g2
  rw [h1, h2] at g1 g2
  rw [es, biasEmit_eq, g1, g2, coefSum_one, coefSum_two]

/-- **C30.** `adjust=False`, `0 < alpha ≤ 1`, any weights: the same with the unadjusted
coefficients. -/
theorem C30_bias_unadjusted (alpha weight : List K) (hlen : alpha.length = weight.length)
    (ha : ∀ a ∈ alpha, 0 < a ∧ a ≤ 1) :
    ∃ rows, biasCorrection false alpha weight = some rows ∧ rows.length = weight.length ∧
      ∀ i, i < weight.length → rows[i]? = some
        (biasValue
          (sumCW (unadjustedCoefs ((alpha.zip (weight.map (fun w => decide (w ≠ 0)))).take (i + 1)))
            (weight.take (i + 1)))
          (sumC2W (unadjustedCoefs ((alpha.zip (weight.map (fun w => decide (w ≠ 0)))).take (i + 1)))
            (weight.take (i + 1)))) := by
  obtain ⟨rows, e, hl, hrows⟩ := biasCorrection_spec false alpha weight hlen (fun _ => ha)
  refine ⟨rows, e, hl, fun i hi => ?_⟩
  obtain ⟨s, ⟨g1, g2, -⟩, es⟩ := hrows i hi
  have h1 : ((alpha.zip weight).take (i + 1)).map Prod.snd = weight.take (i + 1) := by
    rw [List.map_take, List.map_snd_zip (by omega)]
  have h2 : ((alpha.zip weight).take (i + 1)).map (fun p => (p.1, decide (p.2 ≠ 0))) =
      (alpha.zip (weight.map (fun w => decide (w ≠ 0)))).take (i + 1) := by
    rw [List.zip_map_right, List.map_take]; rfl
  simp only [Kernel.expCoefs, Bool.false_eq_true, if_false] at g1 g2
  rw [h1, h2] at g1 g2
  rw [es, biasEmit_eq, g1, g2, coefSum_one, coefSum_two]

/-- **C30.** The entry is missing exactly when `V1² ≤ V2`. -/
theorem C30_missing_iff (v1 v2 : K) : biasValue v1 v2 = none ↔ v1 ^ 2 ≤ v2 := by
  unfold biasValue
  split_ifs with h
  · simp only [false_iff, not_le]; exact h
  · simp only [true_iff]; exact not_lt.1 h

/-- **C30.** A present correction factor for non-negative weights is at least 1. -/
theorem C30_factor_ge_one (v1 v2 f : K) (h2 : 0 ≤ v2) (h : biasValue v1 v2 = some f) : 1 ≤ f := by
  unfold biasValue at h
  split_ifs at h with hlt
  cases h
  rw [one_le_div (sub_pos.2 hlt)]
  linarith

end ordered

/-! ## Concrete cases -/

/-- The hypotheses of C25, C27 with a gap, and what the rows are. -/
example : (∀ d ∈ [exA, (fun _ => 0), exB, exD], (0 : ℚ) ≤ d 0) ∧
    (((kernel1 3).rollingData 2 (some 1) false [exA, (fun _ => 0), exB, exD]).map
      (fun rows => rows.map (fun r => r.map (fun m => m 0)))) =
      some [some (exA 0), some (exA 0), some (exB 0), some (exB 0 + exD 0)] := by decide +kernel

/-- Missing rows occur: `min_periods` defaults to the window. -/
example : (((kernel1 3).rollingData 2 none false [exA, (fun _ => 0), exB, exD]).map
      (fun rows => rows.map (fun r => r.map (fun m => m 0)))) =
      some [none, none, none, some (exB 0 + exD 0)] := by decide +kernel

/-- Centred: even window, one more row behind than ahead. -/
example : (((kernel1 3).rollingData 4 (some 1) true [exA, (fun _ => 0), exB, exD]).map
      (fun rows => rows.map (fun r => r.map (fun m => m 0)))) =
      some [some (exA 0), some (exA 0 + exB 0), some (exA 0 + exB 0 + exD 0),
        some (exB 0 + exD 0)] := by decide +kernel

/-- C25 fails for weights of mixed sign: the rows `5, -3, 1` with `window = 2`. The last window
`(-3, 1)` has weight `-2`; the code subtracts the leaving row `5` only if `5 < dummy[0]`, which is
false, resets to zero and reports weight 0. -/
theorem C25_mixed_signs_wrong :
    ((kernel1 1).rollingData 2 (some 1) false
        [(fun n => if n = 0 then 5 else 0 : Mom ℚ), fun n => if n = 0 then -3 else 0,
          fun n => if n = 0 then 1 else 0]).map (fun rows => rows.map (fun r => r.map (fun m => m 0)))
      = some [some 5, some 2, some 0] ∧ (windowRows 2 2 [(5 : ℚ), -3, 1]).sum = -2 := by
  decide +kernel

/-- Exponential average with a gap, `adjust=True`. -/
example : (((kernel1 1).rollingExpVals true none [(1/2 : ℚ), 1/2, 1/4] [(1, 1), (5, 0), (3, 2)]).map
      (fun rows => rows.map (fun r => r.map (fun m => m 0)))) =
      some [some 1, some (1/2), some (19/8)] ∧
    decayCoefs [(1/2 : ℚ), 1/2, 1/4] = [3/8, 3/4, 1] := by decide +kernel

/-- Exponential average with a gap, `adjust=False`. -/
example : unadjustedCoefs [((1/2 : ℚ), true), (1/2, false), (1/4, true)] = [3/5, 0, 2/5] ∧
    (((kernel1 1).rollingExpVals false none [(1/2 : ℚ), 1/2, 1/4] [(1, 1), (5, 0), (3, 2)]).map
      (fun rows => rows.map (fun r => r.map (fun m => m 0)))) =
      some [some 1, some (1/2), some (7/5)] := by decide +kernel

example : ∀ p ∈ [((1/2 : ℚ), true), (1/2, false), (1/4, true)], 0 < p.1 ∧ p.1 ≤ 1 := by
  decide +kernel

/-- Bias correction: missing first, then present. -/
example : biasCorrection true [(1/2 : ℚ), 1/2, 1/2] [1, 1, 0] = some [none, some (9/4), some (9/4)] ∧
    biasCorrection false [(1/2 : ℚ), 1/2] [1, 1] = some [none, some 2] := by decide +kernel

end Cmomy
