import Verif.Lemmas.RoundingError
import Verif.Props.Rounding

/-!
# C76: the errors of averages and variances

How far averages and variances computed in rounded arithmetic are from those of the samples. The constants are not
the best ones.
-/

namespace Cmomy

open Spec

variable {K : Type*} [Field K] [LinearOrder K] [IsStrictOrderedRing K] {R : Precision K} {u B : K} {order : ℕ}

omit [LinearOrder K] [IsStrictOrderedRing K] in
/-- The samples as records. -/
theorem recMean_samples (L : List (Sample K)) :
    recWeight (L.map fun s => (⟨s.w, s.x, 0⟩ : Record K)) = weight L ∧
    recMean (L.map fun s => (⟨s.w, s.x, 0⟩ : Record K)) = mean L ∧
    recVar (L.map fun s => (⟨s.w, s.x, 0⟩ : Record K)) = central L 2 := by
  have h0 : recWeight (L.map fun s => (⟨s.w, s.x, 0⟩ : Record K)) = weight L := by
    unfold recWeight weight
    rw [List.map_map]
    rfl
  have h1 : recMean (L.map fun s => (⟨s.w, s.x, 0⟩ : Record K)) = mean L := by
    unfold recMean mean wsum
    rw [h0, List.map_map]
    rfl
  refine ⟨h0, h1, ?_⟩
  unfold recVar central wsum
  rw [h0, h1, List.map_map]
  simp only [Function.comp_def, zero_add]

/-- **C76** `reduce_vals`: the errors of the weight, the average and the variance. -/
theorem C76_reduce_vals (h : Accurate R u) {L : List (Sample K)} (hB : 0 ≤ B)
    (hL : ∀ s ∈ L, IsWeight R s.w ∧ |s.x| ≤ B) (hsm : 16 * ((L.length + 5) * u) ≤ 1) :
    ∃ m, (R.kernel1 order).reduceValsFromZero (toVals L) = some m ∧
      |m 1 - mean L| ≤ 16 * ((L.length + 5) * u) * B ∧
      (order ≠ 1 → 400 * ((L.length + 5) * u) ≤ 1 →
        |m 2 - central L 2| ≤ 400 * ((L.length + 5) * u) * B ^ 2) := by
  obtain ⟨m, e, hm⟩ := Near.foldlM (N := L.length) (n := 0) (B := B) (order := order)
    (fun o (p : K × K) => (R.kernel1 order).pushVal p.1 p.2 o)
    (fun p => ⟨p.2, p.1, 0⟩) (fun p => IsWeight R p.2 ∧ |p.1| ≤ B)
    (fun {n S0 S1 S2 m a} ha hn hm =>
      hm.pushVal h hn hsm ha.1.2 ha.2 ha.1 ⟨1, Fac.one h.nonneg, by rw [mul_one]⟩)
    (l := toVals L) (by
      intro p hp
      obtain ⟨s, hs, rfl⟩ := List.mem_map.1 hp
      exact hL s hs) (by simp [toVals]) (Near.zero h hB order _)
  have e1 : (toVals L).map (fun p => (⟨p.2, p.1, 0⟩ : Record K)) = L.map fun s => (⟨s.w, s.x, 0⟩ : Record K) := by
    unfold toVals
    rw [List.map_map]
    rfl
  rw [zero_add, zero_add, zero_add, zero_add, e1] at hm
  have := hm.almost h.nonneg hB (by simp [toVals]) (by simp) (by simpa using hsm)
  obtain ⟨-, h1, h2⟩ := recMean_samples L
  refine ⟨m, e, ?_, fun ho hs => ?_⟩
  · have := this.mean
    rwa [h1, List.length_map] at this
  · have := this.var ho (by simpa using hs)
    rwa [h2, List.length_map] at this

/-- A record that may be pushed. -/
def OkRecord (R : Precision K) (B : K) (d : Mom K) : Prop :=
  IsWeight R (d 0) ∧ |d 1| ≤ B ∧ 0 ≤ d 2 ∧ d 2 ≤ B ^ 2

/-- **C76** `reduce_data`. -/
theorem C76_reduce_data (h : Accurate R u) {ds : List (Mom K)} (hB : 0 ≤ B) (hd : ∀ d ∈ ds, OkRecord R B d)
    (hsm : 16 * ((ds.length + 5) * u) ≤ 1) :
    ∃ m, (R.kernel1 order).reduceDataFromZero ds = some m ∧ AlmostOf u B order (ds.map recordOf) m := by
  obtain ⟨m, e, hm⟩ := Near.foldlM (N := ds.length) (n := 0) (B := B) (order := order)
    (fun o d => (R.kernel1 order).pushData d o) recordOf (OkRecord R B)
    (fun {n S0 S1 S2 m a} ha hn hm =>
      hm.pushData h hn hsm ha.1.2 ha.2.1 ha.2.2.1 ha.2.2.2 ha.1 ⟨1, Fac.one h.nonneg, by rw [mul_one]; rfl⟩)
    (l := ds) hd (by simp) (Near.zero h hB order _)
  rw [zero_add, zero_add, zero_add, zero_add] at hm
  exact ⟨m, e, hm.almost h.nonneg hB (by simp) (by simp) (by simpa using hsm)⟩

/-- **C76** `resample_vals`: each replicate is that of the samples with weights multiplied by the frequencies. -/
theorem C76_resample_vals (h : Accurate R u) {xs : List (K × K)} (hB : 0 ≤ B)
    (hx : ∀ p ∈ xs, IsWeight R p.2 ∧ |p.1| ≤ B) {freq : List (List K)} (hf : ∀ row ∈ freq, ∀ f ∈ row, 0 ≤ f)
    (hsm : 16 * ((xs.length + 5) * u) ≤ 1) :
    List.Forall₂ (fun fs r => ∃ m, r = some m ∧
        |m 1 - recMean ((fs.zip xs).map fun p => ⟨p.2.2 * p.1, p.2.1, 0⟩)| ≤ 16 * ((xs.length + 5) * u) * B ∧
        (order ≠ 1 → 400 * ((xs.length + 5) * u) ≤ 1 →
          |m 2 - recVar ((fs.zip xs).map fun p => ⟨p.2.2 * p.1, p.2.1, 0⟩)| ≤ 400 * ((xs.length + 5) * u) * B ^ 2))
      freq (R.resampleVals (R.kernel1 order) freq xs) := by
  unfold Precision.resampleVals
  rw [List.forall₂_map_right_iff, List.forall₂_same]
  intro fs hfs
  have hu1 := h.small hsm
  have hlen : (fs.zip xs).length ≤ xs.length := by simp
  have hu := h.nonneg
  have c1 : (((fs.zip xs).length : K) + 5) * u ≤ (xs.length + 5) * u :=
    mul_le_mul_of_nonneg_right (by exact_mod_cast (by omega : (fs.zip xs).length + 5 ≤ xs.length + 5)) hu
  obtain ⟨m, e, hm⟩ := Near.foldlM (N := (fs.zip xs).length) (n := 0) (B := B) (order := order)
    (fun o (p : K × K × K) => if p.1 = 0 then some o else
      (R.kernel1 order).pushVal p.2.1 (R.lo (p.2.2 * p.1)) o)
    (fun p => ⟨p.2.2 * p.1, p.2.1, 0⟩) (fun p => 0 ≤ p.1 ∧ IsWeight R p.2.2 ∧ |p.2.1| ≤ B)
    (fun {n S0 S1 S2 m a} ha hn hm => by
      by_cases hz : a.1 = 0
      · refine ⟨m, if_pos hz, ?_⟩
        simp only [hz, mul_zero, zero_mul, add_zero]
        exact hm.mono hu hB hn (by linarith)
      · obtain ⟨m', e, h'⟩ := hm.pushVal h hn (by linarith) (mul_nonneg ha.2.1.2 ha.1) ha.2.2
          (h.precision.weight_mul ha.2.1.2 ha.1) (round_fac hu1 h.lo _)
        exact ⟨m', (if_neg hz).trans e, h'⟩)
    (l := fs.zip xs) (by
      intro p hp
      exact ⟨hf fs hfs _ (List.of_mem_zip hp).1, hx _ (List.of_mem_zip hp).2⟩) (by simp) (Near.zero h hB order _)
  rw [zero_add, zero_add, zero_add, zero_add] at hm
  have := hm.almost hu hB (by simp) (by simp) (by rw [List.length_map]; linarith)
  refine ⟨m, e, ?_, fun ho hs => ?_⟩
  · have := this.mean
    rw [List.length_map] at this
    have := mul_le_mul_of_nonneg_right c1 hB
    linarith
  · have := this.var ho (by rw [List.length_map]; linarith)
    rw [List.length_map] at this
    have := mul_le_mul_of_nonneg_right c1 (sq_nonneg B)
    linarith

/-- **C76** `resample_data`: each replicate is that of the records with weights multiplied by the frequencies. -/
theorem C76_resample_data (h : Accurate R u) {ds : List (Mom K)} (hB : 0 ≤ B)
    (hd : ∀ d ∈ ds, OkRecord R B d ∧ d 0 ≠ 0) {freq : List (List K)} (hf : ∀ row ∈ freq, ∀ f ∈ row, 0 ≤ f)
    (hsm : 16 * ((ds.length + 5) * u) ≤ 1) :
    List.Forall₂ (fun fs r => ∃ m, r = some m ∧
        |m 1 - recMean ((fs.zip ds).map fun p => (recordOf p.2).times p.1)| ≤ 16 * ((ds.length + 5) * u) * B ∧
        (order ≠ 1 → 400 * ((ds.length + 5) * u) ≤ 1 →
          |m 2 - recVar ((fs.zip ds).map fun p => (recordOf p.2).times p.1)| ≤ 400 * ((ds.length + 5) * u) * B ^ 2))
      freq ((R.kernel1 order).resampleData freq ds) := by
  unfold Kernel.resampleData
  rw [List.forall₂_map_right_iff, List.forall₂_same]
  intro fs hfs
  have hu1 := h.small hsm
  have hu := h.nonneg
  have hlen : (fs.zip ds).length ≤ ds.length := by simp
  have c1 : (((fs.zip ds).length : K) + 5) * u ≤ (ds.length + 5) * u :=
    mul_le_mul_of_nonneg_right (by exact_mod_cast (by omega : (fs.zip ds).length + 5 ≤ ds.length + 5)) hu
  have hok : ∀ p ∈ fs.zip ds, 0 ≤ p.1 ∧ OkRecord R B p.2 ∧ p.2 0 ≠ 0 := fun p hp =>
    ⟨hf fs hfs _ (List.of_mem_zip hp).1, hd _ (List.of_mem_zip hp).2⟩
  have key : ∀ l : List (K × Mom K), (∀ p ∈ l, 0 ≤ p.1 ∧ OkRecord R B p.2 ∧ p.2 0 ≠ 0) →
      16 * (((l.length : K) + 5) * u) ≤ 1 →
      ∃ m, (R.kernel1 order).resampleDataRow l = some m ∧
        ∃ n ≤ l.length, Near R u B order l.length n (recWeight (l.map fun p => (recordOf p.2).times p.1))
          (recSum1 (l.map fun p => (recordOf p.2).times p.1))
          (recSum2 (l.map fun p => (recordOf p.2).times p.1)) m := by
    intro l
    induction l with
    | nil =>
      intro _ _
      exact ⟨_, rfl, 0, le_rfl, by
        simp only [recWeight, recSum1, recSum2, List.map_nil, List.sum_nil]
        exact Near.zero h hB order 0⟩
    | cons p l ih =>
      intro hl hs
      have hs' : 16 * (((l.length : K) + 5) * u) ≤ 1 := by
        rw [List.length_cons] at hs
        push_cast at hs
        linarith
      obtain ⟨hp1, hp2, hp3⟩ := hl p List.mem_cons_self
      have hl' := fun q hq => hl q (List.mem_cons_of_mem p hq)
      have hnn := mul_nonneg (Nat.cast_nonneg (α := K) l.length) hu
      by_cases hz : p.1 = 0
      · obtain ⟨m, e, n, hn, hm⟩ := ih hl' hs'
        refine ⟨m, ?_, n, by rw [List.length_cons]; omega, ?_⟩
        · rw [← e]
          show (R.kernel1 order).resampleDataRow ((p.1, p.2) :: l) = _
          unfold Kernel.resampleDataRow
          rw [if_neg (by simpa using hz)]
          cases l <;> rfl
        · have hw : ((recordOf p.2).times p.1).w = 0 := by
            show p.2 0 * p.1 = 0
            rw [hz, mul_zero]
          simp only [recWeight, recSum1, recSum2, List.map_cons, List.sum_cons, hw, zero_mul, zero_add] at hm ⊢
          have c : ((l.length : K) + 5) * u ≤ (((p :: l).length : ℕ) + 5) * u := by
            rw [List.length_cons]
            push_cast
            linarith
          refine ⟨hm.sum0, hm.sum1, hm.sum2, hm.sum2', hm.sound, hm.weight, hm.mean.trans ?_, fun ho hs => ?_⟩
          · have := mul_le_mul_of_nonneg_right c hB
            linarith
          · have := mul_le_mul_of_nonneg_right c (sq_nonneg B)
            exact (hm.var ho (by linarith)).trans (by linarith)
      · have hpos : 0 < p.2 0 * p.1 :=
          mul_pos (lt_of_le_of_ne hp2.1.2 (Ne.symm hp3)) (lt_of_le_of_ne hp1 (Ne.symm hz))
        obtain ⟨r, hr, er⟩ := round_fac hu1 h.lo (p.2 0 * p.1)
        have hcc : (0 : K) ≤ (((p :: l).length : ℕ) + 5) * u := mul_nonneg (by positivity) hu
        have hx2 : p.2 1 ^ 2 ≤ B ^ 2 := by
          rw [← sq_abs (p.2 1)]
          exact pow_le_pow_left₀ (abs_nonneg _) hp2.2.1 2
        have hfirst : Near R u B order (p :: l).length 1 (p.2 0 * p.1) (p.2 0 * p.1 * p.2 1)
            (p.2 0 * p.1 * (p.2 2 + p.2 1 ^ 2)) ((R.kernel1 order).mulWeight p.2 p.1) := by
          have e1 : (R.kernel1 order).mulWeight p.2 p.1 = Function.update p.2 0 (R.lo (p.2 0 * p.1)) := rfl
          have h1 : (1 : K) * u ≤ ((1 + 1 : ℕ) : K) * u := mul_le_mul_of_nonneg_right (by norm_num) hu
          rw [e1]
          refine ⟨hpos.le, ?_, ?_, ?_, ⟨?_, ?_⟩, ⟨r, hr.mono (by linarith) hu1, ?_⟩, ?_, fun _ _ => ?_⟩
          · rw [abs_mul, abs_of_pos hpos, mul_comm]
            exact mul_le_mul_of_nonneg_right hp2.2.1 hpos.le
          · exact mul_nonneg hpos.le (add_nonneg hp2.2.2.1 (sq_nonneg _))
          · have := mul_le_mul_of_nonneg_left (show p.2 2 + p.2 1 ^ 2 ≤ 2 * B ^ 2 by linarith [hp2.2.2.2]) hpos.le
            linarith
          · rw [Function.update_self]
            exact h.precision.weight_mul hp2.1.2 hp1
          · rw [Function.update_of_ne (by decide)]
            exact hp2.2.2.1
          · rw [Function.update_self, er]
          · rw [Function.update_of_ne (by decide), mul_div_cancel_left₀ _ hpos.ne', sub_self, abs_zero]
            have := mul_nonneg hcc hB
            have := mul_nonneg (mul_nonneg (Nat.cast_nonneg (α := K) 1) hu) hB
            linarith
          · rw [Function.update_of_ne (by decide), mul_div_cancel_left₀ _ hpos.ne', mul_div_cancel_left₀ _ hpos.ne',
              add_sub_cancel_right, sub_self, abs_zero]
            have := mul_nonneg hcc (sq_nonneg B)
            have := mul_nonneg (mul_nonneg (Nat.cast_nonneg (α := K) 1) hu) (sq_nonneg B)
            linarith
        obtain ⟨m, e, hm⟩ := Near.foldlM (N := (p :: l).length) (n := 1) (B := B) (order := order)
          (fun o (p : K × Mom K) => if p.1 ≠ 0 then (R.kernel1 order).pushScale p.2 p.1 o else some o)
          (fun p => (recordOf p.2).times p.1) (fun p => 0 ≤ p.1 ∧ OkRecord R B p.2)
          (fun {n S0 S1 S2 m a} ha hn hm => by
            by_cases hz : a.1 = 0
            · refine ⟨m, if_neg (by simpa using hz), ?_⟩
              simp only [Record.times, hz, mul_zero, zero_mul, add_zero]
              exact hm.mono hu hB hn hs
            · obtain ⟨m', e, h'⟩ := hm.pushData h hn hs (mul_nonneg ha.2.1.2 ha.1) ha.2.2.1 ha.2.2.2.1 ha.2.2.2.2
                (h.precision.weight_mul ha.2.1.2 ha.1) (round_fac hu1 h.lo _)
              exact ⟨m', (if_pos hz).trans e, h'⟩)
          (l := l) (fun q hq => ⟨(hl' q hq).1, (hl' q hq).2.1⟩) (by rw [List.length_cons]; omega) hfirst
        refine ⟨m, ?_, _, by rw [List.length_cons]; omega, hm⟩
        rw [← e]
        show (R.kernel1 order).resampleDataRow ((p.1, p.2) :: l) = _
        unfold Kernel.resampleDataRow
        rw [if_pos hz]
        rfl
  obtain ⟨m, e, n, hn, hm⟩ := key _ hok (by linarith)
  have := hm.almost hu hB hn (by simp) (by rw [List.length_map]; linarith)
  refine ⟨m, e, ?_, fun ho hs => ?_⟩
  · have := this.mean
    rw [List.length_map] at this
    have := mul_le_mul_of_nonneg_right c1 hB
    linarith
  · have := this.var ho (by rw [List.length_map]; linarith)
    rw [List.length_map] at this
    have := mul_le_mul_of_nonneg_right c1 (sq_nonneg B)
    linarith

/-! ### Records of samples -/

/-- The record of samples. -/
def recordOfSamples (L : List (Sample K)) : Record K := ⟨weight L, mean L, central L 2⟩

omit [LinearOrder K] [IsStrictOrderedRing K] in
/-- **C76** Average and variance of records are those of all their samples. -/
theorem C76_records {groups : List (List (Sample K))} (hg : ∀ g ∈ groups, weight g ≠ 0)
    (hW : weight groups.flatten ≠ 0) :
    recMean (groups.map recordOfSamples) = mean groups.flatten ∧
    recVar (groups.map recordOfSamples) = central groups.flatten 2 := by
  have rec1 : ∀ L : List (Sample K), recSum1 (L.map fun s => (⟨s.w, s.x, 0⟩ : Record K)) = wsum L (fun x => x) := by
    intro L
    unfold recSum1 wsum
    rw [List.map_map]
    rfl
  have rec2 : ∀ L : List (Sample K), recSum2 (L.map fun s => (⟨s.w, s.x, 0⟩ : Record K)) = wsum L (fun x => x ^ 2) := by
    intro L
    unfold recSum2 wsum
    rw [List.map_map]
    simp only [Function.comp_def, zero_add]
  have cen : ∀ L : List (Sample K), weight L ≠ 0 →
      central L 2 = wsum L (fun x => x ^ 2) / weight L - mean L ^ 2 := by
    intro L hL
    obtain ⟨h0, -, h2⟩ := recMean_samples L
    rw [← h2, recVar_eq (by rw [h0]; exact hL), h0, rec1, rec2]
    rfl
  have app : ∀ (f : K → K) (L L' : List (Sample K)), wsum (L ++ L') f = wsum L f + wsum L' f := by
    intro f L L'
    unfold wsum
    rw [List.map_append, List.sum_append]
  have s0 : recWeight (groups.map recordOfSamples) = weight groups.flatten := by
    clear hg hW
    induction groups with
    | nil => rfl
    | cons g gs ih =>
      simp only [recWeight, weight, List.map_cons, List.sum_cons, List.flatten_cons, List.map_append,
        List.sum_append] at ih ⊢
      rw [ih]
      rfl
  have s1 : recSum1 (groups.map recordOfSamples) = wsum groups.flatten (fun x => x) := by
    clear hW s0
    induction groups with
    | nil => rfl
    | cons g gs ih =>
      rw [List.flatten_cons, app, ← ih fun g h => hg g (List.mem_cons_of_mem _ h)]
      have : weight g * mean g = wsum g (fun x => x) := by
        unfold mean
        rw [mul_div_cancel₀ _ (hg g List.mem_cons_self)]
      rw [← this]
      rfl
  have s2 : recSum2 (groups.map recordOfSamples) = wsum groups.flatten (fun x => x ^ 2) := by
    clear hW s0 s1
    induction groups with
    | nil => rfl
    | cons g gs ih =>
      rw [List.flatten_cons, app, ← ih fun g h => hg g (List.mem_cons_of_mem _ h)]
      have hne := hg g List.mem_cons_self
      have : weight g * (central g 2 + mean g ^ 2) = wsum g (fun x => x ^ 2) := by
        rw [cen g hne, sub_add_cancel, mul_div_cancel₀ _ hne]
      rw [← this]
      rfl
  refine ⟨?_, ?_⟩
  · show recSum1 _ / recWeight _ = _
    rw [s1, s0]
    rfl
  · rw [recVar_eq (by rw [s0]; exact hW), s0, s1, s2, cen _ hW]
    rfl

/-! ### Binary digits -/

/-- **C76** Rounding to nearest, with `p` binary digits in the arrays. -/
theorem C76_digits [FloorRing K] {p p' : ℕ} (hp : 1 ≤ p) (hpp : p ≤ p') :
    Accurate (⟨toDigits nearestEven p none, toDigits nearestEven p' none⟩ : Precision K) (2 ^ (-(p : ℤ))) := by
  refine ⟨C75_digits nearestEven_isIntRounding hp hpp (by simp) (by simp), C75_digits_error p, fun y => ?_⟩
  refine (C75_digits_error p' y).trans (mul_le_mul_of_nonneg_right ?_ (abs_nonneg _))
  exact zpow_le_zpow_right₀ one_le_two (by omega)

theorem C76_float64 : Accurate float64 (2 ^ (-53 : ℤ)) := C76_digits (p := 53) (by norm_num) (le_refl _)

theorem C76_float32 : Accurate float32 (2 ^ (-24 : ℤ)) := C76_digits (p := 24) (by norm_num) (by norm_num)

/-! ### Concrete cases -/

/-- A million samples between -1 and 1 in double precision: the average is right up to `2e-9`, the variance up to
`5e-8`. -/
example {L : List (Sample ℚ)} (hl : L.length = 1000000) (hL : ∀ s ∈ L, IsWeight float64 s.w ∧ |s.x| ≤ 1) :
    ∃ m, (float64.kernel1 2).reduceValsFromZero (toVals L) = some m ∧ |m 1 - mean L| ≤ 2 / 10 ^ 9 ∧
      |m 2 - central L 2| ≤ 5 / 10 ^ 8 := by
  obtain ⟨m, e, h1, h2⟩ := C76_reduce_vals (order := 2) C76_float64 zero_le_one hL (by rw [hl]; norm_num)
  refine ⟨m, e, h1.trans ?_, (h2 (by norm_num) (by rw [hl]; norm_num)).trans ?_⟩ <;> rw [hl] <;> norm_num

/-- Such samples exist. -/
example : ∃ L : List (Sample ℚ), L.length = 1000000 ∧ ∀ s ∈ L, IsWeight float64 s.w ∧ |s.x| ≤ 1 :=
  ⟨List.replicate 1000000 ⟨1, 1 / 3⟩, List.length_replicate, fun s hs => by
    rw [List.eq_of_mem_replicate hs]
    exact ⟨⟨C75_float64.num_one, zero_le_one⟩, by rw [abs_le]; constructor <;> norm_num⟩⟩

/-- With nine digits, `1 / 3`, 1 and 2 have average `10 / 9` up to `16 * 8 / 2 ^ 9`, but not exactly. -/
example : ((digits 9).kernel1 2 |>.reduceValsFromZero (toVals [⟨1, 1 / 3⟩, ⟨1, 1⟩, ⟨1, 2⟩])).map (fun m => m 1)
    = some (71 / 64) := by
  decide +kernel

end Cmomy
