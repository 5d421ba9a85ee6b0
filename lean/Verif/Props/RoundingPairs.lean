import Verif.Lemmas.RoundingPairs
import Verif.Props.RoundingError

/-!
# C79: the errors of covariances

How far averages, variances and covariances of pairs computed in rounded arithmetic are from those of the samples. The
constants are not the best ones.
-/

namespace Cmomy

open Spec

variable {K : Type*} [Field K] [LinearOrder K] [IsStrictOrderedRing K] {R : Precision K} {u B0 B1 : K} {o0 o1 : ℕ}

/-- **C79** `reduce_data`. -/
theorem C79_reduce_data (h : Accurate R u) (h0 : 1 ≤ o0) (h1 : 1 ≤ o1) {ds : List (Com K)} (hB0 : 0 ≤ B0)
    (hB1 : 0 ≤ B1) (hd : ∀ d ∈ ds, IsWeight R (d 0 0) ∧ OkCov B0 B1 o0 o1 d) (hsm : 16 * ((ds.length + 5) * u) ≤ 1) :
    ∃ m, (R.kernel2 o0 o1).reduceDataFromZero ds = some m ∧
      AlmostCov u B0 B1 o0 o1 (ds.map fun d => ⟨d 0 0, d⟩) m := by
  obtain ⟨m, e, hm⟩ := NearCov.foldlM (N := ds.length) (n := 0) (fun o d => (R.kernel2 o0 o1).pushData d o)
    (fun d => ⟨d 0 0, d⟩) (fun d => IsWeight R (d 0 0) ∧ OkCov B0 B1 o0 o1 d)
    (fun {n L m a} ha hn hm =>
      hm.pushData h h0 h1 hn hsm ha.1.2 ha.2 ha.1 ⟨1, Fac.one h.nonneg, by rw [mul_one]⟩)
    (l := ds) hd (by simp) (NearCov.zero h hB0 hB1 o0 o1 _)
  exact ⟨m, e, hm.almost h.nonneg hB0 hB1 (by simp) (by simp)⟩

/-- One sample as comoments. -/
theorem okCov_val {x y w : K} (hx : |x| ≤ B0) (hy : |y| ≤ B1) : OkCov B0 B1 o0 o1 (valToDataCov x y w) := by
  have hB0 : 0 ≤ B0 := (abs_nonneg _).trans hx
  have hB1 : 0 ≤ B1 := (abs_nonneg _).trans hy
  refine ⟨by simpa [valToDataCov, setAt_apply] using hx, by simpa [valToDataCov, setAt_apply] using hy, fun p _ => ?_⟩
  have e : p.entry (valToDataCov x y w) = 0 := by cases p <;> simp [Second.entry, valToDataCov, setAt_apply]
  have hb := Second.bounds hB0 hB1 p
  rw [e, abs_zero]
  exact mul_nonneg hb.1 hb.2

/-- The samples as records. -/
def sampleRecords (L : List (Sample2 K)) : List (Weighted K) := L.map fun s => ⟨s.w, valToDataCov s.x s.y s.w⟩

omit [LinearOrder K] [IsStrictOrderedRing K] in
/-- Averages, variances and covariance of the samples as records are those of the samples. -/
theorem sampleRecords_spec (L : List (Sample2 K)) :
    wtdMean (sampleRecords L) (fun d => d 1 0) = meanX L ∧ wtdMean (sampleRecords L) (fun d => d 0 1) = meanY L ∧
    wtdSecond (sampleRecords L) .cov = central2 L 1 1 ∧ wtdSecond (sampleRecords L) .var0 = central2 L 2 0 ∧
    wtdSecond (sampleRecords L) .var1 = central2 L 0 2 := by
  have v10 : ∀ x y w : K, valToDataCov x y w 1 0 = x := fun x y w => by simp [valToDataCov, setAt_apply]
  have v01 : ∀ x y w : K, valToDataCov x y w 0 1 = y := fun x y w => by simp [valToDataCov, setAt_apply]
  have v2 : ∀ (p : Second) (x y w : K), p.entry (valToDataCov x y w) = 0 := fun p x y w => by
    cases p <;> simp [Second.entry, valToDataCov, setAt_apply]
  have hW : wtdWeight (sampleRecords L) = weight2 L := by
    unfold wtdWeight sampleRecords weight2
    rw [List.map_map]
    rfl
  have hX : wtdMean (sampleRecords L) (fun d => d 1 0) = meanX L := by
    unfold wtdMean meanX wsum2
    rw [hW]
    unfold sampleRecords
    rw [List.map_map]
    simp only [Function.comp_def, v10]
  have hY : wtdMean (sampleRecords L) (fun d => d 0 1) = meanY L := by
    unfold wtdMean meanY wsum2
    rw [hW]
    unfold sampleRecords
    rw [List.map_map]
    simp only [Function.comp_def, v01]
  refine ⟨hX, hY, ?_, ?_, ?_⟩
  all_goals
    unfold wtdSecond central2 wsum2
    rw [hW]
    simp only [v2, show (Second.cov.fst : Com K → K) = fun d => d 1 0 from rfl,
      show (Second.cov.snd : Com K → K) = fun d => d 0 1 from rfl,
      show (Second.var0.fst : Com K → K) = fun d => d 1 0 from rfl,
      show (Second.var0.snd : Com K → K) = fun d => d 1 0 from rfl,
      show (Second.var1.fst : Com K → K) = fun d => d 0 1 from rfl,
      show (Second.var1.snd : Com K → K) = fun d => d 0 1 from rfl, hX, hY]
    unfold sampleRecords
    rw [List.map_map]
    simp only [Function.comp_def, v10, v01, v2, zero_add, pow_one, pow_zero, one_mul, mul_one, sq]

/-- **C79** `reduce_vals`: the errors of the averages, the variances and the covariance. -/
theorem C79_reduce_vals (h : Accurate R u) (h0 : 1 ≤ o0) (h1 : 1 ≤ o1) {L : List (Sample2 K)} (hB0 : 0 ≤ B0)
    (hB1 : 0 ≤ B1) (hL : ∀ s ∈ L, IsWeight R s.w ∧ |s.x| ≤ B0 ∧ |s.y| ≤ B1) (hsm : 16 * ((L.length + 5) * u) ≤ 1) :
    ∃ m, (R.kernel2 o0 o1).reduceValsFromZero (toVals2 L) = some m ∧
      |m 1 0 - meanX L| ≤ 16 * ((L.length + 5) * u) * B0 ∧
      |m 0 1 - meanY L| ≤ 16 * ((L.length + 5) * u) * B1 ∧
      (450 * ((L.length + 5) * u) ≤ 1 →
        |m 1 1 - central2 L 1 1| ≤ 450 * ((L.length + 5) * u) * (B0 * B1) ∧
        (2 ≤ o0 → |m 2 0 - central2 L 2 0| ≤ 450 * ((L.length + 5) * u) * (B0 * B0)) ∧
        (2 ≤ o1 → |m 0 2 - central2 L 0 2| ≤ 450 * ((L.length + 5) * u) * (B1 * B1))) := by
  obtain ⟨m, e, hm⟩ := NearCov.foldlM (N := L.length) (n := 0)
    (fun o (p : (K × K) × K) => (R.kernel2 o0 o1).pushVal p.1 p.2 o)
    (fun p => ⟨p.2, valToDataCov p.1.1 p.1.2 p.2⟩) (fun p => IsWeight R p.2 ∧ |p.1.1| ≤ B0 ∧ |p.1.2| ≤ B1)
    (fun {n L m a} ha hn hm => by
      obtain ⟨m', e, h'⟩ := hm.pushData h h0 h1 hn hsm ha.1.2 (okCov_val (w := a.2) ha.2.1 ha.2.2) ha.1
        ⟨1, Fac.one h.nonneg, by rw [mul_one]⟩
      exact ⟨m', (Precision.pushValCov_eq h.precision o0 o1 _ _ _ _).trans e, h'⟩)
    (l := toVals2 L) (by
      intro p hp
      obtain ⟨s, hs, rfl⟩ := List.mem_map.1 hp
      exact hL s hs) (by simp [toVals2]) (NearCov.zero h hB0 hB1 o0 o1 _)
  have e1 : (toVals2 L).map (fun p => (⟨p.2, valToDataCov p.1.1 p.1.2 p.2⟩ : Weighted K)) = sampleRecords L := by
    unfold toVals2 sampleRecords
    rw [List.map_map]
    rfl
  rw [List.nil_append, e1] at hm
  have hl : (sampleRecords L).length = L.length := by simp [sampleRecords]
  have := hm.almost h.nonneg hB0 hB1 (by simp [toVals2]) (by simp [sampleRecords])
  obtain ⟨sx, sy, s11, s20, s02⟩ := sampleRecords_spec L
  have t0 := this.mean0
  have t1 := this.mean1
  have t2 := this.second
  rw [hl] at t0 t1 t2
  rw [sx] at t0
  rw [sy] at t1
  refine ⟨m, e, t0, t1, fun hs => ⟨s11 ▸ t2 .cov trivial hs, fun ho => s20 ▸ t2 .var0 ho hs,
    fun ho => s02 ▸ t2 .var1 ho hs⟩⟩

/-- **C79** `resample_data`: each replicate is that of the records with weights multiplied by the frequencies. -/
theorem C79_resample_data (h : Accurate R u) (h0 : 1 ≤ o0) (h1 : 1 ≤ o1) {ds : List (Com K)} (hB0 : 0 ≤ B0)
    (hB1 : 0 ≤ B1) (hd : ∀ d ∈ ds, OkCov B0 B1 o0 o1 d ∧ IsWeight R (d 0 0) ∧ d 0 0 ≠ 0) {freq : List (List K)}
    (hf : ∀ row ∈ freq, row.length = ds.length ∧ ∀ f ∈ row, 0 ≤ f) (hsm : 16 * ((ds.length + 5) * u) ≤ 1) :
    List.Forall₂ (fun fs r => ∃ m, r = some m ∧
        AlmostCov u B0 B1 o0 o1 ((fs.zip ds).map fun p => ⟨p.2 0 0 * p.1, p.2⟩) m)
      freq ((R.kernel2 o0 o1).resampleData freq ds) := by
  unfold Kernel.resampleData
  rw [List.forall₂_map_right_iff, List.forall₂_same]
  intro fs hfs
  have hlen : (fs.zip ds).length = ds.length := by rw [List.length_zip, (hf fs hfs).1, min_self]
  obtain ⟨m, e, hm⟩ := NearCov.resampleDataRow (N := ds.length) (n := 0) (L := []) h h0 h1 hB0 hB1 hsm
    (l := fs.zip ds) (fun p hp => ⟨(hf fs hfs).2 _ (List.of_mem_zip hp).1, hd _ (List.of_mem_zip hp).2⟩)
    (by rw [hlen]; omega) (by simp) (NearCov.zero h hB0 hB1 o0 o1 _)
  exact ⟨m, e, hm.almost h.nonneg hB0 hB1 (by rw [hlen]; omega) (by simp [hlen])⟩

/-- **C79** `resample_vals`. -/
theorem C79_resample_vals (h : Accurate R u) (h0 : 1 ≤ o0) (h1 : 1 ≤ o1) {xs : List ((K × K) × K)} (hB0 : 0 ≤ B0)
    (hB1 : 0 ≤ B1) (hx : ∀ p ∈ xs, IsWeight R p.2 ∧ |p.1.1| ≤ B0 ∧ |p.1.2| ≤ B1) {freq : List (List K)}
    (hf : ∀ row ∈ freq, row.length = xs.length ∧ ∀ f ∈ row, 0 ≤ f) (hsm : 16 * ((xs.length + 5) * u) ≤ 1) :
    List.Forall₂ (fun fs r => ∃ m, r = some m ∧
        AlmostCov u B0 B1 o0 o1 (sampleRecords ((fs.zip xs).map fun p => ⟨p.2.2 * p.1, p.2.1.1, p.2.1.2⟩)) m)
      freq (R.resampleVals (R.kernel2 o0 o1) freq xs) := by
  unfold Precision.resampleVals
  rw [List.forall₂_map_right_iff, List.forall₂_same]
  intro fs hfs
  have hlen : (fs.zip xs).length = xs.length := by rw [List.length_zip, (hf fs hfs).1, min_self]
  have hu1 := h.small hsm
  obtain ⟨m, e, hm⟩ := NearCov.foldlM (N := xs.length) (n := 0)
    (fun o (p : K × (K × K) × K) => if p.1 = 0 then some o else
      (R.kernel2 o0 o1).pushVal p.2.1 (R.lo (p.2.2 * p.1)) o)
    (fun p => ⟨p.2.2 * p.1, valToDataCov p.2.1.1 p.2.1.2 (p.2.2 * p.1)⟩)
    (fun p => 0 ≤ p.1 ∧ IsWeight R p.2.2 ∧ |p.2.1.1| ≤ B0 ∧ |p.2.1.2| ≤ B1)
    (fun {n L m a} ha hn hm => by
      by_cases hz : a.1 = 0
      · refine ⟨m, if_pos hz, ?_⟩
        have := hm.skip h hB0 hB1 hn hsm (valToDataCov a.2.1.1 a.2.1.2 (a.2.2 * a.1))
        simpa only [hz, mul_zero] using this
      · obtain ⟨m', e, h'⟩ := hm.pushData h h0 h1 hn hsm (mul_nonneg ha.2.1.2 ha.1)
          (okCov_val (w := a.2.2 * a.1) ha.2.2.1 ha.2.2.2) (h.precision.weight_mul ha.2.1.2 ha.1) (round_fac hu1 h.lo _)
        refine ⟨m', (if_neg hz).trans ?_, h'⟩
        rw [← e]
        refine (Precision.pushValCov_eq h.precision o0 o1 _ _ _ _).trans ?_
        exact pushDataCovBody_weight h.precision o0 o1 _ _ _ _ _ _)
    (l := fs.zip xs) (fun p hp => ⟨(hf fs hfs).2 _ (List.of_mem_zip hp).1, hx _ (List.of_mem_zip hp).2⟩)
    (by rw [hlen]; omega) (NearCov.zero h hB0 hB1 o0 o1 _)
  have e1 : (fs.zip xs).map (fun p => (⟨p.2.2 * p.1, valToDataCov p.2.1.1 p.2.1.2 (p.2.2 * p.1)⟩ : Weighted K))
      = sampleRecords ((fs.zip xs).map fun p => ⟨p.2.2 * p.1, p.2.1.1, p.2.1.2⟩) := by
    unfold sampleRecords
    rw [List.map_map]
    rfl
  rw [List.nil_append, e1] at hm
  exact ⟨m, e, hm.almost h.nonneg hB0 hB1 (by rw [hlen]; omega) (by simp [sampleRecords, hlen])⟩

/-! ### Records of samples -/

/-- The comoments of samples. -/
def comomentsOf (L : List (Sample2 K)) : Com K := fun i j =>
  if i = 0 ∧ j = 0 then weight2 L else if i = 1 ∧ j = 0 then meanX L else if i = 0 ∧ j = 1 then meanY L
  else central2 L i j

omit [LinearOrder K] [IsStrictOrderedRing K] in
/-- **C79** Averages, variances and covariance of records are those of all their samples. -/
theorem C79_records {groups : List (List (Sample2 K))} (hg : ∀ g ∈ groups, weight2 g ≠ 0) :
    let L := groups.map fun g => (⟨comomentsOf g 0 0, comomentsOf g⟩ : Weighted K)
    wtdMean L (fun d => d 1 0) = meanX groups.flatten ∧ wtdMean L (fun d => d 0 1) = meanY groups.flatten ∧
    wtdSecond L .cov = central2 groups.flatten 1 1 ∧ wtdSecond L .var0 = central2 groups.flatten 2 0 ∧
    wtdSecond L .var1 = central2 groups.flatten 0 2 := by
  intro L
  have hW : ∀ g : List (Sample2 K), wtdWeight (sampleRecords g) = weight2 g := fun g => by
    unfold wtdWeight sampleRecords weight2
    rw [List.map_map]
    rfl
  have h0 : wtdWeight L = wtdWeight (sampleRecords groups.flatten) := by
    rw [hW]
    clear hg
    induction groups with
    | nil => rfl
    | cons g gs ih =>
      simp only [wtdWeight, weight2, List.map_cons, List.sum_cons, List.flatten_cons, List.map_append,
        List.sum_append, L] at ih ⊢
      rw [ih]
      rfl
  have sums : ∀ f : Com K → K, (∀ g ∈ groups, weight2 g * f (comomentsOf g) = wtdSum (sampleRecords g) f) →
      wtdSum L f = wtdSum (sampleRecords groups.flatten) f := by
    intro f hf
    clear h0 hg
    induction groups with
    | nil => rfl
    | cons g gs ih =>
      have e1 := hf g List.mem_cons_self
      have e2 := ih fun g hg => hf g (List.mem_cons_of_mem _ hg)
      simp only [wtdSum, sampleRecords, List.map_cons, List.sum_cons, List.flatten_cons, List.map_append,
        List.sum_append, L] at e1 e2 ⊢
      rw [e2, ← e1]
      rfl
  have f1 : ∀ p : Second, ∀ g ∈ groups, weight2 g * p.fst (comomentsOf g) = wtdSum (sampleRecords g) p.fst := by
    intro p g hgm
    have e : p.fst (comomentsOf g) = wtdMean (sampleRecords g) p.fst := by
      obtain ⟨hX, hY, -⟩ := sampleRecords_spec g
      cases p
      · exact hX.symm
      · exact hX.symm
      · exact hY.symm
    rw [e, ← hW g]
    exact mul_div_cancel₀ _ (by rw [hW]; exact hg g hgm)
  have f2 : ∀ p : Second, ∀ g ∈ groups, weight2 g * p.snd (comomentsOf g) = wtdSum (sampleRecords g) p.snd := by
    intro p g hgm
    have e : p.snd (comomentsOf g) = wtdMean (sampleRecords g) p.snd := by
      obtain ⟨hX, hY, -⟩ := sampleRecords_spec g
      cases p
      · exact hY.symm
      · exact hX.symm
      · exact hY.symm
    rw [e, ← hW g]
    exact mul_div_cancel₀ _ (by rw [hW]; exact hg g hgm)
  have f3 : ∀ p : Second, ∀ g ∈ groups, weight2 g * (p.entry (comomentsOf g)
      + p.fst (comomentsOf g) * p.snd (comomentsOf g))
      = wtdSum (sampleRecords g) (fun d => p.entry d + p.fst d * p.snd d) := by
    intro p g hgm
    have hne := hg g hgm
    have e : p.entry (comomentsOf g) = wtdSecond (sampleRecords g) p := by
      obtain ⟨-, -, h11, h20, h02⟩ := sampleRecords_spec g
      cases p
      · exact h11.symm
      · exact h20.symm
      · exact h02.symm
    rw [e, wtdSecond_eq, ← f1 p g hgm, ← f2 p g hgm, hW]
    field_simp
    ring
  have hsec : ∀ p, wtdSecond L p = wtdSecond (sampleRecords groups.flatten) p := fun p => by
    rw [wtdSecond_eq, wtdSecond_eq, h0, sums _ (f1 p), sums _ (f2 p), sums _ (f3 p)]
  obtain ⟨hX, hY, h11, h20, h02⟩ := sampleRecords_spec groups.flatten
  refine ⟨?_, ?_, (hsec _).trans h11, (hsec _).trans h20, (hsec _).trans h02⟩
  · rw [← hX]
    unfold wtdMean
    rw [h0]
    exact congrArg (· / _) (sums _ (f1 .cov))
  · rw [← hY]
    unfold wtdMean
    rw [h0]
    exact congrArg (· / _) (sums _ (f2 .cov))

/-! ### Concrete cases -/

/-- A million pairs between -1 and 1 in double precision: the covariance is right up to `6e-8`. -/
example {L : List (Sample2 ℚ)} (hl : L.length = 1000000)
    (hL : ∀ s ∈ L, IsWeight float64 s.w ∧ |s.x| ≤ 1 ∧ |s.y| ≤ 1) :
    ∃ m, (float64.kernel2 1 1).reduceValsFromZero (toVals2 L) = some m ∧
      |m 1 1 - central2 L 1 1| ≤ 6 / 10 ^ 8 := by
  obtain ⟨m, e, -, -, h2⟩ := C79_reduce_vals (o0 := 1) (o1 := 1) C76_float64 le_rfl le_rfl zero_le_one zero_le_one hL
    (by rw [hl]; norm_num)
  refine ⟨m, e, (h2 (by rw [hl]; norm_num)).1.trans ?_⟩
  rw [hl]
  norm_num

/-- Such pairs exist. -/
example : ∃ L : List (Sample2 ℚ), L.length = 1000000 ∧ ∀ s ∈ L, IsWeight float64 s.w ∧ |s.x| ≤ 1 ∧ |s.y| ≤ 1 :=
  ⟨List.replicate 1000000 ⟨1, 1 / 3, -1 / 7⟩, List.length_replicate, fun s hs => by
    rw [List.eq_of_mem_replicate hs]
    refine ⟨⟨C75_float64.num_one, zero_le_one⟩, ?_, ?_⟩ <;> rw [abs_le] <;> constructor <;> norm_num⟩

/-- With nine digits, the covariance of `(1 / 3, 2)`, `(1, 1)` and `(2, 0)` is close to `-5 / 9`, but not equal. -/
example : ((digits 9).kernel2 1 1 |>.reduceValsFromZero (toVals2 [⟨1, 1 / 3, 2⟩, ⟨1, 1, 1⟩, ⟨1, 2, 0⟩])).map
    (fun m => decide (m 1 1 ≠ -5 / 9 ∧ |m 1 1 + 5 / 9| < 1 / 100)) = some true := by
  decide +kernel

end Cmomy
