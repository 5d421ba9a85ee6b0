import Verif.Lemmas.RoundingCarried
import Verif.Lemmas.RoundingDigits
import Mathlib.Data.Rat.Floor
import Mathlib.Tactic.NormNum
import Mathlib.Tactic.FinCases
import Mathlib.Algebra.BigOperators.Group.List.Basic

/-!
# C75: rounded arithmetic

Numbers are rounded after every operation, as in the compiled kernels. Adding samples cannot make a variance
negative, constant data have their value as average and zero as every other moment, and changing units by powers of
two changes nothing else. Subtracting samples can make a variance negative, in double precision too.
-/

namespace Cmomy

open Spec

variable {K : Type*} [Field K] [LinearOrder K] [IsStrictOrderedRing K]

/-! ### Relation to the exact model -/

/-- **C75** Without rounding, the kernels and loops are those of the exact model. -/
theorem C75_exact (order o0 o1 : ℕ) :
    (Precision.exact : Precision K).kernel1 order = kernel1 order ∧
    (Precision.exact : Precision K).kernel2 o0 o1 = kernel2 o0 o1 ∧
    (∀ freq xs, (Precision.exact : Precision K).resampleVals (kernel1 order) freq xs
      = (kernel1 order).resampleVals freq xs) ∧
    (∀ adjust mp alpha ds, (Precision.exact : Precision K).rollingExpData (kernel1 order) Precision.setWeight1
      adjust mp alpha ds = (kernel1 order).rollingExpData adjust mp alpha ds) ∧
    (∀ adjust mp alpha xs, (Precision.exact : Precision K).rollingExpVals (kernel1 order) Precision.setWeight1
      adjust mp alpha xs = (kernel1 order).rollingExpVals adjust mp alpha xs) ∧
    (∀ adjust mp alpha ds, (Precision.exact : Precision K).rollingExpData (kernel2 o0 o1) Precision.setWeight2
      adjust mp alpha ds = (kernel2 o0 o1).rollingExpData adjust mp alpha ds) ∧
    (∀ adjust mp alpha xs, (Precision.exact : Precision K).rollingExpVals (kernel2 o0 o1) Precision.setWeight2
      adjust mp alpha xs = (kernel2 o0 o1).rollingExpVals adjust mp alpha xs) :=
  ⟨rfl, rfl, fun _ _ => rfl, Precision.expData_exact fun _ _ => rfl, Precision.expVals_exact fun _ _ => rfl,
    Precision.expData_exact fun _ _ => rfl, Precision.expVals_exact fun _ _ => rfl⟩

/-! ### Variances -/

section keep

variable {V M : Type*} {R : Precision K}

theorem loopsKeep_of_kept (h : IsPrecision R) {k : Kernel K V M} {sw : M → K → M} {okV : V → Prop}
    {P : M → Prop} (hk : Kept k sw okV (IsWeight R) P) : LoopsKeep R k sw okV P where
  reduceVals _ _ hx ho := hk.reduceVals hx ho
  reduceData _ _ hd ho := hk.reduceData hd ho
  fromZero := hk.zero
  cumulative _ hd := hk.cumulative hd
  resampleData _ _ hf hd := hk.resampleData hf hd
  resampleVals _ _ hf hx := hk.resampleVals (fun hw hf => h.weight_mul hw.2 hf.2) hf hx
  grouped _ _ _ _ hd e := hk.reduceDataGrouped hd e
  indexed _ _ _ _ _ _ hd hs e := hk.reduceDataIndexed ⟨h.num_one, zero_le_one⟩ hd hs e
  expData _ _ _ _ ha hd := Kept.rollingExpData h hk ha hd
  expVals _ _ _ _ ha hx := Kept.rollingExpVals h hk ha hx

/-- **C75** Rounding never makes a weight or a variance negative as long as samples are only added, and never makes
a function divide by zero. -/
theorem C75_variance (h : IsPrecision R) (order : ℕ) :
    LoopsKeep R (R.kernel1 order) Precision.setWeight1 (fun _ => True) (Sound R) :=
  loopsKeep_of_kept h (sound_kept h order)

/-- **C75** The same for comoments. -/
theorem C75_variance_cov (h : IsPrecision R) {o0 o1 : ℕ} (h0 : 1 ≤ o0) (h1 : 1 ≤ o1) :
    LoopsKeep R (R.kernel2 o0 o1) Precision.setWeight2 (fun _ => True) (SoundCov R) :=
  loopsKeep_of_kept h (soundCov_kept h h0 h1)

/-- **C75** Pushing a sample never lowers the weight, and leaves at least the weight of the sample. -/
theorem C75_weight_grows (h : IsPrecision R) (order : ℕ) (x : K) {w : K} (hw : IsWeight R w) {out : Mom K}
    (ho : Sound R out) :
    ∃ m, R.pushVal order x w out = some m ∧ Sound R m ∧ out 0 ≤ m 0 ∧ w ≤ m 0 :=
  Precision.pushVal_sound h order x hw ho

/-! ### Constant data -/

/-- **C75** Samples that are all `v` have average `v` and no other moment, with every rounding. -/
theorem C75_constant (h : IsPrecision R) (order : ℕ) {v : K} (hv : IsNum R v) :
    LoopsKeep R (R.kernel1 order) Precision.setWeight1 (fun x => x = v) (Constant R order v) :=
  loopsKeep_of_kept h (constant_kept h order hv)

/-- **C75** The same for pairs of values. -/
theorem C75_constant_cov (h : IsPrecision R) {o0 o1 : ℕ} (h0 : 1 ≤ o0) (h1 : 1 ≤ o1) {v0 v1 : K}
    (hv0 : IsNum R v0) (hv1 : IsNum R v1) :
    LoopsKeep R (R.kernel2 o0 o1) Precision.setWeight2 (fun x => x = (v0, v1)) (ConstantCov R o0 o1 v0 v1) :=
  loopsKeep_of_kept h (constantCov_kept h h0 h1 hv0 hv1)

/-- **C75** In particular `reduce_vals` of samples that are all `v`, of which one counts. -/
theorem C75_constant_reduce (h : IsPrecision R) (order : ℕ) {v : K} (hv : IsNum R v) {ws : List K}
    (hw : ∀ w ∈ ws, IsWeight R w) (hne : ∃ w ∈ ws, w ≠ 0) :
    ∃ m, (R.kernel1 order).reduceValsFromZero (ws.map fun w => (v, w)) = some m ∧ m 1 = v ∧
      ∀ i, 2 ≤ i → i ≤ order → m i = 0 := by
  have key : ∀ (ws : List K) (out : Mom K), (∀ w ∈ ws, IsWeight R w) → Constant R order v out →
      (out 1 = v ∨ ∃ w ∈ ws, w ≠ 0) →
      ∃ m, (R.kernel1 order).reduceVals (ws.map fun w => (v, w)) out = some m ∧ m 1 = v ∧
        ∀ i, 2 ≤ i → i ≤ order → m i = 0 := by
    intro ws
    induction ws with
    | nil =>
      intro out _ ho h1
      rcases h1 with h1 | ⟨w, hw, -⟩
      · exact ⟨out, rfl, h1, ho.rest⟩
      · cases hw
    | cons w ws ih =>
      intro out hw ho h1
      obtain ⟨m, e, hm, h2⟩ := Precision.pushVal_constant h hv (hw w List.mem_cons_self) ho
      obtain ⟨m', e', h3⟩ := ih m (fun w hw' => hw w (List.mem_cons_of_mem _ hw')) hm (by
        rcases h1 with h1 | ⟨w', hw', hne⟩
        · exact .inl (h2 (.inl h1))
        · rcases List.mem_cons.1 hw' with rfl | hw'
          · exact .inl (h2 (.inr hne))
          · exact .inr ⟨w', hw', hne⟩)
      refine ⟨m', ?_, h3⟩
      show List.foldlM _ _ _ = _
      rw [List.map_cons, List.foldlM_cons]
      show (R.pushVal order v w out).bind _ = _
      rw [e]
      exact e'
  exact key ws _ hw (constant_kept h order hv).zero (.inr hne)

/-- **C75** The first record pushed into zeros is stored as it is. -/
theorem C75_first (h : IsPrecision R) (order : ℕ) {data : Mom K} (hw : IsWeight R (data 0)) (hne : data 0 ≠ 0)
    (hd : ∀ i, i ≤ order → IsNum R (data i)) :
    ∃ m, (R.kernel1 order).pushData data (R.kernel1 order).zero = some m ∧ ∀ i, i ≤ order → m i = data i := by
  obtain ⟨m, e, e0, e1⟩ := Precision.pushDataBody_first h hw hne hd
  refine ⟨m, e, fun i hi => ?_⟩
  by_cases hz : i = 0
  · rw [hz, e0]
  · exact e1 i (by omega) hi

/-! ### Averages -/

/-- **C75** If the differences of the samples are numbers, the average is between the smallest and the largest of
them. -/
theorem C75_within (h : IsPrecision R) (order : ℕ) {a b : K} (hs : ExactSub R a b) :
    LoopsKeep R (R.kernel1 order) Precision.setWeight1 (fun x => IsNum R x ∧ a ≤ x ∧ x ≤ b) (MeanWithin R a b) :=
  loopsKeep_of_kept h (within_kept h order hs)

/-! ### Weights -/

/-- **C75** The weight is the exact sum as long as all partial sums are numbers. -/
theorem C75_weight_exact (h : IsPrecision R) (order : ℕ) {xs : List (K × K)} (hw : ∀ p ∈ xs, IsWeight R p.2)
    (hs : ∀ n, IsNum R ((xs.take n).map Prod.snd).sum) :
    ∃ m, (R.kernel1 order).reduceValsFromZero xs = some m ∧ m 0 = (xs.map Prod.snd).sum := by
  have key : ∀ (ys : List (K × K)) (out : Mom K), (∀ p ∈ ys, IsWeight R p.2) → Sound R out →
      (∀ n, IsNum R (out 0 + ((ys.take n).map Prod.snd).sum)) →
      ∃ m, (R.kernel1 order).reduceVals ys out = some m ∧ m 0 = out 0 + (ys.map Prod.snd).sum := by
    intro ys
    induction ys with
    | nil => intro out _ _ _; exact ⟨out, rfl, by simp⟩
    | cons p ys ih =>
      intro out hw ho hs
      have hp := hw p List.mem_cons_self
      obtain ⟨m, e, hm, -⟩ := Precision.pushVal_sound h order p.1 hp ho
      have e0 : m 0 = out 0 + p.2 := by
        by_cases hz : p.2 = 0
        · have e' := e
          unfold Precision.pushVal at e'
          rw [if_pos hz] at e'
          rw [← Option.some.inj e', hz, add_zero]
        · obtain ⟨-, -, -, h4, -⟩ := h.push_numbers ho.weight hp hz
          obtain ⟨m', e', e1, -⟩ := Precision.pushVal_cases order p.1 p.2 out hz h4.ne'
          rw [e] at e'
          rw [Option.some.inj e', e1]
          have : IsNum R (out 0 + p.2) := by simpa using hs 1
          exact this
      obtain ⟨m', e', h'⟩ := ih m (fun p hp => hw p (List.mem_cons_of_mem _ hp)) hm (fun n => by
        have := hs (n + 1)
        rw [e0, add_assoc]
        simpa using this)
      refine ⟨m', ?_, by rw [h', e0, List.map_cons, List.sum_cons, add_assoc]⟩
      show List.foldlM _ _ _ = _
      rw [List.foldlM_cons]
      show (R.pushVal order p.1 p.2 out).bind _ = _
      rw [e]
      exact e'
  obtain ⟨m, e, h'⟩ := key xs (fun _ => 0) hw (sound_kept h order).zero (fun n => by rw [zero_add]; exact hs n)
  exact ⟨m, e, by rw [h', zero_add]⟩

/-- **C75** The error of the weight. `u` is the relative error of one rounding. -/
theorem C75_weight_error (h : IsPrecision R) (order : ℕ) {u : K} (hu : u ≤ 1) (hfl : ∀ x, |R.lo x - x| ≤ u * |x|)
    {xs : List (K × K)} (hw : ∀ p ∈ xs, IsWeight R p.2) :
    ∃ m, (R.kernel1 order).reduceValsFromZero xs = some m ∧
      (1 - u) ^ xs.length * (xs.map Prod.snd).sum ≤ m 0 ∧ m 0 ≤ (1 + u) ^ xs.length * (xs.map Prod.snd).sum := by
  have hu0 : 0 ≤ u := by
    have := hfl 1
    rw [h.lo.one, sub_self, abs_zero, abs_one, mul_one] at this
    exact this
  have key : ∀ (ys : List (K × K)) (out : Mom K) (n : ℕ) (W : K), (∀ p ∈ ys, IsWeight R p.2) → Sound R out →
      0 ≤ W → (1 - u) ^ n * W ≤ out 0 → out 0 ≤ (1 + u) ^ n * W →
      ∃ m, (R.kernel1 order).reduceVals ys out = some m ∧
        (1 - u) ^ (n + ys.length) * (W + (ys.map Prod.snd).sum) ≤ m 0 ∧
        m 0 ≤ (1 + u) ^ (n + ys.length) * (W + (ys.map Prod.snd).sum) := by
    intro ys
    induction ys with
    | nil =>
      intro out n W _ _ _ h1 h2
      exact ⟨out, rfl, by simpa using h1, by simpa using h2⟩
    | cons p ys ih =>
      intro out n W hw ho hW h1 h2
      have hp := hw p List.mem_cons_self
      obtain ⟨m, e, hm, -⟩ := Precision.pushVal_sound h order p.1 hp ho
      have e0 : m 0 = R.lo (out 0 + p.2) := by
        by_cases hz : p.2 = 0
        · have e' := e
          unfold Precision.pushVal at e'
          rw [if_pos hz] at e'
          rw [← Option.some.inj e', hz, add_zero]
          exact ho.weight.1.symm
        · obtain ⟨-, -, -, h4, -⟩ := h.push_numbers ho.weight hp hz
          obtain ⟨m', e', e1, -⟩ := Precision.pushVal_cases order p.1 p.2 out hz h4.ne'
          rw [e] at e'
          rw [Option.some.inj e', e1]
      have hs : 0 ≤ out 0 + p.2 := add_nonneg ho.weight.2 hp.2
      have hb := abs_le.1 (hfl (out 0 + p.2))
      rw [abs_of_nonneg hs] at hb
      have low : (1 - u) ^ n * (W + p.2) ≤ out 0 + p.2 := by
        have : (1 - u) ^ n * p.2 ≤ p.2 :=
          mul_le_of_le_one_left hp.2 (pow_le_one₀ (by linarith) (by linarith))
        linarith [mul_add ((1 - u) ^ n) W p.2]
      have up : out 0 + p.2 ≤ (1 + u) ^ n * (W + p.2) := by
        have : p.2 ≤ (1 + u) ^ n * p.2 := le_mul_of_one_le_left hp.2 (one_le_pow₀ (by linarith))
        linarith [mul_add ((1 + u) ^ n) W p.2]
      obtain ⟨m', e', h3, h4⟩ := ih m (n + 1) (W + p.2) (fun p hp => hw p (List.mem_cons_of_mem _ hp)) hm
        (add_nonneg hW hp.2)
        (by
          rw [e0, pow_succ', mul_assoc]
          have := mul_le_mul_of_nonneg_left low (show 0 ≤ 1 - u by linarith)
          linarith)
        (by
          rw [e0, pow_succ', mul_assoc]
          have := mul_le_mul_of_nonneg_left up (show 0 ≤ 1 + u by linarith)
          linarith)
      refine ⟨m', ?_, ?_, ?_⟩
      · show List.foldlM _ _ _ = _
        rw [List.foldlM_cons]
        show (R.pushVal order p.1 p.2 out).bind _ = _
        rw [e]
        exact e'
      · rw [List.map_cons, List.sum_cons, ← add_assoc, List.length_cons,
          show n + (ys.length + 1) = n + 1 + ys.length by omega]
        exact h3
      · rw [List.map_cons, List.sum_cons, ← add_assoc, List.length_cons,
          show n + (ys.length + 1) = n + 1 + ys.length by omega]
        exact h4
  obtain ⟨m, e, h1, h2⟩ := key xs (fun _ => 0) 0 0 hw (sound_kept h order).zero (le_refl _) (by simp) (by simp)
  exact ⟨m, e, by simpa using h1, by simpa using h2⟩

/-! ### Units -/

theorem loopsRescale_of_carried {k : Kernel K V M} {sw : M → K → M} {φ : M → M} {ψ : V → V} {s : K}
    (hk : Carried k sw φ ψ s) (hs : Commutes R s) : LoopsRescale R k sw φ ψ s where
  reduceVals xs out := hk.reduceVals xs out
  reduceData ds out := hk.reduceData ds out
  fromZero := hk.zero
  cumulative ds := hk.cumulative ds
  cumulativeInverse ds := hk.cumulativeInverse ds
  resampleData freq ds := hk.resampleData freq ds
  resampleVals freq xs := hk.resampleVals hs freq xs
  jackknifeData ds := hk.jackknifeData ds
  jackknifeVals xs := hk.jackknifeVals xs
  grouped ds by_ nout := hk.reduceDataGrouped ds by_ nout
  rollingData w mp c ds := hk.rollingData w mp c ds
  rollingVals _ w mp c xs hx := hk.rollingVals hx w mp c xs
  expData a mp al ds := hk.rollingExpData hs a mp al ds
  expVals a mp al xs := hk.rollingExpVals hs a mp al xs

/-- **C75** Multiplying the samples by `c` and the weights by `s`, both powers of two, multiplies the moments exactly
as it should, in every function. -/
theorem C75_units {c s : K} (hc : Commutes R c) (hs : Commutes R s) (h0 : 0 < s) (order : ℕ) :
    LoopsRescale R (R.kernel1 order) Precision.setWeight1 (rescaled c s) (fun x => c * x) s :=
  loopsRescale_of_carried (Precision.kernel1_carried hc hs h0 order) hs

/-- **C75** The same for comoments, with a power of two for each variable. -/
theorem C75_units_cov (h : IsPrecision R) {c0 c1 s : K} (hc0 : Commutes R c0) (hc1 : Commutes R c1)
    (hs : Commutes R s) (h0 : 0 < s) {o0 o1 : ℕ} (ho0 : 1 ≤ o0) (ho1 : 1 ≤ o1) :
    LoopsRescale R (R.kernel2 o0 o1) Precision.setWeight2 (rescaledCov c0 c1 s) (fun x => (c0 * x.1, c1 * x.2)) s :=
  loopsRescale_of_carried (Precision.kernel2_carried h hc0 hc1 hs h0 ho0 ho1) hs

/-- **C75** The sign of the samples can be changed with any rounding. -/
theorem C75_negate (h : IsPrecision R) (order : ℕ) :
    LoopsRescale R (R.kernel1 order) Precision.setWeight1 (rescaled (-1) 1) (fun x => -1 * x) 1 :=
  C75_units (fun x => by simp [h.lo.neg, h.hi.neg]) Spec.Commutes.one one_pos order

end keep

/-! ### Binary digits -/

section digits

variable [FloorRing K] {r : K → ℤ}

/-- **C75** Rounding to `p` binary digits is a rounding in the sense used here; single and double precision, with or
without gradual underflow, and both the same. -/
theorem C75_digits (hr : IsIntRounding r) {p p' : ℕ} {emin emin' : Option ℤ} (hp : 1 ≤ p) (hpp : p ≤ p')
    (he : ∀ e, emin = some e → e ≤ 0) (hee : ∀ e', emin' = some e' → ∃ e, emin = some e ∧ e' ≤ e) :
    IsPrecision (⟨toDigits r p emin, toDigits r p' emin'⟩ : Precision K) :=
  toDigits_isPrecision hr hp hpp he hee

/-- **C75** Rounding to nearest, ties to even, and rounding towards zero. -/
theorem C75_rounding_modes : IsIntRounding (nearestEven : K → ℤ) ∧ IsIntRounding (Int.floor : K → ℤ) :=
  ⟨nearestEven_isIntRounding, floor_isIntRounding⟩

/-- **C75** The error of one rounding to nearest. -/
theorem C75_digits_error (p : ℕ) (x : K) :
    |toDigits nearestEven p none x - x| ≤ 2 ^ (-(p : ℤ)) * |x| :=
  toDigits_error nearestEven_isIntRounding nearestEven_error x

/-- **C75** Samples of which none is more than twice another have differences that are numbers. -/
theorem C75_digits_sub (hr : IsIntRounding r) {p : ℕ} {emin : Option ℤ} (hp : 1 ≤ p) {hi : K → K} {a b : K}
    (ha : 0 < a) (hab : b ≤ 2 * a) : ExactSub ⟨toDigits r p emin, hi⟩ a b :=
  toDigits_exactSub hr hp ha hab

/-- **C75** Powers of two commute with rounding as long as nothing underflows. -/
theorem C75_digits_units (p p' : ℕ) (k : ℤ) :
    Commutes (⟨toDigits r p none, toDigits r p' none⟩ : Precision K) (2 ^ k) :=
  toDigits_commutes k

/-- **C75** Up to `2 ^ p` samples of weight 1 are counted exactly. -/
theorem C75_count (hr : IsIntRounding r) {p p' : ℕ} {emin emin' : Option ℤ} (hp : 1 ≤ p) (hpp : p ≤ p')
    (he : ∀ e, emin = some e → e ≤ 0) (hee : ∀ e', emin' = some e' → ∃ e, emin = some e ∧ e' ≤ e) (order : ℕ)
    {xs : List K} (hl : xs.length ≤ 2 ^ p) :
    ∃ m, ((⟨toDigits r p emin, toDigits r p' emin'⟩ : Precision K).kernel1 order).reduceValsFromZero
      (xs.map fun x => (x, 1)) = some m ∧ m 0 = xs.length := by
  have h := C75_digits (K := K) hr hp hpp he hee
  obtain ⟨m, e, h0⟩ := C75_weight_exact h order (xs := xs.map fun x => (x, 1)) (by
    intro q hq
    obtain ⟨x, -, rfl⟩ := List.mem_map.1 hq
    exact ⟨h.num_one, zero_le_one⟩) (by
    intro n
    have e1 : (((xs.map fun x => (x, (1 : K))).take n).map Prod.snd).sum = (((xs.take n).length : ℤ) : K) := by
      rw [← List.map_take, List.map_map]
      generalize xs.take n = l
      induction l with
      | nil => simp
      | cons a l ih =>
        rw [List.map_cons, List.sum_cons, ih]
        simp [add_comm]
    rw [e1]
    refine toDigits_int hr hp he ?_
    rw [abs_of_nonneg (by positivity)]
    have : (xs.take n).length ≤ xs.length := by simp
    exact_mod_cast this.trans hl)
  refine ⟨m, e, ?_⟩
  rw [h0, List.map_map]
  clear h0 e hl
  induction xs with
  | nil => simp
  | cons a l ih =>
    rw [List.map_cons, List.sum_cons, ih]
    simp [add_comm]

end digits

/-! ### What is not true -/

/-- Double precision, as long as nothing overflows or underflows. -/
def float64 : Precision ℚ := ⟨toDigits nearestEven 53 none, toDigits nearestEven 53 none⟩

/-- Single precision. -/
def float32 : Precision ℚ := ⟨toDigits nearestEven 24 none, toDigits nearestEven 53 none⟩

theorem C75_float64 : IsPrecision float64 :=
  C75_digits nearestEven_isIntRounding (by norm_num) (le_refl _) (by simp) (by simp)

theorem C75_float32 : IsPrecision float32 :=
  C75_digits nearestEven_isIntRounding (by norm_num) (by norm_num) (by simp) (by simp)

/-- The moments up to the second. -/
def upTo2 (m : Mom ℚ) : ℚ × ℚ × ℚ := (m 0, m 1, m 2)

/-- **C75** Rolling averages subtract samples, so that their variances can be negative: in double precision the window
of the samples 2 and 2 after 1 has variance `-3 / 2 ^ 56`. -/
theorem C75_rolling_negative :
    ((float64.kernel1 2).rollingVals 0 2 none false [(1, 1), (2, 1), (2, 1)]).map (List.map (Option.map upTo2))
      = some [none, some (2, 3 / 2, 1 / 4), some (2, 2, -3 / 72057594037927936)] := by
  decide +kernel

/-- A precision of `p` binary digits. -/
def digits (p : ℕ) : Precision ℚ := ⟨toDigits nearestEven p none, toDigits nearestEven p none⟩

/-- **C75** So does leaving one sample out: with three digits, 2 and 7 without 7 have variance `-4`. -/
theorem C75_jackknife_negative :
    ((digits 3).kernel1 2 |>.jackknifeVals [(2, 1), (7, 1)]).map (List.map (Option.map upTo2))
      = some [some (1, 6, 4), some (1, 1, -4)] := by
  decide +kernel

/-- **C75** Without the condition on the differences the average can be larger than all samples: with three digits,
-1 and 10 of weights 1 and 8 have average 12. -/
theorem C75_average_outside :
    ((digits 3).kernel1 2 |>.reduceValsFromZero [(-1, 1), (10, 8)]).map upTo2 = some (8, 12, 0) := by
  decide +kernel

/-- **C75** Beyond `2 ^ p` samples are no longer counted: with three digits, nine samples have weight 8. -/
theorem C75_count_stops :
    ((digits 3).kernel1 1 |>.reduceValsFromZero ((List.replicate 9 (1, 1)))).map (fun m => m 0) = some 8 := by
  decide +kernel

/-! ### Concrete cases -/

/-- Three samples, of which two are not numbers of the precision. -/
example : ∃ m, (float64.kernel1 4).reduceVals [(1 / 3, 1), (7 / 5, 1 / 2), (3, 3)] (float64.kernel1 4).zero = some m ∧
    0 ≤ m 0 ∧ 0 ≤ m 2 := by
  obtain ⟨m, e, h⟩ := (C75_variance C75_float64 4).reduceVals [(1 / 3, 1), (7 / 5, 1 / 2), (3, 3)] _ (by
    intro p hp
    refine ⟨trivial, ?_⟩
    fin_cases hp <;> exact ⟨by unfold IsNum; decide +kernel, by norm_num⟩) (C75_variance C75_float64 4).fromZero
  exact ⟨m, e, h.weight.2, h.var⟩

/-- Pairs of values: both variances. -/
example : ∃ m, (float32.kernel2 2 2).reduceVals [((1 / 3, 2), 1), ((7 / 5, 5), 1 / 2)] (float32.kernel2 2 2).zero
    = some m ∧ 0 ≤ m 0 0 ∧ 0 ≤ m 2 0 ∧ 0 ≤ m 0 2 := by
  obtain ⟨m, e, h⟩ := (C75_variance_cov C75_float32 (o0 := 2) (o1 := 2) (by norm_num) (by norm_num)).reduceVals
    [((1 / 3, 2), 1), ((7 / 5, 5), 1 / 2)] _ (by
    intro p hp
    refine ⟨trivial, ?_⟩
    fin_cases hp <;> exact ⟨by unfold IsNum; decide +kernel, by norm_num⟩)
    (C75_variance_cov C75_float32 (o0 := 2) (o1 := 2) (by norm_num) (by norm_num)).fromZero
  exact ⟨m, e, h.weight.2, h.var0, h.var1⟩

/-- The weight of a sample that is too small to be counted. -/
example : ∃ m, (digits 3).pushVal 2 5 (1 / 64) (fun _ => 1) = some m ∧ m 0 = 1 ∧ 1 / 64 ≤ m 0 := by
  refine ⟨((digits 3).pushVal 2 5 (1 / 64) (fun _ => 1)).get (by decide +kernel), by simp, ?_, ?_⟩ <;> decide +kernel

/-- Samples that are all `5 / 4`, with weights which do not sum up exactly. -/
example : ∃ m, ((digits 3).kernel1 4).reduceValsFromZero [(5 / 4, 1), (5 / 4, 5), (5 / 4, 7 / 8)] = some m ∧
    m 1 = 5 / 4 ∧ ∀ i, 2 ≤ i → i ≤ 4 → m i = 0 :=
  C75_constant_reduce (ws := [1, 5, 7 / 8])
    (C75_digits nearestEven_isIntRounding (by norm_num) (le_refl _) (by simp) (by simp)) 4
    (by unfold IsNum; decide +kernel) (by
      intro w hw
      fin_cases hw <;> exact ⟨by unfold IsNum; decide +kernel, by norm_num⟩) ⟨1, by simp, by norm_num⟩

/-- The weights above sum up to 7, not to `55 / 8`. -/
example : (((digits 3).kernel1 4).reduceValsFromZero [(5 / 4, 1), (5 / 4, 5), (5 / 4, 7 / 8)]).map (fun m => m 0)
    = some 7 := by
  decide +kernel

/-- Samples between 4 and 7: their average is, too. -/
example : ∃ m, ((digits 3).kernel1 2).reduceVals [(4, 1), (7, 7), (5, 3)] ((digits 3).kernel1 2).zero = some m ∧
    MeanWithin (digits 3) 4 7 m := by
  have h : IsPrecision (digits 3) :=
    C75_digits nearestEven_isIntRounding (by norm_num) (le_refl _) (by simp) (by simp)
  have hs : ExactSub (digits 3) 4 7 := C75_digits_sub nearestEven_isIntRounding (by norm_num) (by norm_num) (by norm_num)
  refine (C75_within h 2 hs).reduceVals _ _ (fun p hp => ?_) (C75_within h 2 hs).fromZero
  fin_cases hp <;> exact ⟨⟨by unfold IsNum; decide +kernel, by norm_num, by norm_num⟩,
    by unfold IsNum; decide +kernel, by norm_num⟩

/-- What they are. -/
example : (((digits 3).kernel1 2).reduceVals [(4, 1), (7, 7), (5, 3)] ((digits 3).kernel1 2).zero).map upTo2
    = some (12, 6, 1) := by
  decide +kernel

/-- The negative variance above in units four times smaller. -/
example : ((float64.kernel1 2).rollingVals 0 2 none false [(4 * 1, 1 * 1), (4 * 2, 1 * 1), (4 * 2, 1 * 1)]).map
    (List.map (Option.map upTo2)) = some [none, some (2, 6, 4), some (2, 8, -48 / 72057594037927936)] := by
  have h := (C75_units (R := float64) (c := 2 ^ (2 : ℤ)) (s := 1) (C75_digits_units 53 53 2)
    Spec.Commutes.one one_pos 2).rollingVals 0 2 none false [(1, 1), (2, 1), (2, 1)] (by norm_num)
  have e : (2 : ℚ) ^ (2 : ℤ) = 4 := by norm_num
  rw [e] at h
  simp only [List.map_cons, List.map_nil] at h
  rw [h]
  decide +kernel

/-- Counting a thousand samples in single precision. -/
example : ∃ m, (float32.kernel1 2).reduceValsFromZero ((List.replicate 1000 (1 / 10)).map fun x => (x, 1)) = some m ∧
    m 0 = 1000 := by
  obtain ⟨m, e, h⟩ := C75_count (K := ℚ) (r := nearestEven) nearestEven_isIntRounding (p := 24) (p' := 53)
    (emin := none) (emin' := none) (by norm_num) (by norm_num) (by simp) (by simp) 2
    (xs := List.replicate 1000 (1 / 10)) (by rw [List.length_replicate]; norm_num)
  exact ⟨m, e, by rw [h, List.length_replicate]; norm_num⟩

/-- Double precision with gradual underflow. -/
example : IsPrecision (⟨toDigits nearestEven 53 (some (-1074)), toDigits nearestEven 53 (some (-1074))⟩ : Precision ℚ) :=
  C75_digits nearestEven_isIntRounding (by norm_num) (le_refl _)
    (fun e h => by rw [← Option.some.inj h]; norm_num) (fun e h => ⟨e, h, le_refl _⟩)

/-- One rounding of `1 / 10`, and the weight of ten such samples. -/
example : toDigits nearestEven 3 none (1 / 10 : ℚ) = 3 / 32 ∧ |(3 / 32 : ℚ) - 1 / 10| ≤ 1 / 8 * |1 / 10| := by
  constructor
  · decide +kernel
  · norm_num

end Cmomy
