import Verif.Spec.Rounding
import Verif.Model.Loops
import Verif.Model.Grouped
import Verif.Lemmas.Push
import Verif.Lemmas.PushCov
import Mathlib.Tactic.Linarith
import Mathlib.Tactic.Ring

/-!
# Lemmas on rounded arithmetic
-/

set_option linter.unusedSectionVars false

namespace Cmomy

open Spec

variable {K : Type*} [Field K] [LinearOrder K] [IsStrictOrderedRing K]

namespace Spec

namespace IsRounding

variable {fl : K → K} (h : IsRounding fl)
include h

theorem zero : fl 0 = 0 := by
  have := h.neg 0
  rw [neg_zero] at this
  linarith

theorem nonneg {x : K} (hx : 0 ≤ x) : 0 ≤ fl x := by
  have := h.mono hx
  rwa [h.zero] at this

theorem nonpos {x : K} (hx : x ≤ 0) : fl x ≤ 0 := by
  have := h.mono hx
  rwa [h.zero] at this

theorem le_one {x : K} (hx : x ≤ 1) : fl x ≤ 1 := by
  have := h.mono hx
  rwa [h.one] at this

/-- Squares stay squares in sign. -/
theorem mul_mul_nonneg (d : K) {a : K} (ha : 0 ≤ a) : 0 ≤ d * fl (d * a) := by
  rcases le_total 0 d with hd | hd
  · exact mul_nonneg hd (h.nonneg (mul_nonneg hd ha))
  · exact mul_nonneg_of_nonpos_of_nonpos hd (h.nonpos (mul_nonpos_of_nonpos_of_nonneg hd ha))

theorem sq_nonneg (d : K) : 0 ≤ fl d * d := by
  have := h.mul_mul_nonneg d zero_le_one
  rwa [mul_one, mul_comm] at this

end IsRounding

namespace IsPrecision

variable {R : Precision K} (h : IsPrecision R)
include h

theorem hi_num {x : K} (hx : IsNum R x) : R.hi x = x := by
  have := h.wider x
  rwa [show R.lo x = x from hx] at this

theorem num_zero : IsNum R (0 : K) := h.lo.zero

theorem num_one : IsNum R (1 : K) := h.lo.one

theorem num_lo (x : K) : IsNum R (R.lo x) := h.lo.idem x

theorem weight_zero : IsWeight R (0 : K) := ⟨h.num_zero, le_refl _⟩

theorem weight_mul {w f : K} (hw : 0 ≤ w) (hf : 0 ≤ f) : IsWeight R (R.lo (w * f)) :=
  ⟨h.num_lo _, h.lo.nonneg (mul_nonneg hw hf)⟩

theorem factor_nonneg (n k : ℕ) : 0 ≤ R.factor n k := by
  refine h.hi.nonneg ?_
  rw [binom_eq_choose]
  positivity

/-- The numbers `alpha` and `one_alpha` of a push. -/
theorem push_numbers {o w : K} (ho : IsWeight R o) (hw : IsWeight R w) (hne : w ≠ 0) :
    IsWeight R (R.lo (o + w)) ∧ o ≤ R.lo (o + w) ∧ w ≤ R.lo (o + w) ∧ 0 < R.lo (o + w) ∧
      0 ≤ R.lo (w / R.lo (o + w)) ∧ R.lo (w / R.lo (o + w)) ≤ 1 ∧
      0 ≤ R.hi (1 - R.lo (w / R.lo (o + w))) ∧ R.hi (1 - R.lo (w / R.lo (o + w))) ≤ 1 := by
  have hpos : 0 < w := lt_of_le_of_ne hw.2 (Ne.symm hne)
  have h1 : o ≤ R.lo (o + w) := by
    have := h.lo.mono (show o ≤ o + w by linarith)
    rwa [show R.lo o = o from ho.1] at this
  have h2 : w ≤ R.lo (o + w) := by
    have := h.lo.mono (show w ≤ o + w by linarith [ho.2])
    rwa [show R.lo w = w from hw.1] at this
  have h3 : 0 < R.lo (o + w) := lt_of_lt_of_le hpos h2
  have h4 : 0 ≤ R.lo (w / R.lo (o + w)) := h.lo.nonneg (div_nonneg hw.2 h3.le)
  have h5 : R.lo (w / R.lo (o + w)) ≤ 1 := h.lo.le_one ((div_le_one h3).2 h2)
  exact ⟨⟨h.num_lo _, h3.le⟩, h1, h2, h3, h4, h5, h.hi.nonneg (by linarith), h.hi.le_one (by linarith)⟩

/-- The first push. -/
theorem push_first {w : K} (hw : IsWeight R w) (hne : w ≠ 0) :
    R.lo (0 + w) = w ∧ R.lo (w / w) = 1 ∧ R.hi (1 - 1) = (0 : K) := by
  refine ⟨by rw [zero_add]; exact hw.1, by rw [div_self hne]; exact h.lo.one, ?_⟩
  rw [sub_self]
  exact h.hi.zero

end IsPrecision

end Spec

/-- Entries which are not assigned. -/
theorem foldl_update_other {α : Type*} (f : ℕ → (ℕ → α) → α) (l : List ℕ) (o : ℕ → α) {i : ℕ}
    (hi : i ∉ l) : (l.foldl (fun o a => Function.update o a (f a o)) o) i = o i := by
  induction l generalizing o with
  | nil => rfl
  | cons a l ih =>
    rw [List.foldl_cons, ih _ (fun h => hi (List.mem_cons_of_mem _ h)),
      Function.update_of_ne (fun h : i = a => hi (h ▸ List.mem_cons_self))]

/-- A property of the entries that every assignment keeps. -/
theorem foldl_update_inv {α : Type*} (f : ℕ → (ℕ → α) → α) (P : (ℕ → α) → Prop) (l : List ℕ) (o : ℕ → α)
    (hP : P o) (hs : ∀ a ∈ l, ∀ o, P o → P (Function.update o a (f a o))) :
    P (l.foldl (fun o a => Function.update o a (f a o)) o) := by
  induction l generalizing o with
  | nil => exact hP
  | cons a l ih =>
    exact ih _ (hs a List.mem_cons_self o hP) fun b hb => hs b (List.mem_cons_of_mem _ hb)

namespace Precision

variable {R : Precision K}

omit [IsStrictOrderedRing K] in
/-- What a push does to weight, average and variance. -/
theorem pushVal_cases (order : ℕ) (x w : K) (out : Mom K) (hw : w ≠ 0) (h0 : R.lo (out 0 + w) ≠ 0) :
    let alpha := R.lo (w / R.lo (out 0 + w))
    let delta := R.lo (x - out 1)
    let incr := R.lo (delta * alpha)
    ∃ m, R.pushVal order x w out = some m ∧ m 0 = R.lo (out 0 + w) ∧ m 1 = R.lo (out 1 + incr) ∧
      (order = 1 → m 2 = out 2) ∧
      (order ≠ 1 → m 2 = R.lo (R.hi (R.hi (1 - alpha) * R.lo (out 2 + R.lo (delta * incr))))) := by
  intro alpha delta incr
  unfold pushVal
  rw [if_neg hw]
  simp only [Function.update_self]
  rw [if_neg h0]
  have h2 : ∀ f : ℕ → Mom K → K, ∀ o : Mom K, ∀ i < 3,
      ((rangeDown order 2).foldl (fun o a => Function.update o a (f a o)) o) i = o i := fun f o i hi =>
    foldl_update_other f _ o fun h => by have := mem_rangeDown.1 h; omega
  by_cases h1 : order = 1
  · rw [if_pos h1]
    refine ⟨_, rfl, ?_, ?_, fun _ => ?_, fun h => absurd h1 h⟩ <;> simp [alpha, delta, incr]
  · rw [if_neg h1]
    refine ⟨_, rfl, ?_, ?_, fun h => absurd h h1, fun _ => ?_⟩
    · rw [Function.update_of_ne (by decide), h2 _ _ 0 (by decide)]
      simp
    · rw [Function.update_of_ne (by decide), h2 _ _ 1 (by decide)]
      simp [alpha, delta, incr]
    · rw [Function.update_self, h2 _ _ 2 (by decide)]
      simp [alpha, delta, incr]

omit [IsStrictOrderedRing K] in
/-- The same for records. -/
theorem pushDataBody_cases (order : ℕ) (w : K) (data out : Mom K) (hw : w ≠ 0)
    (h0 : R.lo (out 0 + w) ≠ 0) :
    let alpha := R.lo (w / R.lo (out 0 + w))
    let delta := R.lo (data 1 - out 1)
    let incr := R.lo (delta * alpha)
    ∃ m, R.pushDataBody order w data out = some m ∧ m 0 = R.lo (out 0 + w) ∧
      m 1 = R.lo (out 1 + incr) ∧ (order = 1 → m 2 = out 2) ∧
      (order ≠ 1 → m 2 = R.lo (R.hi (R.lo (data 2 * alpha)
        + R.hi (R.hi (1 - alpha) * R.lo (out 2 + R.lo (delta * incr)))))) := by
  intro alpha delta incr
  unfold pushDataBody
  rw [if_neg hw]
  simp only [Function.update_self]
  rw [if_neg h0]
  have h2 : ∀ f : ℕ → Mom K → K, ∀ o : Mom K, ∀ i < 3,
      ((rangeDown order 2).foldl (fun o a => Function.update o a (f a o)) o) i = o i := fun f o i hi =>
    foldl_update_other f _ o fun h => by have := mem_rangeDown.1 h; omega
  by_cases h1 : order = 1
  · rw [if_pos h1]
    refine ⟨_, rfl, ?_, ?_, fun _ => ?_, fun h => absurd h1 h⟩ <;> simp [alpha, delta, incr]
  · rw [if_neg h1]
    refine ⟨_, rfl, ?_, ?_, fun h => absurd h h1, fun _ => ?_⟩
    · rw [Function.update_of_ne (by decide), h2 _ _ 0 (by decide)]
      simp
    · rw [Function.update_of_ne (by decide), h2 _ _ 1 (by decide)]
      simp [alpha, delta, incr]
    · rw [Function.update_self, h2 _ _ 2 (by decide)]
      simp [alpha, delta, incr]

/-- A push keeps weight and variance not negative. -/
theorem pushVal_sound (h : IsPrecision R) (order : ℕ) (x : K) {w : K} {out : Mom K} (hw : IsWeight R w)
    (ho : Sound R out) : ∃ m, R.pushVal order x w out = some m ∧ Sound R m ∧ out 0 ≤ m 0 ∧ w ≤ m 0 := by
  by_cases hne : w = 0
  · exact ⟨out, by unfold pushVal; rw [if_pos hne], ho, le_refl _, hne ▸ ho.weight.2⟩
  obtain ⟨h1, h2, h3, h4, h5, h6, h7, h8⟩ := h.push_numbers ho.weight hw hne
  obtain ⟨m, e, e0, -, e2, e3⟩ := pushVal_cases order x w out hne h4.ne'
  refine ⟨m, e, ⟨e0 ▸ h1, ?_⟩, e0 ▸ h2, e0 ▸ h3⟩
  by_cases ho1 : order = 1
  · rw [e2 ho1]
    exact ho.var
  · rw [e3 ho1]
    exact h.lo.nonneg (h.hi.nonneg (mul_nonneg h7 (h.lo.nonneg (add_nonneg ho.var
      (h.lo.nonneg (h.lo.mul_mul_nonneg _ h5))))))

theorem pushDataBody_sound (h : IsPrecision R) (order : ℕ) {w : K} {data out : Mom K} (hw : IsWeight R w)
    (hd : 0 ≤ data 2) (ho : Sound R out) :
    ∃ m, R.pushDataBody order w data out = some m ∧ Sound R m ∧ out 0 ≤ m 0 ∧ w ≤ m 0 := by
  by_cases hne : w = 0
  · exact ⟨out, by unfold pushDataBody; rw [if_pos hne], ho, le_refl _, hne ▸ ho.weight.2⟩
  obtain ⟨h1, h2, h3, h4, h5, h6, h7, h8⟩ := h.push_numbers ho.weight hw hne
  obtain ⟨m, e, e0, -, e2, e3⟩ := pushDataBody_cases order w data out hne h4.ne'
  refine ⟨m, e, ⟨e0 ▸ h1, ?_⟩, e0 ▸ h2, e0 ▸ h3⟩
  by_cases ho1 : order = 1
  · rw [e2 ho1]
    exact ho.var
  · rw [e3 ho1]
    exact h.lo.nonneg (h.hi.nonneg (add_nonneg (h.lo.nonneg (mul_nonneg hd h5)) (h.hi.nonneg
      (mul_nonneg h7 (h.lo.nonneg (add_nonneg ho.var (h.lo.nonneg (h.lo.mul_mul_nonneg _ h5))))))))

section loops

omit [IsStrictOrderedRing K] [LinearOrder K] [Field K] in
theorem foldl_range_inv {σ : Type*} (f : σ → ℕ → σ) (P : ℕ → σ → Prop) (n : ℕ) (s : σ) (h0 : P 0 s)
    (hs : ∀ j < n, ∀ s, P j s → P (j + 1) (f s j)) : P n ((List.range n).foldl f s) := by
  induction n with
  | zero => exact h0
  | succ n ih =>
    rw [List.range_succ, List.foldl_append]
    exact hs n (Nat.lt_succ_self n) _ (ih fun j hj => hs j (by omega))

end loops

/-- Nothing is added to zeros by a sample at the average, or by the first sample. -/
theorem pushLast_zero (h : IsPrecision R) {delta alpha one_alpha : K} (hz : delta = 0 ∨ one_alpha = 0)
    {s : PAcc K} (ht : s.tmp = 0) : R.pushLast delta alpha one_alpha s = 0 := by
  unfold pushLast
  have h1 : R.hi (R.lo (delta * alpha) * one_alpha) = 0 := by
    rcases hz with hz | hz
    · rw [hz, zero_mul, h.lo.zero, zero_mul, h.hi.zero]
    · rw [hz, mul_zero, h.hi.zero]
  rw [h1, zero_mul, h.hi.zero, zero_mul, h.hi.zero, ht, add_zero, h.hi.zero]

theorem pushValTmp_zero (h : IsPrecision R) {delta alpha one_alpha : K} (hz : delta = 0 ∨ one_alpha = 0)
    {a : ℕ} {out : Mom K} (ho : ∀ i, 2 ≤ i → i ≤ a → out i = 0) :
    R.pushValTmp a delta alpha one_alpha out = 0 := by
  unfold pushValTmp
  rw [pushLast_zero h hz, h.lo.zero]
  refine foldl_range_inv _ (fun _ (s : PAcc K) => s.tmp = 0) _ _ rfl fun j hj s hs => ?_
  show R.hi (s.tmp + _) = 0
  rw [ho (a - j) (by omega) (by omega), mul_zero, h.hi.zero, mul_zero, h.hi.zero, hs, add_zero, h.hi.zero]

theorem pushDataTmp_zero (h : IsPrecision R) {delta alpha one_alpha : K} (hz : delta = 0 ∨ one_alpha = 0)
    {a : ℕ} {data out : Mom K} (hd : ∀ i, 2 ≤ i → i ≤ a → data i = 0)
    (ho : ∀ i, 2 ≤ i → i ≤ a → out i = 0) :
    R.pushDataTmp a delta alpha one_alpha data out = 0 := by
  unfold pushDataTmp
  rw [pushLast_zero h hz, h.lo.zero]
  refine foldl_range_inv _ (fun _ (s : PAcc K) => s.tmp = 0) _ _ rfl fun j hj s hs => ?_
  show R.hi (s.tmp + _) = 0
  rw [ho (a - j) (by omega) (by omega), hd (a - j) (by omega) (by omega), mul_zero, mul_zero, h.hi.zero,
    add_zero, h.hi.zero, mul_zero, h.hi.zero, hs, add_zero, h.hi.zero]

omit [LinearOrder K] [IsStrictOrderedRing K] in
/-- The descending loop over orders keeps zeros. -/
theorem loop_zero {f : ℕ → Mom K → K} {order : ℕ}
    (hf : ∀ a, a ≤ order → ∀ o : Mom K, (∀ i, 2 ≤ i → i ≤ a → o i = 0) → f a o = 0) {out : Mom K}
    (ho : ∀ i, 2 ≤ i → i ≤ order → out i = 0) :
    ∀ i, 2 ≤ i → i ≤ order →
      ((rangeDown order 2).foldl (fun o a => Function.update o a (f a o)) out) i = 0 := by
  refine foldl_update_inv f (fun o => ∀ i, 2 ≤ i → i ≤ order → o i = 0) _ out ho ?_
  intro a ha o ih i h1 h2
  have := mem_rangeDown.1 ha
  by_cases e : i = a
  · rw [e, Function.update_self]
    exact hf a this.2 o fun j h3 h4 => ih j h3 (by omega)
  · rw [Function.update_of_ne e]
    exact ih i h1 h2

/-- The average of samples that are all the same, after a push. -/
theorem mean_constant (h : IsPrecision R) {v w o0 o1 : K} (hv : IsNum R v) (hw : IsWeight R w) (hne : w ≠ 0)
    (ho : o1 = v ∨ o0 = 0 ∧ o1 = 0) :
    let alpha := R.lo (w / R.lo (o0 + w))
    let delta := R.lo (v - o1)
    R.lo (o1 + R.lo (delta * alpha)) = v ∧ (delta = 0 ∨ R.hi (1 - alpha) = 0) := by
  intro alpha delta
  rcases ho with ho | ⟨ho, ho'⟩
  · have hd : delta = 0 := by
      show R.lo (v - o1) = 0
      rw [ho, sub_self, h.lo.zero]
    rw [hd, zero_mul, h.lo.zero, add_zero, ho]
    exact ⟨hv, .inl rfl⟩
  · obtain ⟨e1, e2, e3⟩ := h.push_first hw hne
    have ha : alpha = 1 := by
      show R.lo (w / R.lo (o0 + w)) = 1
      rw [ho, e1, e2]
    have hd : delta = v := by
      show R.lo (v - o1) = v
      rw [ho', sub_zero]
      exact hv
    rw [ha, hd, ho', mul_one, show R.lo v = v from hv, zero_add]
    exact ⟨hv, .inr e3⟩

theorem pushVal_constant (h : IsPrecision R) {order : ℕ} {v w : K} (hv : IsNum R v) (hw : IsWeight R w)
    {out : Mom K} (ho : Constant R order v out) :
    ∃ m, R.pushVal order v w out = some m ∧ Constant R order v m ∧
      (out 1 = v ∨ w ≠ 0 → m 1 = v) := by
  by_cases hne : w = 0
  · exact ⟨out, by unfold pushVal; rw [if_pos hne], ho, fun h => h.resolve_right (fun h => h hne)⟩
  obtain ⟨h1, h2, h3, h4, h5, h6, h7, h8⟩ := h.push_numbers ho.weight hw hne
  obtain ⟨m, e, e0, e1, e2, e3⟩ := pushVal_cases order v w out hne h4.ne'
  obtain ⟨hm, hz⟩ := mean_constant h hv hw hne ho.mean
  have hm1 : m 1 = v := by rw [e1, hm]
  refine ⟨m, e, ⟨e0 ▸ h1, .inl hm1, fun i hi hi' => ?_⟩, fun _ => hm1⟩
  have ho1 : order ≠ 1 := by omega
  by_cases hi2 : i = 2
  · subst hi2
    rw [e3 ho1, ho.rest 2 (le_refl _) hi', zero_add]
    rcases hz with hz | hz
    · rw [hz, zero_mul, h.lo.zero, h.lo.zero, mul_zero, h.hi.zero, h.lo.zero]
    · rw [hz, zero_mul, h.hi.zero, h.lo.zero]
  · unfold pushVal at e
    rw [if_neg hne] at e
    simp only [Function.update_self] at e
    rw [if_neg h4.ne', if_neg ho1] at e
    rw [← Option.some.inj e, Function.update_of_ne hi2]
    refine loop_zero (fun a _ o hz' => pushValTmp_zero h ?_ hz') (fun j hj hj' => ?_) i hi hi'
    · simpa using hz
    · rw [Function.update_of_ne (by omega), Function.update_of_ne (by omega)]
      exact ho.rest j hj hj'

theorem pushDataBody_constant (h : IsPrecision R) {order : ℕ} {v w : K} (hv : IsNum R v) (hw : IsWeight R w)
    {data out : Mom K} (hd1 : w ≠ 0 → data 1 = v) (hd : ∀ i, 2 ≤ i → i ≤ order → data i = 0)
    (ho : Constant R order v out) :
    ∃ m, R.pushDataBody order w data out = some m ∧ Constant R order v m ∧
      (out 1 = v ∨ w ≠ 0 → m 1 = v) := by
  by_cases hne : w = 0
  · exact ⟨out, by unfold pushDataBody; rw [if_pos hne], ho, fun h => h.resolve_right (fun h => h hne)⟩
  obtain ⟨h1, h2, h3, h4, h5, h6, h7, h8⟩ := h.push_numbers ho.weight hw hne
  obtain ⟨m, e, e0, e1, e2, e3⟩ := pushDataBody_cases order w data out hne h4.ne'
  obtain ⟨hm, hz⟩ := mean_constant h hv hw hne ho.mean
  rw [hd1 hne] at e1 e3
  have hm1 : m 1 = v := by rw [e1, hm]
  refine ⟨m, e, ⟨e0 ▸ h1, .inl hm1, fun i hi hi' => ?_⟩, fun _ => hm1⟩
  have ho1 : order ≠ 1 := by omega
  by_cases hi2 : i = 2
  · subst hi2
    rw [e3 ho1, ho.rest 2 (le_refl _) hi', hd 2 (le_refl _) hi', zero_mul, h.lo.zero, zero_add, zero_add]
    rcases hz with hz | hz
    · rw [hz, zero_mul, h.lo.zero, h.lo.zero, mul_zero, h.hi.zero, h.hi.zero, h.lo.zero]
    · rw [hz, zero_mul, h.hi.zero, h.hi.zero, h.lo.zero]
  · unfold pushDataBody at e
    rw [if_neg hne] at e
    simp only [Function.update_self] at e
    rw [if_neg h4.ne', if_neg ho1] at e
    rw [← Option.some.inj e, Function.update_of_ne hi2]
    refine loop_zero (fun a ha o hz' => pushDataTmp_zero h ?_ (fun i h1 h2 => hd i h1 (by omega)) hz')
      (fun j hj hj' => ?_) i hi hi'
    · rw [hd1 hne]
      simpa using hz
    · rw [Function.update_of_ne (by omega), Function.update_of_ne (by omega)]
      exact ho.rest j hj hj'

/-- The first record, exactly. -/
theorem pushDataTmp_first (h : IsPrecision R) {delta : K} {a : ℕ} (ha : 2 ≤ a) {data out : Mom K}
    (hd : IsNum R (data a)) (ho : ∀ i, 2 ≤ i → i ≤ a → out i = 0) :
    R.pushDataTmp a delta 1 0 data out = data a := by
  have key := foldl_range_inv (R.pushDataInner a delta 1 0 data out)
    (fun j s => if j = 0 then s = PAcc.init else s.tmp = data a ∧ s.one_alpha_b = 0) (a - 1) PAcc.init
    (by simp) (by
      intro j hj s hs
      rw [if_neg (Nat.succ_ne_zero j)]
      have hoj := ho (a - j) (by omega) (by omega)
      by_cases h0 : j = 0
      · rw [if_pos h0] at hs
        subst h0 hs
        refine ⟨?_, ?_⟩
        · show R.hi (0 + R.hi (R.hi (R.factor a 0 * 1) * R.hi (_ + R.hi (R.hi (1 * 1) * data (a - 0))))) = _
          have hf : R.factor a 0 = 1 := by
            unfold factor
            rw [binom_eq_choose, Nat.choose_zero_right, Nat.cast_one, h.hi.one]
          rw [hoj, mul_zero, h.hi.zero, hf, mul_one, h.hi.one, one_mul, one_mul, Nat.sub_zero, zero_add,
            zero_add, h.hi_num hd, h.hi_num hd, h.hi_num hd, h.hi_num hd]
        · show R.hi (_ * 0) = 0
          rw [mul_zero, h.hi.zero]
      · rw [if_neg h0] at hs
        refine ⟨?_, ?_⟩
        · show R.hi (s.tmp + R.hi (_ * R.hi (R.hi (_ * out (a - j)) + R.hi (R.hi (s.one_alpha_b * 1) * _)))) = _
          rw [hoj, hs.2, mul_zero, zero_mul, h.hi.zero, zero_mul, h.hi.zero, add_zero, h.hi.zero, mul_zero,
            h.hi.zero, hs.1, add_zero, h.hi_num hd]
        · show R.hi (_ * 0) = 0
          rw [mul_zero, h.hi.zero])
  rw [if_neg (by omega)] at key
  unfold pushDataTmp pushLast
  rw [mul_zero, h.hi.zero, zero_mul, h.hi.zero, zero_mul, h.hi.zero, add_zero, key.1, h.hi_num hd]
  exact hd

/-- The first record is stored as it is. -/
theorem pushDataBody_first (h : IsPrecision R) {order : ℕ} {w : K} (hw : IsWeight R w) (hne : w ≠ 0)
    {data : Mom K} (hd : ∀ i, i ≤ order → IsNum R (data i)) :
    ∃ m, R.pushDataBody order w data (fun _ => 0) = some m ∧ m 0 = w ∧
      ∀ i, 1 ≤ i → i ≤ order → m i = data i := by
  obtain ⟨e1, e2, e3⟩ := h.push_first hw hne
  unfold pushDataBody
  rw [if_neg hne]
  simp only [Function.update_self]
  rw [if_neg (by rw [e1]; exact hne), e1, e2, e3]
  have hx : Function.update (fun _ => (0 : K)) 0 w 1 = 0 := by simp
  rw [hx, sub_zero, zero_add]
  have hm : ∀ i, 1 ≤ i → i ≤ order → R.lo (R.lo (R.lo (data i) * 1)) = data i := by
    intro i _ hi
    have := hd i hi
    unfold IsNum at this
    rw [this, mul_one, this, this]
  by_cases h1 : order = 1
  · rw [if_pos h1]
    refine ⟨_, rfl, by simp, fun i hi hi' => ?_⟩
    obtain rfl : i = 1 := by omega
    rw [Function.update_self]
    exact hm 1 hi hi'
  · rw [if_neg h1]
    refine ⟨_, rfl, ?_, fun i hi hi' => ?_⟩
    · rw [Function.update_of_ne (by decide), foldl_update_other _ _ _ (fun h => by
        have := mem_rangeDown.1 h; omega)]
      simp
    · by_cases hi2 : i = 2
      · subst hi2
        rw [Function.update_self, zero_mul, h.hi.zero, add_zero, h.hi_num (h.num_lo _), mul_one]
        have := hd 2 hi'
        unfold IsNum at this
        rw [this, this]
      · rw [Function.update_of_ne hi2]
        by_cases hi1 : i = 1
        · subst hi1
          rw [foldl_update_other _ _ _ (fun h => by have := mem_rangeDown.1 h; omega), Function.update_self]
          exact hm 1 hi hi'
        · have key : ∀ l : List ℕ, (∀ a ∈ l, 2 < a ∧ a ≤ order) → l.Pairwise (fun p q => q < p) →
              ∀ o : Mom K, (∀ j, 2 ≤ j → (∃ a ∈ l, j ≤ a) → o j = 0) → ∀ i ∈ l,
              (l.foldl (fun o a => Function.update o a
                (R.pushDataTmp a (R.lo (data 1)) 1 0 data o)) o) i = data i := by
            intro l
            induction l with
            | nil => intro _ _ o _ i hi; cases hi
            | cons a l ih =>
              intro hl hp o hz i hi
              rw [List.pairwise_cons] at hp
              rw [List.foldl_cons]
              rcases List.mem_cons.1 hi with rfl | hi
              · rw [foldl_update_other _ _ _ (fun hm => absurd (hp.1 i hm) (lt_irrefl _)),
                  Function.update_self]
                exact pushDataTmp_first h (hl i List.mem_cons_self).1.le
                  (hd i (hl i List.mem_cons_self).2) fun j h1 h2 => hz j h1 ⟨i, List.mem_cons_self, h2⟩
              · refine ih (fun b hb => hl b (List.mem_cons_of_mem _ hb)) hp.2 _ (fun j hj hj' => ?_) i hi
                obtain ⟨b, hb, hjb⟩ := hj'
                have := hp.1 b hb
                rw [Function.update_of_ne (by omega)]
                exact hz j hj ⟨b, List.mem_cons_of_mem _ hb, hjb⟩
          refine key _ (fun a ha => mem_rangeDown.1 ha) (pairwise_rangeDown _ _) _ (fun j hj _ => ?_) i
            (mem_rangeDown.2 ⟨by omega, hi'⟩)
          rw [Function.update_of_ne (by omega), Function.update_of_ne (by omega)]

/-- The average moves towards the sample, and not beyond it if the difference is a number. -/
theorem mean_between (h : IsPrecision R) {o x alpha : K} (ho : IsNum R o) (hx : IsNum R x)
    (hd : IsNum R (x - o)) (h0 : 0 ≤ alpha) (h1 : alpha ≤ 1) :
    min o x ≤ R.lo (o + R.lo (R.lo (x - o) * alpha)) ∧
      R.lo (o + R.lo (R.lo (x - o) * alpha)) ≤ max o x := by
  rw [show R.lo (x - o) = x - o from hd]
  have hmin : IsNum R (min o x) := by
    rcases min_choice o x with e | e <;> rw [e] <;> assumption
  have hmax : IsNum R (max o x) := by
    rcases max_choice o x with e | e <;> rw [e] <;> assumption
  have key : min o x ≤ o + R.lo ((x - o) * alpha) ∧ o + R.lo ((x - o) * alpha) ≤ max o x := by
    rcases le_total o x with hle | hle
    · rw [min_eq_left hle, max_eq_right hle]
      have h2 : 0 ≤ x - o := sub_nonneg.2 hle
      have h3 := h.lo.nonneg (mul_nonneg h2 h0)
      have h4 := h.lo.mono (mul_le_of_le_one_right h2 h1)
      rw [show R.lo (x - o) = x - o from hd] at h4
      exact ⟨by linarith, by linarith⟩
    · rw [min_eq_right hle, max_eq_left hle]
      have h2 : x - o ≤ 0 := sub_nonpos.2 hle
      have h3 := h.lo.nonpos (mul_nonpos_of_nonpos_of_nonneg h2 h0)
      have h4 := h.lo.mono (show x - o ≤ (x - o) * alpha by nlinarith)
      rw [show R.lo (x - o) = x - o from hd] at h4
      exact ⟨by linarith, by linarith⟩
  refine ⟨?_, ?_⟩
  · have := h.lo.mono key.1
    rwa [show R.lo (min o x) = min o x from hmin] at this
  · have := h.lo.mono key.2
    rwa [show R.lo (max o x) = max o x from hmax] at this

/-- One step of the average within an interval. -/
theorem mean_within (h : IsPrecision R) {a b v w o0 o1 : K} (hs : ExactSub R a b) (hv : IsNum R v)
    (ha : a ≤ v) (hb : v ≤ b) (hw : IsWeight R w) (hne : w ≠ 0) (hw0 : IsWeight R o0)
    (ho : IsNum R o1 ∧ a ≤ o1 ∧ o1 ≤ b ∨ o0 = 0 ∧ o1 = 0) :
    let m := R.lo (o1 + R.lo (R.lo (v - o1) * R.lo (w / R.lo (o0 + w))))
    IsNum R m ∧ a ≤ m ∧ m ≤ b := by
  intro m
  refine ⟨h.num_lo _, ?_⟩
  obtain ⟨-, -, -, -, h5, h6, -⟩ := h.push_numbers hw0 hw hne
  rcases ho with ⟨h1, h2, h3⟩ | ⟨h1, h2⟩
  · obtain ⟨k1, k2⟩ := mean_between h h1 hv (hs _ _ hv h1 ha hb h2 h3) h5 h6
    exact ⟨(le_min h2 ha).trans k1, k2.trans (max_le h3 hb)⟩
  · have : m = v := (mean_constant h hv hw hne (.inr ⟨h1, h2⟩)).1
    rw [this]
    exact ⟨ha, hb⟩

/-- `setAt` assigned in turn: what every assignment keeps. -/
theorem foldl_setAt_inv {α : Type*} (f : ℕ → ℕ → Com α → α) (P : Com α → Prop) (l : List (ℕ × ℕ))
    (o : Com α) (hP : P o) (hs : ∀ p ∈ l, ∀ o, P o → P (setAt o p.1 p.2 (f p.1 p.2 o))) :
    P (l.foldl (fun o p => setAt o p.1 p.2 (f p.1 p.2 o)) o) := by
  induction l generalizing o with
  | nil => exact hP
  | cons a l ih =>
    exact ih _ (hs a List.mem_cons_self o hP) fun b hb => hs b (List.mem_cons_of_mem _ hb)

section cov

/-- Values are records without further moments. -/
theorem pushValCovInner1_eq (h : IsPrecision R) (a0 a1 b0 : ℕ) (d δ α β : K) {data : Com K} (out : Com K)
    (hd : ∀ i j, 2 ≤ i + j → data i j = 0) :
    R.pushDataCovInner1 a0 a1 b0 d δ α β data out = R.pushValCovInner1 a0 a1 b0 d δ α β out := by
  funext s b1
  unfold pushDataCovInner1 pushValCovInner1
  by_cases h0 : a0 - b0 + (a1 - b1) = 0
  · simp only [h0, if_true]
  · by_cases h1 : a0 - b0 + (a1 - b1) ≠ 1
    · simp only [if_neg h0, if_pos h1]
      rw [hd (a0 - b0) (a1 - b1) (by omega), mul_zero, h.hi.zero, add_zero, h.hi.idem]
    · simp only [if_neg h0, if_neg h1]

theorem pushValCovTmp_eq (h : IsPrecision R) (a0 a1 : ℕ) (δ0 δ1 α β : K) {data : Com K} (out : Com K)
    (hd : ∀ i j, 2 ≤ i + j → data i j = 0) :
    R.pushDataCovTmp a0 a1 δ0 δ1 α β data out = R.pushValCovTmp a0 a1 δ0 δ1 α β out := by
  unfold pushDataCovTmp pushValCovTmp
  congr 4
  funext s b0
  unfold pushDataCovInner0 pushValCovInner0
  simp only [pushValCovInner1_eq h _ _ _ _ _ _ _ _ hd]

theorem pushValCov_eq (h : IsPrecision R) (o0 o1 : ℕ) (x0 x1 w : K) (out : Com K) :
    R.pushValCov o0 o1 x0 x1 w out = R.pushDataCovBody o0 o1 w (valToDataCov x0 x1 w) out := by
  have hd : ∀ i j, 2 ≤ i + j → valToDataCov x0 x1 w i j = 0 := by
    intro i j hij
    unfold valToDataCov
    simp only [setAt_apply, Prod.mk.injEq]
    rw [if_neg (by omega), if_neg (by omega), if_neg (by omega)]
  have h10 : valToDataCov x0 x1 w 1 0 = x0 := by unfold valToDataCov; simp [setAt_apply]
  have h01 : valToDataCov x0 x1 w 0 1 = x1 := by unfold valToDataCov; simp [setAt_apply]
  unfold pushValCov pushDataCovBody
  simp only [pushValCovTmp_eq h _ _ _ _ _ _ _ hd, h10, h01]

/-- The variances of a comoment push. -/
theorem pushDataCovTmp_nonneg (h : IsPrecision R) {δ0 δ1 α β : K} (hα : 0 ≤ α) (hβ : 0 ≤ β)
    (data out : Com K) :
    (0 ≤ data 2 0 → 0 ≤ out 2 0 → 0 ≤ R.pushDataCovTmp 2 0 δ0 δ1 α β data out) ∧
    (0 ≤ data 0 2 → 0 ≤ out 0 2 → 0 ≤ R.pushDataCovTmp 0 2 δ0 δ1 α β data out) := by
  constructor <;> intro hd ho <;>
  · simp only [pushDataCovTmp, List.range_succ, List.range_zero, List.nil_append, List.foldl_append,
      List.foldl_cons, List.foldl_nil, pushDataCovInner0, pushDataCovInner1, CAcc0.init]
    norm_num
    simp only [h.hi.neg, h.hi.one, neg_neg]
    repeat' first
      | assumption
      | exact zero_le_one
      | exact h.factor_nonneg _ _
      | exact h.hi.sq_nonneg _
      | apply h.lo.nonneg
      | apply h.hi.nonneg
      | apply add_nonneg
      | apply mul_nonneg

theorem pushDataCovBody_cases (o0 o1 : ℕ) (w : K) (data out : Com K) (hw : w ≠ 0)
    (h0 : R.lo (out 0 0 + w) ≠ 0) :
    let alpha := R.lo (w / R.lo (out 0 0 + w))
    let delta0 := R.lo (data 1 0 - out 1 0)
    let delta1 := R.lo (data 0 1 - out 0 1)
    R.pushDataCovBody o0 o1 w data out = some ((covPositions o0 o1).foldl
      (fun o p => setAt o p.1 p.2 (R.pushDataCovTmp p.1 p.2 delta0 delta1 alpha (R.hi (1 - alpha)) data o))
      (setAt (setAt (setAt out 0 0 (R.lo (out 0 0 + w))) 1 0 (R.lo (out 1 0 + R.lo (delta0 * alpha)))) 0 1
        (R.lo (out 0 1 + R.lo (delta1 * alpha))))) := by
  intro alpha delta0 delta1
  have e00 : setAt out 0 0 (R.lo (out 0 0 + w)) 0 0 = R.lo (out 0 0 + w) := by simp [setAt_apply]
  have e10 : setAt out 0 0 (R.lo (out 0 0 + w)) 1 0 = out 1 0 := by simp [setAt_apply]
  have e01 : setAt out 0 0 (R.lo (out 0 0 + w)) 0 1 = out 0 1 := by simp [setAt_apply]
  have e01' : ∀ v, setAt (setAt out 0 0 (R.lo (out 0 0 + w))) 1 0 v 0 1 = out 0 1 := by simp [setAt_apply]
  unfold pushDataCovBody
  rw [if_neg hw]
  simp only [e00, e10, e01, e01']
  rw [if_neg h0]
  exact congrArg some (foldl_positions o0 o1
    (fun a0 a1 o => R.pushDataCovTmp a0 a1 delta0 delta1 alpha (R.hi (1 - alpha)) data o) _)

theorem pushDataCovBody_sound (h : IsPrecision R) {o0 o1 : ℕ} (h0 : 1 ≤ o0) (h1 : 1 ≤ o1) {w : K}
    {data out : Com K} (hw : IsWeight R w) (hd0 : 0 ≤ data 2 0) (hd1 : 0 ≤ data 0 2) (ho : SoundCov R out) :
    ∃ m, R.pushDataCovBody o0 o1 w data out = some m ∧ SoundCov R m ∧ out 0 0 ≤ m 0 0 ∧ w ≤ m 0 0 := by
  by_cases hne : w = 0
  · exact ⟨out, by unfold pushDataCovBody; rw [if_pos hne], ho, le_refl _, hne ▸ ho.weight.2⟩
  obtain ⟨k1, k2, k3, k4, k5, k6, k7, k8⟩ := h.push_numbers ho.weight hw hne
  have key := foldl_setAt_inv
    (fun a0 a1 o => R.pushDataCovTmp a0 a1 (R.lo (data 1 0 - out 1 0)) (R.lo (data 0 1 - out 0 1))
      (R.lo (w / R.lo (out 0 0 + w))) (R.hi (1 - R.lo (w / R.lo (out 0 0 + w)))) data o)
    (fun o => o 0 0 = R.lo (out 0 0 + w) ∧ 0 ≤ o 2 0 ∧ 0 ≤ o 0 2) (covPositions o0 o1)
    (setAt (setAt (setAt out 0 0 (R.lo (out 0 0 + w))) 1 0 (R.lo (out 1 0 +
      R.lo (R.lo (data 1 0 - out 1 0) * R.lo (w / R.lo (out 0 0 + w)))))) 0 1
        (R.lo (out 0 1 + R.lo (R.lo (data 0 1 - out 0 1) * R.lo (w / R.lo (out 0 0 + w))))))
    (by simp [setAt_apply, ho.var0, ho.var1]) (by
      rintro ⟨a0, a1⟩ hp o ⟨e, p0, p1⟩
      have := (mem_covPositions h0 h1).1 hp
      obtain ⟨n0, n1⟩ := pushDataCovTmp_nonneg h (δ0 := R.lo (data 1 0 - out 1 0))
        (δ1 := R.lo (data 0 1 - out 0 1)) k5 k7 data o
      simp only [setAt_apply, Prod.mk.injEq] at this ⊢
      refine ⟨?_, ?_, ?_⟩
      · rw [if_neg (by omega)]
        exact e
      · split_ifs with hc
        · rw [← hc.1, ← hc.2]
          exact n0 hd0 p0
        · exact p0
      · split_ifs with hc
        · rw [← hc.1, ← hc.2]
          exact n1 hd1 p1
        · exact p1)
  refine ⟨_, pushDataCovBody_cases o0 o1 w data out hne k4.ne', ⟨?_, key.2.1, key.2.2⟩, ?_, ?_⟩
  · rw [key.1]
    exact k1
  · rw [key.1]
    exact k2
  · rw [key.1]
    exact k3

/-- Zeros stay zeros under a sample at the average, or the first sample. -/
theorem pushDataCovTmp_zero (h : IsPrecision R) {δ0 δ1 α β : K} (hz : δ0 = 0 ∧ δ1 = 0 ∨ β = 0) {a0 a1 : ℕ}
    (ha : 2 ≤ a0 + a1) {data out : Com K} (hd : ∀ i j, 2 ≤ i + j → i ≤ a0 → j ≤ a1 → data i j = 0)
    (ho : ∀ i j, 2 ≤ i + j → i ≤ a0 → j ≤ a1 → out i j = 0) :
    R.pushDataCovTmp a0 a1 δ0 δ1 α β data out = 0 := by
  have key := foldl_range_inv (R.pushDataCovInner0 a0 a1 δ0 δ1 α β data out)
    (fun j s => s.tmp = 0 ∧ (1 ≤ j → s.delta0_b0 = 0 ∨ β = 0 ∧ s.one_alpha_b0 = 0)) (a0 + 1) CAcc0.init
    ⟨rfl, fun h => by omega⟩ (by
      intro b0 hb0 s hs
      have inner := foldl_range_inv (R.pushDataCovInner1 a0 a1 b0 s.delta0_b0 δ1 α β data out)
        (fun j t => t.tmp = 0 ∧ (1 ≤ b0 + j →
          s.delta0_b0 * t.delta1_b1 = 0 ∨ β = 0 ∧ t.one_alpha_bb = 0)) (a1 + 1)
        ⟨s.tmp, 1, s.alpha_b0, s.minus_b0, s.one_alpha_b0⟩
        ⟨hs.1, fun hj => by
          rcases hs.2 hj with h' | h'
          · exact .inl (by rw [h', zero_mul])
          · exact .inr h'⟩ (by
          intro b1 hb1 t ht
          refine ⟨?_, fun _ => ?_⟩
          · show (if a0 - b0 + (a1 - b1) = 0 then _ else _) = _
            by_cases hc : a0 - b0 + (a1 - b1) = 0
            · rw [if_pos hc]
              rcases ht.2 (by omega) with h' | ⟨h', h''⟩
              · rw [h', h.hi.zero, zero_mul, h.hi.zero, ht.1, add_zero, h.hi.zero]
              · rw [h', h'', mul_zero, zero_mul, h.hi.zero, add_zero, h.hi.zero, mul_zero, h.hi.zero, ht.1,
                  add_zero, h.hi.zero]
            · rw [if_neg hc]
              by_cases hc1 : a0 - b0 + (a1 - b1) ≠ 1
              · rw [if_pos hc1, ho _ _ (by omega) (by omega) (by omega),
                  hd _ _ (by omega) (by omega) (by omega), mul_zero, mul_zero, h.hi.zero, add_zero, h.hi.zero,
                  mul_zero, h.hi.zero, ht.1, add_zero, h.hi.zero]
              · rw [if_neg hc1]
                exact ht.1
          · show s.delta0_b0 * R.hi (t.delta1_b1 * δ1) = 0 ∨ β = 0 ∧ R.hi (t.one_alpha_bb * β) = 0
            rcases hz with hz | hz
            · exact .inl (by rw [hz.2, mul_zero, h.hi.zero, mul_zero])
            · exact .inr ⟨hz, by rw [hz, mul_zero, h.hi.zero]⟩)
      refine ⟨inner.1, fun _ => ?_⟩
      show R.hi (s.delta0_b0 * δ0) = 0 ∨ β = 0 ∧ R.hi (s.one_alpha_b0 * β) = 0
      rcases hz with hz | hz
      · exact .inl (by rw [hz.1, mul_zero, h.hi.zero])
      · exact .inr ⟨hz, by rw [hz, mul_zero, h.hi.zero]⟩)
  unfold pushDataCovTmp
  rw [key.1, h.lo.zero]

theorem pushDataCovBody_constant (h : IsPrecision R) {o0 o1 : ℕ} (h0 : 1 ≤ o0) (h1 : 1 ≤ o1) {v0 v1 w : K}
    (hv0 : IsNum R v0) (hv1 : IsNum R v1) (hw : IsWeight R w) {data out : Com K}
    (hd1 : w ≠ 0 → data 1 0 = v0 ∧ data 0 1 = v1)
    (hd : ∀ i j, 2 ≤ i + j → i ≤ o0 → j ≤ o1 → data i j = 0) (ho : ConstantCov R o0 o1 v0 v1 out) :
    ∃ m, R.pushDataCovBody o0 o1 w data out = some m ∧ ConstantCov R o0 o1 v0 v1 m ∧
      (out 1 0 = v0 ∧ out 0 1 = v1 ∨ w ≠ 0 → m 1 0 = v0 ∧ m 0 1 = v1) := by
  by_cases hne : w = 0
  · exact ⟨out, by unfold pushDataCovBody; rw [if_pos hne], ho, fun h => h.resolve_right (fun h => h hne)⟩
  obtain ⟨k1, k2, k3, k4, k5, k6, k7, k8⟩ := h.push_numbers ho.weight hw hne
  have hm0 : out 1 0 = v0 ∨ out 0 0 = 0 ∧ out 1 0 = 0 := ho.mean.imp And.left (fun e => ⟨e.1, e.2.1⟩)
  have hm1 : out 0 1 = v1 ∨ out 0 0 = 0 ∧ out 0 1 = 0 := ho.mean.imp And.right (fun e => ⟨e.1, e.2.2⟩)
  obtain ⟨e0, -⟩ := mean_constant h hv0 hw hne hm0
  obtain ⟨e1, -⟩ := mean_constant h hv1 hw hne hm1
  have hz : R.lo (v0 - out 1 0) = 0 ∧ R.lo (v1 - out 0 1) = 0 ∨
      R.hi (1 - R.lo (w / R.lo (out 0 0 + w))) = 0 := by
    rcases ho.mean with ⟨q0, q1⟩ | ⟨q, -, -⟩
    · exact .inl ⟨by rw [q0, sub_self, h.lo.zero], by rw [q1, sub_self, h.lo.zero]⟩
    · obtain ⟨f1, f2, f3⟩ := h.push_first hw hne
      exact .inr (by rw [q, f1, f2, f3])
  obtain ⟨d0, d1⟩ := hd1 hne
  have key := foldl_setAt_inv
    (fun a0 a1 o => R.pushDataCovTmp a0 a1 (R.lo (v0 - out 1 0)) (R.lo (v1 - out 0 1))
      (R.lo (w / R.lo (out 0 0 + w))) (R.hi (1 - R.lo (w / R.lo (out 0 0 + w)))) data o)
    (fun o => (o 0 0 = R.lo (out 0 0 + w) ∧ o 1 0 = v0 ∧ o 0 1 = v1) ∧
      ∀ i j, 2 ≤ i + j → i ≤ o0 → j ≤ o1 → o i j = 0) (covPositions o0 o1)
    (setAt (setAt (setAt out 0 0 (R.lo (out 0 0 + w))) 1 0 (R.lo (out 1 0 +
      R.lo (R.lo (v0 - out 1 0) * R.lo (w / R.lo (out 0 0 + w)))))) 0 1
        (R.lo (out 0 1 + R.lo (R.lo (v1 - out 0 1) * R.lo (w / R.lo (out 0 0 + w))))))
    (by
      refine ⟨by simp [setAt_apply, e0, e1], fun i j hij hi hj => ?_⟩
      simp only [setAt_apply, Prod.mk.injEq]
      rw [if_neg (by omega), if_neg (by omega), if_neg (by omega)]
      exact ho.rest i j hij hi hj) (by
      rintro ⟨a0, a1⟩ hp o ⟨⟨p0, p1, p2⟩, p3⟩
      have := (mem_covPositions h0 h1).1 hp
      simp only [setAt_apply, Prod.mk.injEq] at this ⊢
      refine ⟨⟨?_, ?_, ?_⟩, fun i j hij hi hj => ?_⟩
      · rw [if_neg (by omega)]; exact p0
      · rw [if_neg (by omega)]; exact p1
      · rw [if_neg (by omega)]; exact p2
      · split_ifs with hc
        · exact pushDataCovTmp_zero h hz this.2.2 (fun i j k1 k2 k3 => hd i j k1 (by omega) (by omega))
            (fun i j k1 k2 k3 => p3 i j k1 (by omega) (by omega))
        · exact p3 i j hij hi hj)
  have e := pushDataCovBody_cases (R := R) o0 o1 w data out hne k4.ne'
  rw [d0, d1] at e
  refine ⟨_, e, ⟨?_, .inl key.1.2, key.2⟩, fun _ => key.1.2⟩
  rw [key.1.1]
  exact k1

end cov

end Precision

end Cmomy
