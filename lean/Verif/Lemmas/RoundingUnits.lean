import Verif.Lemmas.RoundingLoops

/-!
# Changing the units of the samples and of the weights
-/

set_option linter.unusedSectionVars false

namespace Cmomy

open Spec

variable {K : Type*} [Field K] [LinearOrder K] [IsStrictOrderedRing K]

namespace Spec.Commutes

variable {R : Precision K} {c d : K}

theorem one : Commutes R (1 : K) := fun x => by simp

theorem mul (hc : Commutes R c) (hd : Commutes R d) : Commutes R (c * d) := fun x => by
  rw [mul_assoc, (hc _).1, (hd _).1, (hc _).2, (hd _).2, mul_assoc, mul_assoc]
  exact ⟨rfl, rfl⟩

theorem pow (hc : Commutes R c) (n : ℕ) : Commutes R (c ^ n) := by
  induction n with
  | zero => rw [pow_zero]; exact one
  | succ n ih => rw [pow_succ]; exact ih.mul hc

theorem lo (hc : Commutes R c) (x : K) : R.lo (c * x) = c * R.lo x := (hc x).1

theorem hi (hc : Commutes R c) (x : K) : R.hi (c * x) = c * R.hi x := (hc x).2

theorem hi_mul (hc : Commutes R c) (x y : K) : R.hi (x * (c * y)) = c * R.hi (x * y) := by
  rw [← hc.hi]
  ring_nf

theorem hi_mul' (hc : Commutes R c) (x y : K) : R.hi ((c * x) * y) = c * R.hi (x * y) := by
  rw [← hc.hi]
  ring_nf

theorem lo_mul (hc : Commutes R c) (x y : K) : R.lo (x * (c * y)) = c * R.lo (x * y) := by
  rw [← hc.lo]
  ring_nf

theorem lo_mul' (hc : Commutes R c) (x y : K) : R.lo ((c * x) * y) = c * R.lo (x * y) := by
  rw [← hc.lo]
  ring_nf

theorem hi_add (hc : Commutes R c) (x y : K) : R.hi (c * x + c * y) = c * R.hi (x + y) := by
  rw [← hc.hi, mul_add]

theorem lo_add (hc : Commutes R c) (x y : K) : R.lo (c * x + c * y) = c * R.lo (x + y) := by
  rw [← hc.lo, mul_add]

theorem lo_sub (hc : Commutes R c) (x y : K) : R.lo (c * x - c * y) = c * R.lo (x - y) := by
  rw [← hc.lo, mul_sub]

end Spec.Commutes

namespace Precision

variable {R : Precision K} {c s : K}

theorem rescaled_ne {m : Mom K} {i : ℕ} (h : i ≠ 0) : rescaled c s m i = c ^ i * m i := if_neg h

theorem rescaled_update {m : Mom K} {i : ℕ} (h : i ≠ 0) (x : K) :
    Function.update (rescaled c s m) i (c ^ i * x) = rescaled c s (Function.update m i x) := by
  funext j
  by_cases e : j = i
  · subst e
    rw [Function.update_self, rescaled_ne h, Function.update_self]
  · rw [Function.update_of_ne e]
    by_cases h0 : j = 0
    · subst h0
      simp only [rescaled, if_true, Function.update_of_ne h.symm]
    · rw [rescaled_ne h0, rescaled_ne h0, Function.update_of_ne e]

theorem rescaled_update_zero {m : Mom K} (x : K) :
    Function.update (rescaled c s m) 0 (s * x) = rescaled c s (Function.update m 0 x) := by
  funext j
  by_cases e : j = 0
  · subst e
    simp only [rescaled, if_true, Function.update_self]
  · rw [Function.update_of_ne e, rescaled_ne e, rescaled_ne e, Function.update_of_ne e]

/-- The inner loop in other units. -/
theorem foldl_range_rel {σ : Type*} (f g : σ → ℕ → σ) (P : ℕ → σ → σ → Prop) (n : ℕ) (a b : σ) (h0 : P 0 a b)
    (hs : ∀ j < n, ∀ a b, P j a b → P (j + 1) (f a j) (g b j)) :
    P n ((List.range n).foldl f a) ((List.range n).foldl g b) := by
  induction n with
  | zero => exact h0
  | succ n ih =>
    rw [List.range_succ, List.foldl_append, List.foldl_append]
    exact hs n (Nat.lt_succ_self n) _ _ (ih fun j hj => hs j (by omega))

/-- State of the inner loop after `j` steps, in the old and in the new units. -/
structure AccRel (c : K) (a j : ℕ) (t t' : PAcc K) : Prop where
  tmp : t'.tmp = c ^ a * t.tmp
  delta_b : t'.delta_b = c ^ j * t.delta_b
  alpha_b : t'.alpha_b = t.alpha_b
  minus_b : t'.minus_b = t.minus_b
  one_alpha_b : t'.one_alpha_b = t.one_alpha_b

theorem pushLast_units (hc : Commutes R c) {a : ℕ} (ha : 2 ≤ a) {delta alpha beta : K} {t t' : PAcc K}
    (h : AccRel c a (a - 1) t t') :
    R.pushLast (c * delta) alpha beta t' = c ^ a * R.pushLast delta alpha beta t := by
  unfold pushLast
  rw [h.tmp, h.delta_b, h.alpha_b, h.minus_b, h.one_alpha_b, hc.lo_mul', hc.hi_mul', (hc.pow (a - 1)).hi_mul,
    hc.hi_mul', ← mul_assoc, ← pow_succ, show a - 1 + 1 = a by omega, (hc.pow a).hi_mul', (hc.pow a).hi_add]

theorem pushDataTmp_units (hc : Commutes R c) {a : ℕ} (ha : 2 ≤ a) {delta alpha beta : K} {data out : Mom K} :
    R.pushDataTmp a (c * delta) alpha beta (rescaled c s data) (rescaled c s out)
      = c ^ a * R.pushDataTmp a delta alpha beta data out := by
  have key := foldl_range_rel (R.pushDataInner a delta alpha beta data out)
    (R.pushDataInner a (c * delta) alpha beta (rescaled c s data) (rescaled c s out)) (AccRel c a) (a - 1)
    PAcc.init PAcc.init ⟨by simp [PAcc.init], by simp [PAcc.init], rfl, rfl, rfl⟩ (by
      intro j hj t t' h
      refine ⟨?_, ?_, ?_, ?_, ?_⟩
      · simp only [pushDataInner]
        rw [h.tmp, h.delta_b, h.alpha_b, h.minus_b, h.one_alpha_b, rescaled_ne (by omega),
          rescaled_ne (by omega), (hc.pow j).hi_mul, (hc.pow (a - j)).hi_mul, (hc.pow (a - j)).hi_mul,
          (hc.pow (a - j)).hi_add, (hc.pow j).hi_mul', (hc.pow (a - j)).hi_mul, ← mul_assoc, ← pow_add,
          show j + (a - j) = a by omega, (hc.pow a).hi_add]
      · simp only [pushDataInner]
        rw [h.delta_b, hc.hi_mul, (hc.pow j).hi_mul', ← mul_assoc, ← pow_succ']
      · simp only [pushDataInner]
        rw [h.alpha_b]
      · simp only [pushDataInner]
        rw [h.minus_b]
      · simp only [pushDataInner]
        rw [h.one_alpha_b])
  unfold pushDataTmp
  rw [pushLast_units hc ha key, (hc.pow a).lo]

theorem pushValTmp_units (hc : Commutes R c) {a : ℕ} (ha : 2 ≤ a) {delta alpha beta : K} {out : Mom K} :
    R.pushValTmp a (c * delta) alpha beta (rescaled c s out) = c ^ a * R.pushValTmp a delta alpha beta out := by
  have key := foldl_range_rel (R.pushValInner a delta alpha beta out)
    (R.pushValInner a (c * delta) alpha beta (rescaled c s out)) (AccRel c a) (a - 1)
    PAcc.init PAcc.init ⟨by simp [PAcc.init], by simp [PAcc.init], rfl, rfl, rfl⟩ (by
      intro j hj t t' h
      refine ⟨?_, ?_, ?_, ?_, ?_⟩
      · simp only [pushValInner]
        rw [h.tmp, h.delta_b, h.alpha_b, h.minus_b, rescaled_ne (by omega),
          (hc.pow j).hi_mul, (hc.pow (a - j)).hi_mul,
          (hc.pow j).hi_mul', (hc.pow (a - j)).hi_mul, ← mul_assoc, ← pow_add,
          show j + (a - j) = a by omega, (hc.pow a).hi_add]
      · simp only [pushValInner]
        rw [h.delta_b, hc.hi_mul, (hc.pow j).hi_mul', ← mul_assoc, ← pow_succ']
      · simp only [pushValInner]
        rw [h.alpha_b]
      · simp only [pushValInner]
        rw [h.minus_b]
      · simp only [pushValInner]
        rw [h.one_alpha_b])
  unfold pushValTmp
  rw [pushLast_units hc ha key, (hc.pow a).lo]

theorem foldl_rescaled {f g : ℕ → Mom K → K} {l : List ℕ}
    (hf : ∀ a ∈ l, a ≠ 0 ∧ ∀ o, g a (rescaled c s o) = c ^ a * f a o) (o : Mom K) :
    l.foldl (fun o a => Function.update o a (g a o)) (rescaled c s o)
      = rescaled c s (l.foldl (fun o a => Function.update o a (f a o)) o) := by
  induction l generalizing o with
  | nil => rfl
  | cons a l ih =>
    obtain ⟨h0, h1⟩ := hf a List.mem_cons_self
    rw [List.foldl_cons, List.foldl_cons, h1, rescaled_update h0]
    exact ih (fun b hb => hf b (List.mem_cons_of_mem _ hb)) _

/-- The fraction of the new weight does not depend on the unit of the weights. -/
theorem alpha_units (hs : Commutes R s) (h0 : s ≠ 0) (w o : K) :
    R.lo (s * w / R.lo (s * o + s * w)) = R.lo (w / R.lo (o + w)) := by
  rw [hs.lo_add, mul_div_mul_left _ _ h0]

theorem pushVal_units (hc : Commutes R c) (hs : Commutes R s) (h0 : s ≠ 0) (order : ℕ) (x w : K) (out : Mom K) :
    R.pushVal order (c * x) (s * w) (rescaled c s out) = (R.pushVal order x w out).map (rescaled c s) := by
  have e0 : rescaled c s out 0 = s * out 0 := if_pos rfl
  have e1 : rescaled c s out 1 = c * out 1 := by rw [rescaled_ne one_ne_zero, pow_one]
  unfold pushVal
  by_cases hw : w = 0
  · rw [if_pos hw, if_pos (by rw [hw, mul_zero])]
    rfl
  rw [if_neg hw, if_neg (mul_ne_zero h0 hw)]
  simp only [Function.update_self]
  rw [e0, hs.lo_add, rescaled_update_zero]
  by_cases hz : R.lo (out 0 + w) = 0
  · rw [if_pos hz, if_pos (by rw [hz, mul_zero])]
    rfl
  rw [if_neg hz, if_neg (mul_ne_zero h0 hz), mul_div_mul_left _ _ h0]
  simp only [Function.update_of_ne one_ne_zero]
  have e1' : rescaled c s (Function.update out 0 (R.lo (out 0 + w))) 1 = c * out 1 := by
    rw [rescaled_ne one_ne_zero, pow_one, Function.update_of_ne one_ne_zero]
  rw [e1', hc.lo_sub, hc.lo_mul', hc.lo_add]
  have e2 : ∀ (m : Mom K) (x : K), Function.update (rescaled c s m) 1 (c * x)
      = rescaled c s (Function.update m 1 x) := by
    intro m x
    have := rescaled_update (c := c) (s := s) (m := m) one_ne_zero x
    rwa [pow_one] at this
  rw [e2]
  by_cases ho : order = 1
  · rw [if_pos ho, if_pos ho]
    rfl
  rw [if_neg ho, if_neg ho, foldl_rescaled (f := fun a o => R.pushValTmp a _ _ _ o) fun a ha =>
    ⟨by have := mem_rangeDown.1 ha; omega,
      fun o => pushValTmp_units hc (by have := mem_rangeDown.1 ha; omega)⟩]
  rw [rescaled_ne two_ne_zero, hc.lo_mul, hc.lo_mul', ← mul_assoc c c, ← pow_two, (hc.pow 2).lo_add,
    (hc.pow 2).hi_mul, (hc.pow 2).lo, rescaled_update two_ne_zero]
  rfl

theorem pushDataBody_units (hc : Commutes R c) (hs : Commutes R s) (h0 : s ≠ 0) (order : ℕ) (w : K)
    (data out : Mom K) :
    R.pushDataBody order (s * w) (rescaled c s data) (rescaled c s out)
      = (R.pushDataBody order w data out).map (rescaled c s) := by
  have e0 : rescaled c s out 0 = s * out 0 := if_pos rfl
  have e1 : rescaled c s out 1 = c * out 1 := by rw [rescaled_ne one_ne_zero, pow_one]
  have d1 : rescaled c s data 1 = c * data 1 := by rw [rescaled_ne one_ne_zero, pow_one]
  unfold pushDataBody
  by_cases hw : w = 0
  · rw [if_pos hw, if_pos (by rw [hw, mul_zero])]
    rfl
  rw [if_neg hw, if_neg (mul_ne_zero h0 hw)]
  simp only [Function.update_self]
  rw [e0, hs.lo_add, rescaled_update_zero]
  by_cases hz : R.lo (out 0 + w) = 0
  · rw [if_pos hz, if_pos (by rw [hz, mul_zero])]
    rfl
  rw [if_neg hz, if_neg (mul_ne_zero h0 hz), mul_div_mul_left _ _ h0]
  simp only [Function.update_of_ne one_ne_zero]
  have e1' : rescaled c s (Function.update out 0 (R.lo (out 0 + w))) 1 = c * out 1 := by
    rw [rescaled_ne one_ne_zero, pow_one, Function.update_of_ne one_ne_zero]
  rw [e1', d1, hc.lo_sub, hc.lo_mul', hc.lo_add]
  have e2 : ∀ (m : Mom K) (x : K), Function.update (rescaled c s m) 1 (c * x)
      = rescaled c s (Function.update m 1 x) := by
    intro m x
    have := rescaled_update (c := c) (s := s) (m := m) one_ne_zero x
    rwa [pow_one] at this
  rw [e2]
  by_cases ho : order = 1
  · rw [if_pos ho, if_pos ho]
    rfl
  rw [if_neg ho, if_neg ho, foldl_rescaled (f := fun a o => R.pushDataTmp a _ _ _ data o) fun a ha =>
    ⟨by have := mem_rangeDown.1 ha; omega,
      fun o => pushDataTmp_units hc (by have := mem_rangeDown.1 ha; omega)⟩]
  rw [rescaled_ne two_ne_zero, rescaled_ne two_ne_zero, hc.lo_mul, hc.lo_mul', ← mul_assoc c c, ← pow_two,
    (hc.pow 2).lo_add, (hc.pow 2).hi_mul, (hc.pow 2).lo_mul', (hc.pow 2).hi_add, (hc.pow 2).lo,
    rescaled_update two_ne_zero]
  rfl

section cov

variable {c0 c1 : K}

theorem rescaledCov_ne {m : Com K} {i j : ℕ} (h : ¬(i = 0 ∧ j = 0)) :
    rescaledCov c0 c1 s m i j = c0 ^ i * c1 ^ j * m i j := if_neg h

theorem rescaledCov_setAt {m : Com K} {i j : ℕ} (h : ¬(i = 0 ∧ j = 0)) (x : K) :
    setAt (rescaledCov c0 c1 s m) i j (c0 ^ i * c1 ^ j * x) = rescaledCov c0 c1 s (setAt m i j x) := by
  funext a b
  by_cases e : (a, b) = (i, j)
  · obtain ⟨rfl, rfl⟩ := Prod.mk.inj e
    rw [setAt_apply, if_pos rfl, rescaledCov_ne h, setAt_apply, if_pos rfl]
  · rw [setAt_apply, if_neg e]
    by_cases h0 : a = 0 ∧ b = 0
    · obtain ⟨rfl, rfl⟩ := h0
      simp only [rescaledCov, setAt_apply]
      simp only [and_self, if_true]
      rw [if_neg e]
    · rw [rescaledCov_ne h0, rescaledCov_ne h0, setAt_apply, if_neg e]

theorem rescaledCov_setAt_zero {m : Com K} (x : K) :
    setAt (rescaledCov c0 c1 s m) 0 0 (s * x) = rescaledCov c0 c1 s (setAt m 0 0 x) := by
  funext a b
  by_cases e : a = 0 ∧ b = 0
  · obtain ⟨rfl, rfl⟩ := e
    simp [rescaledCov, setAt_apply]
  · rw [setAt_apply, if_neg (by simpa using e), rescaledCov_ne e, rescaledCov_ne e, setAt_apply,
      if_neg (by simpa using e)]

/-- State of the `b1` loop after `j` steps. -/
structure Acc1Rel (C c1 : K) (j : ℕ) (t t' : CAcc1 K) : Prop where
  tmp : t'.tmp = C * t.tmp
  delta1_b1 : t'.delta1_b1 = c1 ^ j * t.delta1_b1
  alpha_bb : t'.alpha_bb = t.alpha_bb
  minus_bb : t'.minus_bb = t.minus_bb
  one_alpha_bb : t'.one_alpha_bb = t.one_alpha_bb

/-- State of the `b0` loop after `j` steps. -/
structure Acc0Rel (C c0 : K) (j : ℕ) (t t' : CAcc0 K) : Prop where
  tmp : t'.tmp = C * t.tmp
  delta0_b0 : t'.delta0_b0 = c0 ^ j * t.delta0_b0
  alpha_b0 : t'.alpha_b0 = t.alpha_b0
  minus_b0 : t'.minus_b0 = t.minus_b0
  one_alpha_b0 : t'.one_alpha_b0 = t.one_alpha_b0

variable (h0 : Commutes R c0) (h1 : Commutes R c1)
include h0 h1

theorem pushDataCovInner1_units {a0 a1 b0 b1 : ℕ} (hb0 : b0 ≤ a0) (hb1 : b1 ≤ a1) {d d1 alpha beta : K}
    {data out : Com K} {t t' : CAcc1 K} (h : Acc1Rel (c0 ^ a0 * c1 ^ a1) c1 b1 t t') :
    Acc1Rel (c0 ^ a0 * c1 ^ a1) c1 (b1 + 1) (R.pushDataCovInner1 a0 a1 b0 d d1 alpha beta data out t b1)
      (R.pushDataCovInner1 a0 a1 b0 (c0 ^ b0 * d) (c1 * d1) alpha beta (rescaledCov c0 c1 s data)
        (rescaledCov c0 c1 s out) t' b1) := by
  have hC := (h0.pow a0).mul (h1.pow a1)
  refine ⟨?_, ?_, ?_, ?_, ?_⟩
  · simp only [pushDataCovInner1]
    by_cases hz : a0 - b0 + (a1 - b1) = 0
    · rw [if_pos hz, if_pos hz]
      obtain rfl : b0 = a0 := by omega
      obtain rfl : b1 = a1 := by omega
      rw [h.tmp, h.delta1_b1, h.alpha_bb, h.minus_bb, h.one_alpha_bb, (h1.pow b1).hi_mul, (h0.pow b0).hi_mul',
        ← mul_assoc, mul_comm (c1 ^ b1), hC.hi_mul', hC.hi_add]
    · rw [if_neg hz, if_neg hz]
      by_cases hn : a0 - b0 + (a1 - b1) ≠ 1
      · rw [if_pos hn, if_pos hn]
        have hE := (h0.pow (a0 - b0)).mul (h1.pow (a1 - b1))
        rw [h.tmp, h.delta1_b1, h.alpha_bb, h.minus_bb, h.one_alpha_bb, rescaledCov_ne (by omega),
          rescaledCov_ne (by omega), hE.hi_mul, hE.hi_mul, hE.hi_add, (h0.pow b0).hi_mul, (h1.pow b1).hi_mul,
          (h0.pow b0).hi_mul', hE.hi_mul, (h1.pow b1).hi_mul', (h0.pow b0).hi_mul',
          ← mul_assoc, ← mul_assoc]
        rw [show c0 ^ (a0 - b0) * c1 ^ (a1 - b1) * c1 ^ b1 * c0 ^ b0 = c0 ^ a0 * c1 ^ a1 by
          rw [show c0 ^ a0 = c0 ^ (a0 - b0) * c0 ^ b0 by rw [← pow_add]; congr 1; omega,
            show c1 ^ a1 = c1 ^ (a1 - b1) * c1 ^ b1 by rw [← pow_add]; congr 1; omega]
          ring, hC.hi_add]
      · rw [if_neg hn, if_neg hn]
        exact h.tmp
  · simp only [pushDataCovInner1]
    rw [h.delta1_b1, h1.hi_mul, (h1.pow b1).hi_mul', ← mul_assoc, ← pow_succ']
  · simp only [pushDataCovInner1]
    rw [h.alpha_bb]
  · simp only [pushDataCovInner1]
    rw [h.minus_bb]
  · simp only [pushDataCovInner1]
    rw [h.one_alpha_bb]

theorem pushDataCovTmp_units {a0 a1 : ℕ} {d0 d1 alpha beta : K} {data out : Com K} :
    R.pushDataCovTmp a0 a1 (c0 * d0) (c1 * d1) alpha beta (rescaledCov c0 c1 s data) (rescaledCov c0 c1 s out)
      = c0 ^ a0 * c1 ^ a1 * R.pushDataCovTmp a0 a1 d0 d1 alpha beta data out := by
  have hC := (h0.pow a0).mul (h1.pow a1)
  have key := foldl_range_rel (R.pushDataCovInner0 a0 a1 d0 d1 alpha beta data out)
    (R.pushDataCovInner0 a0 a1 (c0 * d0) (c1 * d1) alpha beta (rescaledCov c0 c1 s data)
      (rescaledCov c0 c1 s out)) (Acc0Rel (c0 ^ a0 * c1 ^ a1) c0) (a0 + 1) CAcc0.init CAcc0.init
    ⟨by simp [CAcc0.init], by simp [CAcc0.init], rfl, rfl, rfl⟩ (by
      intro j hj t t' h
      refine ⟨?_, ?_, ?_, ?_, ?_⟩
      · simp only [pushDataCovInner0]
        rw [h.delta0_b0]
        refine (foldl_range_rel _ _ (Acc1Rel (c0 ^ a0 * c1 ^ a1) c1) (a1 + 1) _ _
          ⟨h.tmp, by simp, h.alpha_b0, h.minus_b0, h.one_alpha_b0⟩ ?_).tmp
        intro b1 hb1 u u' hu
        exact pushDataCovInner1_units h0 h1 (by omega) (by omega) hu
      · simp only [pushDataCovInner0]
        rw [h.delta0_b0, h0.hi_mul, (h0.pow j).hi_mul', ← mul_assoc, ← pow_succ']
      · simp only [pushDataCovInner0]
        rw [h.alpha_b0]
      · simp only [pushDataCovInner0]
        rw [h.minus_b0]
      · simp only [pushDataCovInner0]
        rw [h.one_alpha_b0])
  unfold pushDataCovTmp
  rw [key.tmp, hC.lo]

omit h0 h1 in
theorem foldl_rescaledCov {f g : ℕ → ℕ → Com K → K} {l : List (ℕ × ℕ)}
    (hf : ∀ p ∈ l, ¬(p.1 = 0 ∧ p.2 = 0) ∧
      ∀ o, g p.1 p.2 (rescaledCov c0 c1 s o) = c0 ^ p.1 * c1 ^ p.2 * f p.1 p.2 o) (o : Com K) :
    l.foldl (fun o p => setAt o p.1 p.2 (g p.1 p.2 o)) (rescaledCov c0 c1 s o)
      = rescaledCov c0 c1 s (l.foldl (fun o p => setAt o p.1 p.2 (f p.1 p.2 o)) o) := by
  induction l generalizing o with
  | nil => rfl
  | cons a l ih =>
    obtain ⟨k0, k1⟩ := hf a List.mem_cons_self
    rw [List.foldl_cons, List.foldl_cons, k1, rescaledCov_setAt k0]
    exact ih (fun b hb => hf b (List.mem_cons_of_mem _ hb)) _

theorem pushDataCovBody_units (hs : Commutes R s) (hne : s ≠ 0) {o0 o1 : ℕ} (ho0 : 1 ≤ o0) (ho1 : 1 ≤ o1) (w : K)
    (data out : Com K) :
    R.pushDataCovBody o0 o1 (s * w) (rescaledCov c0 c1 s data) (rescaledCov c0 c1 s out)
      = (R.pushDataCovBody o0 o1 w data out).map (rescaledCov c0 c1 s) := by
  have e0 : ∀ m : Com K, rescaledCov c0 c1 s m 0 0 = s * m 0 0 := fun m => if_pos ⟨rfl, rfl⟩
  have e1 : ∀ m : Com K, rescaledCov c0 c1 s m 1 0 = c0 * m 1 0 := fun m => by
    rw [rescaledCov_ne (by omega), pow_one, pow_zero, mul_one]
  have e2 : ∀ m : Com K, rescaledCov c0 c1 s m 0 1 = c1 * m 0 1 := fun m => by
    rw [rescaledCov_ne (by omega), pow_one, pow_zero, one_mul]
  by_cases hw : w = 0
  · unfold pushDataCovBody
    rw [if_pos hw, if_pos (by rw [hw, mul_zero])]
    rfl
  by_cases hz : R.lo (out 0 0 + w) = 0
  · unfold pushDataCovBody
    rw [if_neg hw, if_neg (mul_ne_zero hne hw)]
    simp only [setAt_apply, if_true]
    rw [e0, hs.lo_add, if_pos hz, if_pos (by rw [hz, mul_zero])]
    rfl
  rw [pushDataCovBody_cases o0 o1 w data out hw hz, pushDataCovBody_cases o0 o1 (s * w) _ _ (mul_ne_zero hne hw)
    (by rw [e0, hs.lo_add]; exact mul_ne_zero hne hz)]
  have s1 : ∀ (m : Com K) (x : K), setAt (rescaledCov c0 c1 s m) 1 0 (c0 * x)
      = rescaledCov c0 c1 s (setAt m 1 0 x) := by
    intro m x
    have := rescaledCov_setAt (c0 := c0) (c1 := c1) (s := s) (m := m) (i := 1) (j := 0) (by omega) x
    rwa [pow_one, pow_zero, mul_one] at this
  have s2 : ∀ (m : Com K) (x : K), setAt (rescaledCov c0 c1 s m) 0 1 (c1 * x)
      = rescaledCov c0 c1 s (setAt m 0 1 x) := by
    intro m x
    have := rescaledCov_setAt (c0 := c0) (c1 := c1) (s := s) (m := m) (i := 0) (j := 1) (by omega) x
    rwa [pow_one, pow_zero, one_mul] at this
  rw [e0, e1, e1, e2, e2, hs.lo_add, mul_div_mul_left _ _ hne, h0.lo_sub, h1.lo_sub, h0.lo_mul', h1.lo_mul',
    h0.lo_add, h1.lo_add, rescaledCov_setAt_zero, s1, s2]
  refine congrArg some (foldl_rescaledCov
    (f := fun a0 a1 o => R.pushDataCovTmp a0 a1 (R.lo (data 1 0 - out 1 0)) (R.lo (data 0 1 - out 0 1))
      (R.lo (w / R.lo (out 0 0 + w))) (R.hi (1 - R.lo (w / R.lo (out 0 0 + w)))) data o)
    (g := fun a0 a1 o => R.pushDataCovTmp a0 a1 (c0 * R.lo (data 1 0 - out 1 0))
      (c1 * R.lo (data 0 1 - out 0 1)) (R.lo (w / R.lo (out 0 0 + w)))
      (R.hi (1 - R.lo (w / R.lo (out 0 0 + w)))) (rescaledCov c0 c1 s data) o) ?_ _)
  intro p hp
  have := (mem_covPositions ho0 ho1).1 hp
  exact ⟨by omega, fun o => pushDataCovTmp_units h0 h1⟩

end cov

end Precision

end Cmomy
