import Verif.Spec.Rounding
import Verif.Lemmas.Rounding
import Mathlib.Tactic.Positivity
import Mathlib.Tactic.FieldSimp

/-!
# Roundings to binary digits
-/

set_option linter.unusedSectionVars false

namespace Cmomy

open Spec

variable {K : Type*} [Field K] [LinearOrder K] [IsStrictOrderedRing K] [FloorRing K]

namespace Spec

theorem two_zpow_pos (e : ℤ) : (0 : K) < 2 ^ e := zpow_pos two_pos e

theorem two_zpow_add (a b : ℤ) : (2 : K) ^ (a + b) = 2 ^ a * 2 ^ b := zpow_add₀ two_ne_zero a b

/-- Nonnegative powers of two are integers. -/
theorem two_zpow_int {e : ℤ} (h : 0 ≤ e) : (((2 : ℤ) ^ e.toNat : ℤ) : K) = 2 ^ e := by
  obtain ⟨n, rfl⟩ := Int.eq_ofNat_of_zero_le h
  simp

theorem lt_two_zpow_log (x : K) : x < 2 ^ (Int.log 2 x + 1) := by
  have := Int.lt_zpow_succ_log_self (R := K) (b := 2) (by norm_num) x
  simpa using this

theorem two_zpow_log_le {x : K} (h : 0 < x) : 2 ^ Int.log 2 x ≤ x := by
  have := Int.zpow_log_le_self (R := K) (b := 2) (by norm_num) h
  simpa using this

theorem log_two_zpow (e : ℤ) : Int.log 2 ((2 : K) ^ e) = e := by
  have := Int.log_zpow (R := K) (b := 2) (by norm_num) e
  simpa using this

section

variable {p : ℕ} {emin : Option ℤ}

theorem lastDigit_mono {x y : K} (hx : 0 < x) (h : x ≤ y) : lastDigit p emin x ≤ lastDigit p emin y := by
  have := Int.log_mono_right (b := 2) hx h
  unfold lastDigit
  cases emin with
  | none => show _ - _ + _ ≤ _ - _ + _; omega
  | some e => exact max_le_max (le_refl _) (by omega)

theorem lastDigit_ge (x : K) : Int.log 2 x - p + 1 ≤ lastDigit p emin x := by
  unfold lastDigit
  cases emin with
  | none => exact le_refl _
  | some e => exact le_max_right _ _

theorem emin_le_lastDigit (x : K) : ∀ e, emin = some e → e ≤ lastDigit p emin x := by
  rintro e rfl
  exact le_max_left _ _

theorem lastDigit_le {x : K} {e : ℤ} (h1 : Int.log 2 x - p + 1 ≤ e) (h2 : ∀ e', emin = some e' → e' ≤ e) :
    lastDigit p emin x ≤ e := by
  unfold lastDigit
  cases emin with
  | none => exact h1
  | some e' => exact max_le (h2 e' rfl) h1

/-- A number with `p` digits. -/
def IsFloat (p : ℕ) (emin : Option ℤ) (x : K) : Prop :=
  ∃ n e : ℤ, x = n * 2 ^ e ∧ |n| ≤ 2 ^ p ∧ ∀ e', emin = some e' → e' ≤ e

theorem IsFloat.neg {x : K} (h : IsFloat p emin x) : IsFloat p emin (-x) := by
  obtain ⟨n, e, rfl, hn, he⟩ := h
  exact ⟨-n, e, by push_cast; ring, by rwa [abs_neg], he⟩

theorem IsFloat.wider {p' : ℕ} {emin' : Option ℤ} {x : K} (h : IsFloat p emin x) (hp : p ≤ p')
    (he : ∀ e', emin' = some e' → ∃ e, emin = some e ∧ e' ≤ e) : IsFloat p' emin' x := by
  obtain ⟨n, e, rfl, hn, h2⟩ := h
  refine ⟨n, e, rfl, hn.trans (pow_le_pow_right₀ (by norm_num) hp), fun e' h' => ?_⟩
  obtain ⟨e'', h3, h4⟩ := he e' h'
  exact h4.trans (h2 e'' h3)

/-- Multiples of the last digit. -/
theorem IsFloat.multiple (hp : 1 ≤ p) {x : K} (h : IsFloat p emin x) (hx : 0 < x) :
    ∃ n : ℤ, x = n * 2 ^ lastDigit p emin x := by
  obtain ⟨n, e, rfl, hn, he⟩ := h
  have he0 := two_zpow_pos (K := K) e
  have hn0 : (0 : K) < n := (pos_iff_pos_of_mul_pos hx).2 he0
  have hn0' : (0 : ℤ) < n := by exact_mod_cast hn0
  rw [abs_of_pos hn0'] at hn
  have mult : ∀ d : ℤ, d ≤ e → ∃ k : ℤ, (n : K) * 2 ^ e = k * 2 ^ d := by
    intro d hd
    refine ⟨n * 2 ^ (e - d).toNat, ?_⟩
    rw [Int.cast_mul, two_zpow_int (by omega), mul_assoc, ← two_zpow_add]
    congr 2
    omega
  rcases lt_or_eq_of_le hn with h1 | h1
  · refine mult _ (lastDigit_le ?_ he)
    have h2 : (n : K) * 2 ^ e < 2 ^ ((p : ℤ) + e) := by
      rw [two_zpow_add, zpow_natCast]
      refine mul_lt_mul_of_pos_right ?_ he0
      exact_mod_cast h1
    have h3 := (two_zpow_log_le hx).trans_lt h2
    have h4 := (zpow_lt_zpow_iff_right₀ (one_lt_two : (1 : K) < 2)).1 h3
    omega
  · have h2 : (n : K) * 2 ^ e = 2 ^ ((p : ℤ) + e) := by
      rw [two_zpow_add, zpow_natCast, h1]
      push_cast
      rfl
    have h3 : lastDigit p emin ((n : K) * 2 ^ e) ≤ p + e := by
      refine lastDigit_le ?_ fun e' h' => (he e' h').trans (by omega)
      rw [h2, log_two_zpow]
      omega
    refine ⟨2 ^ ((p : ℤ) + e - lastDigit p emin ((n : K) * 2 ^ e)).toNat, ?_⟩
    rw [two_zpow_int (by omega), ← two_zpow_add]
    rw [h2]
    congr 1
    omega

end

variable {r : K → ℤ} {p : ℕ} {emin : Option ℤ}

theorem toDigits_pos {x : K} (h : 0 < x) :
    toDigits r p emin x = r (x / 2 ^ lastDigit p emin x) * 2 ^ lastDigit p emin x := by
  unfold toDigits
  rw [if_pos h]

theorem toDigits_zero : toDigits r p emin (0 : K) = 0 := by
  unfold toDigits
  rw [if_neg (lt_irrefl _), if_neg (lt_irrefl _)]

theorem toDigits_neg (x : K) : toDigits r p emin (-x) = -toDigits r p emin x := by
  rcases lt_trichotomy 0 x with h | h | h
  · unfold toDigits
    rw [if_neg (by linarith), if_pos (by linarith), if_pos h, neg_neg]
  · rw [← h, neg_zero, toDigits_zero, neg_zero]
  · unfold toDigits
    rw [if_pos (by linarith), if_neg (by linarith), if_pos h, neg_neg]

variable (hr : IsIntRounding r)
include hr

theorem toDigits_nonneg {x : K} (h : 0 < x) : 0 ≤ toDigits r p emin x := by
  rw [toDigits_pos h]
  have h1 : r 0 = 0 := by simpa using hr.int 0
  have h2 := hr.mono (show (0 : K) ≤ x / 2 ^ lastDigit p emin x from div_nonneg h.le (two_zpow_pos _).le)
  rw [h1] at h2
  exact mul_nonneg (by exact_mod_cast h2) (two_zpow_pos _).le

theorem toDigits_le {x : K} (h : 0 < x) (n : ℤ) (hx : x ≤ n * 2 ^ lastDigit p emin x) :
    toDigits r p emin x ≤ n * 2 ^ lastDigit p emin x := by
  rw [toDigits_pos h]
  have he := two_zpow_pos (K := K) (lastDigit p emin x)
  have h1 := hr.mono ((div_le_iff₀ he).2 hx)
  rw [hr.int] at h1
  exact mul_le_mul_of_nonneg_right (by exact_mod_cast h1) he.le

theorem le_toDigits {x : K} (h : 0 < x) (n : ℤ) (hx : n * 2 ^ lastDigit p emin x ≤ x) :
    n * 2 ^ lastDigit p emin x ≤ toDigits r p emin x := by
  rw [toDigits_pos h]
  have he := two_zpow_pos (K := K) (lastDigit p emin x)
  have h1 := hr.mono ((le_div_iff₀ he).2 hx)
  rw [hr.int] at h1
  exact mul_le_mul_of_nonneg_right (by exact_mod_cast h1) he.le

theorem toDigits_mono_pos (hp : 1 ≤ p) {x y : K} (hx : 0 < x) (h : x ≤ y) :
    toDigits r p emin x ≤ toDigits r p emin y := by
  have hy : 0 < y := hx.trans_le h
  have hl := lastDigit_mono (p := p) (emin := emin) hx h
  rcases lt_or_eq_of_le hl with hlt | heq
  · have h1 : lastDigit p emin y = Int.log 2 y - p + 1 := by
      cases emin with
      | none => rfl
      | some e =>
        have := emin_le_lastDigit (p := p) x e rfl
        rcases max_choice e (Int.log 2 y - p + 1) with h' | h'
        · have : lastDigit p (some e) y = e := h'
          omega
        · exact h'
    have h2 : Int.log 2 x < Int.log 2 y := by
      have := lastDigit_ge (p := p) (emin := emin) x
      omega
    have up : x ≤ ((2 : ℤ) ^ (Int.log 2 y - lastDigit p emin x).toNat : ℤ) * 2 ^ lastDigit p emin x := by
      rw [two_zpow_int (by omega), ← two_zpow_add, sub_add_cancel]
      exact (lt_two_zpow_log x).le.trans (zpow_le_zpow_right₀ one_le_two (by omega))
    have down : ((2 : ℤ) ^ (Int.log 2 y - lastDigit p emin y).toNat : ℤ) * 2 ^ lastDigit p emin y ≤ y := by
      rw [two_zpow_int (by omega), ← two_zpow_add, sub_add_cancel]
      exact two_zpow_log_le hy
    have a := toDigits_le hr hx _ up
    have b := le_toDigits hr hy _ down
    rw [two_zpow_int (by omega), ← two_zpow_add, sub_add_cancel] at a b
    exact a.trans b
  · rw [toDigits_pos hx, toDigits_pos hy, ← heq]
    have he := two_zpow_pos (K := K) (lastDigit p emin x)
    have h1 := hr.mono (div_le_div_of_nonneg_right h he.le)
    exact mul_le_mul_of_nonneg_right (by exact_mod_cast h1) he.le

theorem toDigits_mono (hp : 1 ≤ p) : Monotone (toDigits r p emin : K → K) := by
  intro x y h
  rcases lt_trichotomy 0 x with hx | hx | hx
  · exact toDigits_mono_pos hr hp hx h
  · rw [← hx, toDigits_zero]
    rw [← hx] at h
    rcases h.lt_or_eq with hy | hy
    · exact toDigits_nonneg hr hy
    · rw [← hy, toDigits_zero]
  · have hx' : 0 < -x := by linarith
    have e : toDigits r p emin x = -toDigits r p emin (-x) := by rw [toDigits_neg, neg_neg]
    rcases lt_trichotomy 0 y with hy | hy | hy
    · rw [e]
      linarith [toDigits_nonneg (p := p) (emin := emin) hr hx', toDigits_nonneg (p := p) (emin := emin) hr hy]
    · rw [e, ← hy, toDigits_zero]
      linarith [toDigits_nonneg (p := p) (emin := emin) hr hx']
    · have hy' : 0 < -y := by linarith
      have := toDigits_mono_pos (p := p) (emin := emin) hr hp hy' (neg_le_neg h)
      rw [toDigits_neg, toDigits_neg] at this
      linarith

/-- Numbers stay. -/
theorem toDigits_of_isFloat (hp : 1 ≤ p) {x : K} (h : IsFloat p emin x) : toDigits r p emin x = x := by
  have pos : ∀ y : K, 0 < y → IsFloat p emin y → toDigits r p emin y = y := by
    intro y hy hf
    obtain ⟨n, e⟩ := hf.multiple hp hy
    have he := two_zpow_pos (K := K) (lastDigit p emin y)
    rw [toDigits_pos hy]
    have h1 : y / 2 ^ lastDigit p emin y = n := by
      rw [div_eq_iff he.ne']
      exact e
    rw [h1, hr.int]
    exact e.symm
  rcases lt_trichotomy 0 x with hx | hx | hx
  · exact pos x hx h
  · rw [← hx, toDigits_zero]
  · have := pos (-x) (by linarith) h.neg
    rw [toDigits_neg] at this
    linarith

/-- Results are numbers. -/
theorem isFloat_toDigits (x : K) : IsFloat p emin (toDigits r p emin x) := by
  have pos : ∀ y : K, 0 < y → IsFloat p emin (toDigits r p emin y) := by
    intro y hy
    have he := two_zpow_pos (K := K) (lastDigit p emin y)
    refine ⟨_, _, toDigits_pos hy, ?_, fun e' h' => emin_le_lastDigit y e' h'⟩
    have h1 : r 0 = 0 := by simpa using hr.int 0
    have h2 := hr.mono (show (0 : K) ≤ y / 2 ^ lastDigit p emin y from div_nonneg hy.le he.le)
    rw [h1] at h2
    rw [abs_of_nonneg h2]
    have h3 : y / 2 ^ lastDigit p emin y ≤ ((2 ^ p : ℤ) : K) := by
      rw [div_le_iff₀ he]
      push_cast
      rw [← zpow_natCast, ← two_zpow_add]
      refine (lt_two_zpow_log y).le.trans (zpow_le_zpow_right₀ one_le_two ?_)
      have := lastDigit_ge (p := p) (emin := emin) y
      omega
    have h4 := hr.mono h3
    rwa [hr.int] at h4
  rcases lt_trichotomy 0 x with hx | hx | hx
  · exact pos x hx
  · rw [← hx, toDigits_zero]
    exact ⟨0, (emin.getD 0), by simp, by positivity, fun e' h' => by rw [h']; rfl⟩
  · have := (pos (-x) (by linarith)).neg
    rwa [toDigits_neg, neg_neg] at this

theorem toDigits_isRounding (hp : 1 ≤ p) (he : ∀ e, emin = some e → e ≤ 0) :
    IsRounding (toDigits r p emin : K → K) where
  mono := toDigits_mono hr hp
  one := toDigits_of_isFloat hr hp ⟨1, 0, by simp, by simpa using one_le_pow₀ (by norm_num), he⟩
  neg := toDigits_neg
  idem x := toDigits_of_isFloat hr hp (isFloat_toDigits hr x)

/-- Single and double precision, for instance. -/
theorem toDigits_isPrecision {p' : ℕ} {emin' : Option ℤ} (hp : 1 ≤ p) (hpp : p ≤ p')
    (he : ∀ e, emin = some e → e ≤ 0) (hee : ∀ e', emin' = some e' → ∃ e, emin = some e ∧ e' ≤ e) :
    IsPrecision (⟨toDigits r p emin, toDigits r p' emin'⟩ : Precision K) where
  lo := toDigits_isRounding hr hp he
  hi := toDigits_isRounding hr (hp.trans hpp) (fun e' h' => by
    obtain ⟨e, h1, h2⟩ := hee e' h'
    exact h2.trans (he e h1))
  wider x := toDigits_of_isFloat hr (hp.trans hpp) ((isFloat_toDigits hr x).wider hpp hee)

theorem isFloat_of_toDigits {x : K} (h : toDigits r p emin x = x) : IsFloat p emin x :=
  h ▸ isFloat_toDigits hr x

/-- Integers up to `2 ^ p`. -/
theorem toDigits_int (hp : 1 ≤ p) (he : ∀ e, emin = some e → e ≤ 0) {n : ℤ} (hn : |n| ≤ 2 ^ p) :
    toDigits r p emin (n : K) = n :=
  toDigits_of_isFloat hr hp ⟨n, 0, by simp, hn, he⟩

/-- Differences of numbers that are at most a factor two apart. -/
theorem toDigits_sub (hp : 1 ≤ p) {x y : K} (hy : 0 < y) (h1 : y ≤ x) (h2 : x ≤ 2 * y)
    (hx : IsFloat p emin x) (hyf : IsFloat p emin y) : toDigits r p emin (x - y) = x - y := by
  have hx0 : 0 < x := hy.trans_le h1
  obtain ⟨n, en⟩ := hx.multiple hp hx0
  obtain ⟨m, em⟩ := hyf.multiple hp hy
  have hl := lastDigit_mono (p := p) (emin := emin) hy h1
  have he := two_zpow_pos (K := K) (lastDigit p emin y)
  refine toDigits_of_isFloat hr hp
    ⟨n * 2 ^ (lastDigit p emin x - lastDigit p emin y).toNat - m, lastDigit p emin y, ?_, ?_,
      fun e' h' => emin_le_lastDigit y e' h'⟩
  · rw [Int.cast_sub, Int.cast_mul, two_zpow_int (by omega), sub_mul, mul_assoc, ← two_zpow_add,
      sub_add_cancel, ← en, ← em]
  · have key : ((n * 2 ^ (lastDigit p emin x - lastDigit p emin y).toNat - m : ℤ) : K)
        * 2 ^ lastDigit p emin y = x - y := by
      rw [Int.cast_sub, Int.cast_mul, two_zpow_int (by omega), sub_mul, mul_assoc, ← two_zpow_add,
        sub_add_cancel, ← en, ← em]
    have up : ((n * 2 ^ (lastDigit p emin x - lastDigit p emin y).toNat - m : ℤ) : K) ≤ ((2 ^ p : ℤ) : K) := by
      refine le_of_mul_le_mul_right ?_ he
      rw [key]
      push_cast
      rw [← zpow_natCast, ← two_zpow_add]
      have h3 : x - y ≤ y := by linarith
      refine h3.trans ((lt_two_zpow_log y).le.trans (zpow_le_zpow_right₀ one_le_two ?_))
      have := lastDigit_ge (p := p) (emin := emin) y
      omega
    have low : (0 : K) ≤ ((n * 2 ^ (lastDigit p emin x - lastDigit p emin y).toNat - m : ℤ) : K) := by
      refine nonneg_of_mul_nonneg_left ?_ he
      rw [key]
      linarith
    rw [abs_of_nonneg (by exact_mod_cast low)]
    exact_mod_cast up

theorem toDigits_exactSub (hp : 1 ≤ p) {hi : K → K} {a b : K} (ha : 0 < a) (hab : b ≤ 2 * a) :
    ExactSub ⟨toDigits r p emin, hi⟩ a b := by
  intro x y hx hy h1 h2 h3 h4
  have fx := isFloat_of_toDigits hr hx
  have fy := isFloat_of_toDigits hr hy
  rcases le_total y x with h | h
  · exact toDigits_sub hr hp (ha.trans_le h3) h (by linarith) fx fy
  · have := toDigits_sub hr hp (ha.trans_le h1) h (by linarith) fy fx
    show toDigits r p emin (x - y) = x - y
    rw [← neg_sub y x, toDigits_neg, this]

omit hr in
theorem lastDigit_mul {x : K} (hx : 0 < x) (k : ℤ) :
    lastDigit p none (2 ^ k * x) = lastDigit p none x + k := by
  have h : Int.log 2 (2 ^ k * x) = Int.log 2 x + k := by
    have hk := two_zpow_pos (K := K) k
    have h1 := two_zpow_log_le hx
    have h2 := lt_two_zpow_log x
    have h3 := two_zpow_log_le (mul_pos hk hx)
    have h4 := lt_two_zpow_log (2 ^ k * x)
    have a : (2 : K) ^ (Int.log 2 x + k) < 2 ^ (Int.log 2 (2 ^ k * x) + 1) := by
      rw [two_zpow_add, mul_comm]
      exact (mul_le_mul_of_nonneg_left h1 hk.le).trans_lt h4
    have b : (2 : K) ^ Int.log 2 (2 ^ k * x) < 2 ^ (Int.log 2 x + 1 + k) := by
      rw [two_zpow_add, mul_comm (_ ^ _) (2 ^ k)]
      exact h3.trans_lt (mul_lt_mul_of_pos_left h2 hk)
    have a' := (zpow_lt_zpow_iff_right₀ (one_lt_two : (1 : K) < 2)).1 a
    have b' := (zpow_lt_zpow_iff_right₀ (one_lt_two : (1 : K) < 2)).1 b
    omega
  show Int.log 2 (2 ^ k * x) - p + 1 = Int.log 2 x - p + 1 + k
  omega

omit hr in
/-- Without underflow powers of two only move the point. -/
theorem toDigits_mul (k : ℤ) (x : K) : toDigits r p none (2 ^ k * x) = 2 ^ k * toDigits r p none x := by
  have hk := two_zpow_pos (K := K) k
  have pos : ∀ y : K, 0 < y → toDigits r p none (2 ^ k * y) = 2 ^ k * toDigits r p none y := by
    intro y hy
    rw [toDigits_pos (mul_pos hk hy), toDigits_pos hy, lastDigit_mul hy, two_zpow_add,
      mul_comm (2 ^ k) y, mul_div_mul_right _ _ hk.ne']
    ring
  rcases lt_trichotomy 0 x with hx | hx | hx
  · exact pos x hx
  · rw [← hx, mul_zero, toDigits_zero, mul_zero]
  · have := pos (-x) (by linarith)
    rw [mul_neg, toDigits_neg, toDigits_neg] at this
    linarith

omit hr in
theorem toDigits_commutes {p' : ℕ} (k : ℤ) :
    Commutes (⟨toDigits r p none, toDigits r p' none⟩ : Precision K) (2 ^ k) :=
  fun x => ⟨toDigits_mul k x, toDigits_mul k x⟩

omit hr in
theorem floor_isIntRounding : IsIntRounding (Int.floor : K → ℤ) :=
  ⟨Int.floor_mono, Int.floor_intCast⟩

omit hr in
theorem nearestEven_isIntRounding : IsIntRounding (nearestEven : K → ℤ) where
  int n := by
    unfold nearestEven
    rw [Int.fract_intCast, if_pos (by norm_num), Int.floor_intCast]
  mono x y h := by
    have low : ∀ z : K, ⌊z⌋ ≤ nearestEven z := by
      intro z
      unfold nearestEven
      split_ifs <;> omega
    have up : ∀ z : K, nearestEven z ≤ ⌊z⌋ + 1 := by
      intro z
      unfold nearestEven
      split_ifs <;> omega
    rcases lt_or_eq_of_le (Int.floor_mono h) with h1 | h1
    · exact (up x).trans ((Int.add_one_le_iff.2 h1).trans (low y))
    · have h2 : Int.fract x ≤ Int.fract y := by
        unfold Int.fract
        rw [h1]
        linarith
      unfold nearestEven
      rw [h1]
      split_ifs <;> first | omega | (exfalso; linarith)

/-- The relative error of rounding to nearest. -/
theorem toDigits_error (hn : ∀ x : K, |(r x : K) - x| ≤ 1 / 2) (x : K) :
    |toDigits r p none x - x| ≤ 2 ^ (-(p : ℤ)) * |x| := by
  have pos : ∀ y : K, 0 < y → |toDigits r p none y - y| ≤ 2 ^ (-(p : ℤ)) * |y| := by
    intro y hy
    have he := two_zpow_pos (K := K) (lastDigit p none y)
    rw [toDigits_pos hy, abs_of_pos hy]
    have e1 : (r (y / 2 ^ lastDigit p none y) : K) * 2 ^ lastDigit p none y - y
        = ((r (y / 2 ^ lastDigit p none y) : K) - y / 2 ^ lastDigit p none y) * 2 ^ lastDigit p none y := by
      rw [sub_mul, div_mul_cancel₀ _ he.ne']
    rw [e1, abs_mul, abs_of_pos he]
    have h1 := mul_le_mul_of_nonneg_right (hn (y / 2 ^ lastDigit p none y)) he.le
    refine h1.trans ?_
    have e2 : (1 / 2 : K) * 2 ^ lastDigit p none y = 2 ^ (-(p : ℤ)) * 2 ^ Int.log 2 y := by
      rw [← two_zpow_add, show lastDigit p none y = (-(p : ℤ) + Int.log 2 y) + 1 by
        show Int.log 2 y - p + 1 = _
        ring]
      rw [two_zpow_add _ 1, zpow_one]
      ring
    rw [e2]
    exact mul_le_mul_of_nonneg_left (two_zpow_log_le hy) (two_zpow_pos _).le
  rcases lt_trichotomy 0 x with hx | hx | hx
  · exact pos x hx
  · rw [← hx, toDigits_zero, sub_zero, abs_zero, mul_zero]
  · have := pos (-x) (by linarith)
    rwa [toDigits_neg, abs_neg, ← neg_sub', abs_neg] at this

omit hr in
theorem nearestEven_error (x : K) : |(nearestEven x : K) - x| ≤ 1 / 2 := by
  have e : x = ⌊x⌋ + Int.fract x := (Int.floor_add_fract x).symm
  have h0 := Int.fract_nonneg x
  have h1 := Int.fract_lt_one x
  unfold nearestEven
  rw [abs_le]
  split_ifs <;> push_cast <;> constructor <;> linarith

end Spec

end Cmomy
