import Mathlib.Algebra.Polynomial.Eval.Defs
import Mathlib.Algebra.Polynomial.Basis
import Mathlib.Algebra.Polynomial.Eval.Degree
import Mathlib.Data.Nat.Choose.Sum
import Mathlib.Tactic.Ring

/-!
# Umbral shift of a moment sequence

`shift t c n = Σ_i C(n,i) c(n-i) t^i`: the moments about a point moved by `-t`.
-/

namespace Cmomy

open Finset Polynomial

variable {K : Type*} [CommRing K]

/-- `Σ_{i ≤ n} C(n,i) c(n-i) t^i`. -/
def shift (t : K) (c : ℕ → K) (n : ℕ) : K :=
  ∑ i ∈ range (n + 1), (n.choose i : K) * c (n - i) * t ^ i

/-- The linear functional on polynomials sending `X^n` to `c n`. -/
noncomputable def functional (c : ℕ → K) : K[X] →ₗ[K] K :=
  Polynomial.lsum (fun n => (c n) • LinearMap.id)

theorem functional_monomial (c : ℕ → K) (n : ℕ) (a : K) :
    functional c (monomial n a) = c n * a := by
  simp [functional, Polynomial.lsum_apply, Polynomial.sum_monomial_index]

theorem functional_X_pow (c : ℕ → K) (n : ℕ) : functional c (X ^ n) = c n := by
  rw [← monomial_one_right_eq_X_pow, functional_monomial, mul_one]

theorem functional_C_mul (c : ℕ → K) (a : K) (p : K[X]) :
    functional c (C a * p) = a * functional c p := by
  rw [← smul_eq_C_mul, map_smul, smul_eq_mul]

theorem shift_eq_functional (t : K) (c : ℕ → K) (n : ℕ) :
    shift t c n = functional c ((C t + X) ^ n) := by
  rw [add_pow, map_sum, shift]
  refine sum_congr rfl fun i _ => ?_
  have : (C t ^ i * X ^ (n - i) * ((n.choose i : ℕ) : K[X])) =
      C (t ^ i * (n.choose i : K)) * X ^ (n - i) := by
    simp only [C_mul, C_pow, map_natCast]; ring
  rw [this, functional_C_mul, functional_X_pow]; ring

theorem functional_shift (t : K) (c : ℕ → K) (p : K[X]) :
    functional (shift t c) p = functional c (p.comp (C t + X)) := by
  induction p using Polynomial.induction_on' with
  | add p q hp hq => rw [map_add, add_comp, map_add, hp, hq]
  | monomial n a =>
    rw [functional_monomial, monomial_comp, functional_C_mul, ← shift_eq_functional, mul_comm]

theorem shift_shift (s t : K) (c : ℕ → K) (n : ℕ) :
    shift s (shift t c) n = shift (s + t) c n := by
  rw [shift_eq_functional, functional_shift, shift_eq_functional]
  congr 1
  simp only [pow_comp, add_comp, C_comp, X_comp, C_add]
  ring

theorem shift_zero (c : ℕ → K) (n : ℕ) : shift 0 c n = c n := by
  rw [shift_eq_functional, C_0, zero_add, functional_X_pow]

theorem shift_congr {t : K} {c d : ℕ → K} {n : ℕ} (h : ∀ i, i ≤ n → c i = d i) :
    shift t c n = shift t d n := by
  refine sum_congr rfl fun i _ => ?_
  rw [h (n - i) (Nat.sub_le _ _)]

theorem shift_add (t : K) (c d : ℕ → K) (n : ℕ) :
    shift t (fun i => c i + d i) n = shift t c n + shift t d n := by
  simp only [shift, ← sum_add_distrib]
  refine sum_congr rfl fun i _ => ?_
  ring

theorem shift_mul (t a : K) (c : ℕ → K) (n : ℕ) :
    shift t (fun i => a * c i) n = a * shift t c n := by
  simp only [shift, mul_sum]
  refine sum_congr rfl fun i _ => ?_
  ring

theorem shift_sum {ι : Type*} (t : K) (s : Finset ι) (c : ι → ℕ → K) (n : ℕ) :
    shift t (fun i => ∑ j ∈ s, c j i) n = ∑ j ∈ s, shift t (c j) n := by
  classical
  induction s using Finset.induction_on with
  | empty => simp [shift]
  | insert a s ha ih => simp only [sum_insert ha, shift_add, ih]

theorem shift_pow (t x : K) (n : ℕ) : shift t (fun i => x ^ i) n = (x + t) ^ n := by
  rw [add_comm x t, add_pow, shift]
  refine sum_congr rfl fun i _ => ?_
  ring

theorem shift_at_zero (t : K) (c : ℕ → K) : shift t c 0 = c 0 := by
  simp [shift]

theorem shift_at_one (t : K) (c : ℕ → K) : shift t c 1 = c 1 + c 0 * t := by
  simp [shift, sum_range_succ]

/-- The code never stores the central moments of order 0 and 1; this is the sequence with the
conventional values 1 and 0 put back. -/
def full (c : ℕ → K) (n : ℕ) : K := if n = 0 then 1 else if n = 1 then 0 else c n

@[simp] theorem full_zero (c : ℕ → K) : full c 0 = 1 := rfl
@[simp] theorem full_one (c : ℕ → K) : full c 1 = 0 := rfl
theorem full_of_two_le (c : ℕ → K) {n : ℕ} (h : 2 ≤ n) : full c n = c n := by
  unfold full; rw [if_neg (by omega), if_neg (by omega)]

theorem full_congr_two {c d : ℕ → K} {n : ℕ} (h : 2 ≤ n → c n = d n) : full c n = full d n := by
  unfold full
  split_ifs with h0 h1
  · rfl
  · rfl
  · exact h (by omega)

theorem full_congr {c d : ℕ → K} {n : ℕ} (h : c n = d n) : full c n = full d n := by
  unfold full; rw [h]

/-- Split the shift of a `full` sequence into the terms the code sums explicitly. -/
theorem shift_full (t : K) (c : ℕ → K) {n : ℕ} (hn : 2 ≤ n) :
    shift t (full c) n = (∑ i ∈ range (n - 1), (n.choose i : K) * c (n - i) * t ^ i) + t ^ n := by
  obtain ⟨m, rfl⟩ : ∃ m, n = m + 2 := ⟨n - 2, by omega⟩
  rw [shift, sum_range_succ, sum_range_succ]
  simp only [Nat.choose_self, Nat.sub_self, full_zero]
  have h1 : m + 2 - (m + 1) = 1 := by omega
  rw [h1, full_one]
  have h2 : m + 2 - 1 = m + 1 := by omega
  rw [h2]
  have : ∀ i ∈ range (m + 1), ((m + 2).choose i : K) * full c (m + 2 - i) * t ^ i =
      ((m + 2).choose i : K) * c (m + 2 - i) * t ^ i := by
    intro i hi
    rw [mem_range] at hi
    rw [full_of_two_le c (by omega)]
  rw [sum_congr rfl this]; simp

end Cmomy
