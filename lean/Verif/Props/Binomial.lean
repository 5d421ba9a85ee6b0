import Verif.Lemmas.Binomial
import Verif.Props.Validate

/-!
# C49: the binomial table

The table has `nmax + 1` rows and columns, where `nmax` is the option's value when the library is
imported. The specification speaks about `Nat.choose` and about the kernels without a table
(`pushVal`, `Convert.centralToRaw`, …, whose results C01, C02, C05, … describe).
-/

namespace Cmomy

open Spec Binomial

variable {K : Type*} [Field K] [DecidableEq K]

/-- Spec: a square table of binomial coefficients of the given size. -/
structure Spec.IsPascal (t : Binomial.Table K) (size : ℕ) : Prop where
  size_eq : t.size = size
  entry : ∀ n k, n < size → k < size → t.lookup n k = .ok (n.choose k : K)
  outside : ∀ n k, ¬ (n < size ∧ k < size) → t.lookup n k = .error .undefined

/-- **C49.** The table for `nmax = order` is built exactly when `order ≥ -1`; it then has
`order + 1` rows and columns and every entry is the binomial coefficient. -/
theorem C49_table [CharZero K] (order : ℤ) :
    (-1 ≤ order → ∃ t : Table K, Binomial.factory order = .ok t ∧ IsPascal t (order + 1).toNat) ∧
    (order < -1 → (Binomial.factory order : Py (Table K)) = .error .valueError) := by
  constructor
  · intro h
    refine ⟨_, by unfold Binomial.factory; rw [if_neg (by omega)], rfl, ?_, ?_⟩
    · intro n k hn hk
      rw [lookup_ok _ hn hk, binom_eq_choose]
      intro n k hn hk
      simp only at hn hk ⊢
      rw [fill_table, if_pos ⟨List.mem_range.2 hn, List.mem_range.2 hk⟩]
    · intro n k h
      unfold Table.lookup
      rw [if_neg h]
  · intro h
    unfold Binomial.factory
    rw [if_pos (by omega)]

private theorem pascal_good [CharZero K] {t : Table K} {size : ℕ} (h : IsPascal t size) :
    Good t := by
  intro n k hn hk
  have := h.entry n k (h.size_eq ▸ hn) (h.size_eq ▸ hk)
  rw [binom_eq_choose]
  unfold Table.lookup at this
  rw [if_pos ⟨hn, hk⟩] at this
  exact Except.ok.inj this

/-- **C49.** Any two tables of binomial coefficients of the same size are read alike: the result of
a kernel is determined by `nmax`. -/
theorem C49_table_unique {t u : Table K} {size : ℕ} (ht : IsPascal t size) (hu : IsPascal u size)
    (n k : ℕ) : t.lookup n k = u.lookup n k := by
  by_cases h : n < size ∧ k < size
  · rw [ht.entry n k h.1 h.2, hu.entry n k h.1 h.2]
  · rw [ht.outside n k h, hu.outside n k h]

/-- **C49.** `push_val` of order `order`: inside the table (`order ≤ nmax`, or `order ≤ 2`, which
needs no entry) the result is that of the kernel with exact coefficients; beyond it every push that
does anything reads outside the table. -/
theorem C49_push_val [CharZero K] {t : Table K} {nmax : ℕ} (ht : IsPascal t (nmax + 1)) (order : ℕ)
    (x w : K) (out : Mom K) :
    (order ≤ nmax ∨ order ≤ 2 → pushValT t order x w out = lift (pushVal order x w out)) ∧
    (nmax < order → 2 < order → w ≠ 0 → out 0 + w ≠ 0 →
      pushValT t order x w out = .error .undefined) :=
  ⟨fun h => pushValT_ok (pascal_good ht) (by rw [ht.size_eq]; omega) x w out,
   fun h h2 hw h0 => pushValT_undefined (by rw [ht.size_eq]; omega) (by omega) x w out hw h0⟩

/-- **C49.** The same for `push_data`. -/
theorem C49_push_data [CharZero K] {t : Table K} {nmax : ℕ} (ht : IsPascal t (nmax + 1)) (order : ℕ)
    (data out : Mom K) :
    (order ≤ nmax ∨ order ≤ 2 → pushDataT t order data out = lift (pushData order data out)) ∧
    (nmax < order → 2 < order → data 0 ≠ 0 → out 0 + data 0 ≠ 0 →
      pushDataT t order data out = .error .undefined) :=
  ⟨fun h => pushDataBodyT_ok (pascal_good ht) (by rw [ht.size_eq]; omega) _ data out,
   fun h h2 hw h0 => pushDataBodyT_undefined (by rw [ht.size_eq]; omega) (by omega) _ data out hw h0⟩

/-- **C49.** The same for `push_data_scale`. -/
theorem C49_push_data_scale [CharZero K] {t : Table K} {nmax : ℕ} (ht : IsPascal t (nmax + 1))
    (order : ℕ) (data : Mom K) (scale : K) (out : Mom K) :
    (order ≤ nmax ∨ order ≤ 2 →
      pushDataScaleT t order data scale out = lift (pushDataScale order data scale out)) ∧
    (nmax < order → 2 < order → data 0 * scale ≠ 0 → out 0 + data 0 * scale ≠ 0 →
      pushDataScaleT t order data scale out = .error .undefined) :=
  ⟨fun h => pushDataBodyT_ok (pascal_good ht) (by rw [ht.size_eq]; omega) _ data out,
   fun h h2 hw h0 => pushDataBodyT_undefined (by rw [ht.size_eq]; omega) (by omega) _ data out hw h0⟩

/-- **C49.** The comoment `push_val`: both orders must be at most `nmax`. -/
theorem C49_push_val_cov [CharZero K] {t : Table K} {nmax : ℕ} (ht : IsPascal t (nmax + 1))
    (o0 o1 : ℕ) (x0 x1 w : K) (out : Com K) :
    (o0 ≤ nmax → o1 ≤ nmax →
      pushValCovT t o0 o1 x0 x1 w out = lift (pushValCov o0 o1 x0 x1 w out)) ∧
    (nmax < o0 ∨ nmax < o1 → 1 ≤ o0 → 1 ≤ o1 → w ≠ 0 → out 0 0 + w ≠ 0 →
      pushValCovT t o0 o1 x0 x1 w out = .error .undefined) :=
  ⟨fun h h' => pushValCovT_ok (pascal_good ht) (by rw [ht.size_eq]; omega)
      (by rw [ht.size_eq]; omega) x0 x1 w out,
   fun h h0 h1 hw hd => pushValCovT_undefined (by rw [ht.size_eq]; omega) h0 h1 x0 x1 w out hw hd⟩

/-- **C49.** The comoment `push_data`. -/
theorem C49_push_data_cov [CharZero K] {t : Table K} {nmax : ℕ} (ht : IsPascal t (nmax + 1))
    (o0 o1 : ℕ) (data out : Com K) :
    (o0 ≤ nmax → o1 ≤ nmax → pushDataCovT t o0 o1 data out = lift (pushDataCov o0 o1 data out)) ∧
    (nmax < o0 ∨ nmax < o1 → 1 ≤ o0 → 1 ≤ o1 → data 0 0 ≠ 0 → out 0 0 + data 0 0 ≠ 0 →
      pushDataCovT t o0 o1 data out = .error .undefined) :=
  ⟨fun h h' => pushDataCovBodyT_ok (pascal_good ht) (by rw [ht.size_eq]; omega)
      (by rw [ht.size_eq]; omega) _ data out,
   fun h h0 h1 hw hd =>
    pushDataCovBodyT_undefined (by rw [ht.size_eq]; omega) h0 h1 _ data out hw hd⟩

/-- **C49.** The comoment `push_data_scale`. -/
theorem C49_push_data_scale_cov [CharZero K] {t : Table K} {nmax : ℕ} (ht : IsPascal t (nmax + 1))
    (o0 o1 : ℕ) (data : Com K) (scale : K) (out : Com K) :
    (o0 ≤ nmax → o1 ≤ nmax →
      pushDataScaleCovT t o0 o1 data scale out = lift (pushDataScaleCov o0 o1 data scale out)) ∧
    (nmax < o0 ∨ nmax < o1 → 1 ≤ o0 → 1 ≤ o1 → data 0 0 * scale ≠ 0 →
      out 0 0 + data 0 0 * scale ≠ 0 →
      pushDataScaleCovT t o0 o1 data scale out = .error .undefined) :=
  ⟨fun h h' => pushDataCovBodyT_ok (pascal_good ht) (by rw [ht.size_eq]; omega)
      (by rw [ht.size_eq]; omega) _ data out,
   fun h h0 h1 hw hd =>
    pushDataCovBodyT_undefined (by rw [ht.size_eq]; omega) h0 h1 _ data out hw hd⟩

/-- **C49.** The one-variable conversions read inside the table exactly when `order ≤ nmax` or
`order ≤ 1`; there is no weight to hide behind. -/
theorem C49_convert [CharZero K] {t : Table K} {nmax : ℕ} (ht : IsPascal t (nmax + 1)) (order : ℕ)
    (src dst : Mom K) :
    (order ≤ nmax ∨ order ≤ 1 →
      centralToRawT t order src dst = .ok (Convert.centralToRaw order src dst) ∧
      rawToCentralT t order src dst = .ok (Convert.rawToCentral order src dst)) ∧
    (nmax < order → 1 < order →
      centralToRawT t order src dst = .error .undefined ∧
      rawToCentralT t order src dst = .error .undefined) :=
  ⟨fun h => ⟨centralToRawT_ok (pascal_good ht) (by rw [ht.size_eq]; omega) src dst,
      rawToCentralT_ok (pascal_good ht) (by rw [ht.size_eq]; omega) src dst⟩,
   fun h h2 => ⟨centralToRawT_undefined (by rw [ht.size_eq]; omega) (by omega) src dst,
      rawToCentralT_undefined (by rw [ht.size_eq]; omega) (by omega) src dst⟩⟩

/-- **C49.** The two-variable conversions. -/
theorem C49_convert_cov [CharZero K] {t : Table K} {nmax : ℕ} (ht : IsPascal t (nmax + 1))
    (o0 o1 : ℕ) (src dst : Com K) :
    (o0 ≤ nmax → o1 ≤ nmax →
      centralToRawCovT t o0 o1 src dst = .ok (Convert.centralToRawCov o0 o1 src dst) ∧
      rawToCentralCovT t o0 o1 src dst = .ok (Convert.rawToCentralCov o0 o1 src dst)) ∧
    (nmax < o0 ∨ nmax < o1 → 2 ≤ o0 + o1 →
      centralToRawCovT t o0 o1 src dst = .error .undefined ∧
      rawToCentralCovT t o0 o1 src dst = .error .undefined) :=
  ⟨fun h h' => ⟨centralToRawCovT_ok (pascal_good ht) (by rw [ht.size_eq]; omega)
      (by rw [ht.size_eq]; omega) src dst,
      rawToCentralCovT_ok (pascal_good ht) (by rw [ht.size_eq]; omega)
      (by rw [ht.size_eq]; omega) src dst⟩,
   fun h h2 => ⟨centralToRawCovT_undefined (by rw [ht.size_eq]; omega) h2 src dst,
      rawToCentralCovT_undefined (by rw [ht.size_eq]; omega) h2 src dst⟩⟩

/-- **C49.** No validation enforces the bound: whatever `nmax` is, every order above it (and above
2) passes `validate_mom`, and the first push with a non-zero weight into a zeroed array then reads
outside the table. -/
theorem C49_not_enforced [CharZero K] {t : Table K} {nmax : ℕ} (ht : IsPascal t (nmax + 1))
    (mom : ℕ) (h : nmax < mom) (h2 : 2 < mom) :
    Validate.validateMom (.int mom) = .ok [(mom : ℤ)] ∧
    ∀ x w : K, w ≠ 0 → pushValT t mom x w (fun _ => 0) = .error .undefined := by
  constructor
  · refine ((C48_validate_mom (.int mom) [(mom : ℤ)]).1).2 ⟨rfl, Or.inl rfl, ?_⟩
    intro m hm
    simp only [List.mem_singleton] at hm
    omega
  · intro x w hw
    exact (C49_push_val ht mom x w _).2 h h2 hw (by simpa using hw)

/-! With the shipped `nmax = 20`, order 20 is fine and order 21 is not. -/

example : ∃ t : Table ℚ, Binomial.factory 20 = .ok t ∧ IsPascal t 21 :=
  (C49_table 20).1 (by norm_num)

example : ∃ t : Table ℚ, Binomial.factory 20 = .ok t ∧
    pushValT t 20 3 2 (fun _ => 0) = lift (pushVal 20 3 2 (fun _ => 0)) ∧
    pushValT t 21 3 2 (fun _ => 0) = .error .undefined := by
  obtain ⟨t, h, ht⟩ := (C49_table (K := ℚ) 20).1 (by norm_num)
  exact ⟨t, h, (C49_push_val ht 20 3 2 _).1 (Or.inl le_rfl),
    (C49_push_val ht 21 3 2 _).2 (by norm_num) (by norm_num) (by norm_num) (by norm_num)⟩

end Cmomy
