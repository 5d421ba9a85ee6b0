import Verif.Lemmas.Interval
import Mathlib.Data.Rat.Floor
import Mathlib.Data.Real.Sqrt
import Mathlib.Algebra.Order.Ring.Rat
import Mathlib.Tactic.NormNum

/-!
# C45: bootstrap confidence intervals

`IsQuantile xs q r` (in `Verif/Spec/Interval.lean`) says what a quantile is by counting data; it
determines `r` (`Spec.IsQuantile.unique`).
-/

namespace Cmomy

open Spec

set_option linter.unusedSectionVars false

variable {K : Type*} [Field K] [LinearOrder K] [IsStrictOrderedRing K] [FloorRing K]

/-- Stand-in functions for the examples. -/
private def exN : NormalFns ℚ := ⟨fun x => if x < 0 then 1 / 4 else if x = 0 then 1 / 2 else 3 / 4,
  fun p => if p = 1 / 4 then some (-1) else if p = 3 / 4 then some 1 else some 0, fun x => x⟩

private theorem ex_percentile : "Percentile".toLower = "percentile" := by decide +kernel
private theorem ex_bca : "BCa".toLower = "bca" := by decide +kernel
private theorem ex_basic : "Basic".toLower = "basic" := by decide +kernel

/-- The percentile interval: for every list of replicates and all levels in `[0, 1]`, entry `i` is
the quantile of the replicates at level `i`. The same holds for every method name other than
`basic` and `bca`, known or not, and whatever estimate or jackknife values are passed along. -/
theorem C45_percentile (N : NormalFns K) (boot : List K) (hne : boot ≠ []) (th : Option K)
    (tj : Option (List K)) (alphas : List K) (hq : Levels alphas) (method : String)
    (hb : method.toLower ≠ "basic") (hc : method.toLower ≠ "bca") :
    ∃ ci, bootCI N boot th tj alphas method = .ok (some ci) ∧
      List.Forall₂ (IsQuantile boot) alphas ci := by
  refine ⟨alphas.map (quantile1 boot), ?_, ?_⟩
  · simp only [bootCI, hb, hc, false_or, false_and, if_false, npQuantile_ok hne hq]
    rfl
  · rw [List.forall₂_map_right_iff]
    exact List.forall₂_same.2 (fun q h => quantile1_isQuantile hne (hq q h).1 (hq q h).2)

example := C45_percentile exN [3, 1, 2, 7] (by simp) none none [1 / 3, 1 / 2, 1]
  (by intro q h; simp at h; rcases h with rfl | rfl | rfl <;> norm_num) "Percentile"
  (by rw [ex_percentile]; decide) (by rw [ex_percentile]; decide)


private theorem levels_scalar {a : K} (h0 : 0 ≤ a) (h1 : a ≤ 1) :
    Levels (AlphaArg.alphas (.scalar a)) := by
  intro q hq
  simp only [AlphaArg.alphas, List.mem_cons, List.not_mem_nil, or_false] at hq
  rcases hq with rfl | rfl <;> constructor <;> linarith

/-- The percentile interval for a number `alpha` in `[0, 1]`: two ends, the quantiles at `alpha/2`
and `1 - alpha/2`; in order; each between two replicates; and fewer than `(n-1) alpha + 2` of the
`n` replicates lie outside. -/
theorem C45_percentile_interval (N : NormalFns K) (boot : List K) (hne : boot ≠ [])
    (th : Option K) (tj : Option (List K)) (alpha : K) (h0 : 0 ≤ alpha) (h1 : alpha ≤ 1)
    (method : String) (hb : method.toLower ≠ "basic") (hc : method.toLower ≠ "bca") :
    ∃ lo hi, bootstrapConfidenceInterval N boot th tj (.scalar alpha) method =
        .ok (some [lo, hi]) ∧
      IsQuantile boot (alpha / 2) lo ∧ IsQuantile boot (1 - alpha / 2) hi ∧ lo ≤ hi ∧
      (∃ x ∈ boot, x ≤ lo) ∧ (∃ x ∈ boot, hi ≤ x) ∧
      (countLt boot lo : K) + (countGt boot hi : K) < ((boot.length : K) - 1) * alpha + 2 := by
  obtain ⟨ci, e, h⟩ := C45_percentile N boot hne th tj _ (levels_scalar h0 h1) method hb hc
  simp only [AlphaArg.alphas] at h
  obtain ⟨lo, ci', h1', h', rfl⟩ := List.forall₂_cons_left_iff.1 h
  obtain ⟨hi, ci'', h2', h'', rfl⟩ := List.forall₂_cons_left_iff.1 h'
  obtain rfl := List.forall₂_nil_left_iff.1 h''
  have e1 : alpha * (1 / 2) = alpha / 2 := by ring
  rw [e1] at h1' h2'
  refine ⟨lo, hi, e, h1', h2', h1'.mono h2' (by linarith), h1'.bounds.1, h2'.bounds.2, ?_⟩
  have c1 := h1'.counts.1
  have c2 := h2'.counts.2
  linarith [c1, c2, (by ring : ((boot.length : K) - 1) * (alpha / 2) +
    ((boot.length : K) - 1) * (1 - (1 - alpha / 2)) = ((boot.length : K) - 1) * alpha)]

example := C45_percentile_interval exN [3, 1, 2, 7] (by simp) none none (1 / 20) (by norm_num)
  (by norm_num) "Percentile" (by rw [ex_percentile]; decide) (by rw [ex_percentile]; decide)


/-- A higher level never gives a lower end. In particular the interval of a smaller `alpha`
contains the interval of a larger one. -/
theorem C45_monotone (N : NormalFns K) (boot : List K) (hne : boot ≠ []) (th : Option K)
    (tj : Option (List K)) (alphas : List K) (hq : Levels alphas) (method : String)
    (hb : method.toLower ≠ "basic") (hc : method.toLower ≠ "bca") (ci : List K)
    (h : bootCI N boot th tj alphas method = .ok (some ci)) :
    ci.length = alphas.length ∧
    ∀ (i j : ℕ) (p q x y : K), alphas[i]? = some p → alphas[j]? = some q → ci[i]? = some x →
      ci[j]? = some y → p ≤ q → x ≤ y := by
  obtain ⟨ci', e, hf⟩ := C45_percentile N boot hne th tj alphas hq method hb hc
  rw [e] at h
  simp only [Except.ok.injEq, Option.some.injEq] at h
  subst h
  refine ⟨hf.length_eq.symm, ?_⟩
  intro i j p q x y hp hq' hx hy hpq
  have key : ∀ (i : ℕ) (p x : K), alphas[i]? = some p → ci'[i]? = some x → IsQuantile boot p x := by
    intro i p x hp hx
    obtain ⟨h1, rfl⟩ := List.getElem?_eq_some_iff.1 hp
    obtain ⟨h2, rfl⟩ := List.getElem?_eq_some_iff.1 hx
    exact hf.get h1 h2
  exact (key i p x hp hx).mono (key j q y hq' hy) hpq

example := fun ci h => C45_monotone exN [3, 1, 2, 7] (by simp) none none [1 / 3, 1 / 2, 1]
  (by intro q h; simp at h; rcases h with rfl | rfl | rfl <;> norm_num) "Percentile"
  (by rw [ex_percentile]; decide) (by rw [ex_percentile]; decide) ci h


/-- Nesting: the interval of a smaller `alpha` contains that of a larger one. -/
theorem C45_nested (N : NormalFns K) (boot : List K) (hne : boot ≠ []) (th : Option K)
    (tj : Option (List K)) (a a' : K) (h0 : 0 ≤ a) (haa : a ≤ a') (h1 : a' ≤ 1)
    (method : String) (hb : method.toLower ≠ "basic") (hc : method.toLower ≠ "bca") :
    ∃ lo hi lo' hi', bootstrapConfidenceInterval N boot th tj (.scalar a) method =
        .ok (some [lo, hi]) ∧
      bootstrapConfidenceInterval N boot th tj (.scalar a') method = .ok (some [lo', hi']) ∧
      lo ≤ lo' ∧ hi' ≤ hi := by
  obtain ⟨lo, hi, e, q1, q2, -⟩ := C45_percentile_interval N boot hne th tj a h0 (by linarith)
    method hb hc
  obtain ⟨lo', hi', e', q1', q2', -⟩ := C45_percentile_interval N boot hne th tj a' (by linarith)
    h1 method hb hc
  exact ⟨lo, hi, lo', hi', e, e', q1.mono q1' (by linarith), q2'.mono q2 (by linarith)⟩

example := C45_nested exN [3, 1, 2, 7] (by simp) none none (1 / 20) (1 / 10) (by norm_num)
  (by norm_num) (by norm_num) "Percentile" (by rw [ex_percentile]; decide) (by rw [ex_percentile]; decide)


/-- The order of the replicates is irrelevant, for every method and every argument. -/
theorem C45_perm (N : NormalFns K) {boot boot' : List K} (p : boot.Perm boot') (th : Option K)
    (tj : Option (List K)) (alpha : AlphaArg K) (method : String) :
    bootstrapConfidenceInterval N boot th tj alpha method =
      bootstrapConfidenceInterval N boot' th tj alpha method := by
  have hq : ∀ qs : List K, npQuantile boot qs = npQuantile boot' qs := by
    intro qs
    unfold npQuantile
    have : boot.isEmpty = boot'.isEmpty := by
      rw [Bool.eq_iff_iff, List.isEmpty_iff, List.isEmpty_iff]
      exact ⟨fun h => by subst h; exact p.nil_eq.symm, fun h => by subst h; exact p.eq_nil⟩
    rw [this, show quantile1 boot = quantile1 boot' from funext (quantile1_perm p)]
  have hp : ∀ s, percentileOfScore boot s = percentileOfScore boot' s := by
    intro s
    unfold percentileOfScore
    rw [p.length_eq, (p.filter _).length_eq, (p.filter (fun x => decide (x ≤ s))).length_eq]
  unfold bootstrapConfidenceInterval bootCI computeZ0
  simp only [hq, hp]

example := C45_perm exN (List.Perm.swap (1 : ℚ) 2 [3]) none none (.scalar (1 / 10)) "bca"


/-- Increasing affine maps pass through the percentile interval. -/
theorem C45_affine (N : NormalFns K) (boot : List K) (hne : boot ≠ []) (th th' : Option K)
    (tj tj' : Option (List K)) (alphas : List K) (hq : Levels alphas) (method : String)
    (hb : method.toLower ≠ "basic") (hc : method.toLower ≠ "bca") (c d : K) (hpos : 0 < c) :
    ∃ ci, bootCI N boot th tj alphas method = .ok (some ci) ∧
      bootCI N (boot.map (fun x => c * x + d)) th' tj' alphas method =
        .ok (some (ci.map (fun x => c * x + d))) := by
  obtain ⟨ci, e, h⟩ := C45_percentile N boot hne th tj alphas hq method hb hc
  obtain ⟨ci', e', h'⟩ := C45_percentile N (boot.map (fun x => c * x + d)) (by simpa using hne)
    th' tj' alphas hq method hb hc
  refine ⟨ci, e, ?_⟩
  rw [e']
  congr 2
  clear e e' hq
  induction h generalizing ci' with
  | nil => rw [List.forall₂_nil_left_iff.1 h']; rfl
  | cons hq _ ih =>
    obtain ⟨x, l, hx, hl, rfl⟩ := List.forall₂_cons_left_iff.1 h'
    rw [List.map_cons, ih _ hl, hx.unique (hq.affine d hpos)]

example := C45_affine exN [3, 1, 2, 7] (by simp) none none none none [1 / 3, 1 / 2, 1]
  (by intro q h; simp at h; rcases h with rfl | rfl | rfl <;> norm_num) "Percentile"
  (by rw [ex_percentile]; decide) (by rw [ex_percentile]; decide) 2 5 (by norm_num)


/-- Decreasing affine maps exchange the two ends of the percentile interval. -/
theorem C45_reflect (N : NormalFns K) (boot : List K) (hne : boot ≠ []) (th th' : Option K)
    (tj tj' : Option (List K)) (alpha : K) (h0 : 0 ≤ alpha) (h1 : alpha ≤ 1) (method : String)
    (hb : method.toLower ≠ "basic") (hc : method.toLower ≠ "bca") (c d : K) (hneg : c < 0) :
    ∃ lo hi, bootstrapConfidenceInterval N boot th tj (.scalar alpha) method =
        .ok (some [lo, hi]) ∧
      bootstrapConfidenceInterval N (boot.map (fun x => c * x + d)) th' tj' (.scalar alpha) method =
        .ok (some [c * hi + d, c * lo + d]) := by
  obtain ⟨lo, hi, e, q1, q2, -⟩ := C45_percentile_interval N boot hne th tj alpha h0 h1 method hb hc
  obtain ⟨lo', hi', e', q1', q2', -⟩ := C45_percentile_interval N (boot.map (fun x => c * x + d))
    (by simpa using hne) th' tj' alpha h0 h1 method hb hc
  refine ⟨lo, hi, e, ?_⟩
  have em : boot.map (fun x => c * x + d) = (boot.map (fun x => -x)).map (fun x => (-c) * x + d) := by
    rw [List.map_map]; congr 1; funext x; simp
  have a1 := (q1.neg).affine d (neg_pos.2 hneg)
  have a2 := (q2.neg).affine d (neg_pos.2 hneg)
  rw [← em] at a1 a2
  rw [show 1 - (1 - alpha / 2) = alpha / 2 by ring] at a2
  rw [e', q1'.unique a2, q2'.unique a1]
  simp

example := C45_reflect exN [3, 1, 2, 7] (by simp) none none none none (1 / 20) (by norm_num)
  (by norm_num) "Percentile" (by rw [ex_percentile]; decide) (by rw [ex_percentile]; decide)
  (-2) 5 (by norm_num)


/-- At a level that falls on a datum, the interval end is that order statistic: no interpolation,
level 0 gives the smallest and level 1 the largest replicate. -/
theorem C45_order_statistic (boot : List K) (k : ℕ) (hk : k < boot.length) (h2 : 1 < boot.length)
    (r : K) (h : IsQuantile boot ((k : K) / ((boot.length : K) - 1)) r) : IsOrderStat boot k r := by
  have hn : (boot.length : K) - 1 ≠ 0 := by
    have : (1 : K) < boot.length := by exact_mod_cast h2
    exact (sub_pos.2 this).ne'
  have ho : IsOrderStat boot k ((sortK boot).getD k 0) := isOrderStat_sortK boot k hk
  have : IsQuantile boot ((k : K) / ((boot.length : K) - 1)) ((sortK boot).getD k 0) :=
    ⟨k, 0, _, 0, by field_simp; ring, le_rfl, zero_lt_one, ho, Or.inl rfl, by ring⟩
  rw [h.unique this]
  exact ho

example := C45_order_statistic ([3, 1, 2, 7] : List ℚ) 2 (by simp) (by simp) _
  (quantile1_isQuantile (by simp) (by norm_num) (by norm_num))


/-- The basic interval for a number `alpha`: the percentile interval reflected about the estimate,
in order, with as few replicates' reflections outside. -/
theorem C45_basic_interval (N : NormalFns K) (boot : List K) (hne : boot ≠ []) (th : K)
    (tj : Option (List K)) (alpha : K) (h0 : 0 ≤ alpha) (h1 : alpha ≤ 1)
    (method : String) (hb : method.toLower = "basic") :
    ∃ lo hi, IsQuantile boot (alpha / 2) lo ∧ IsQuantile boot (1 - alpha / 2) hi ∧
      bootstrapConfidenceInterval N boot (some th) tj (.scalar alpha) method =
        .ok (some [2 * th - hi, 2 * th - lo]) ∧ 2 * th - hi ≤ 2 * th - lo := by
  have hq := levels_scalar h0 h1
  have q1 := quantile1_isQuantile hne (q := alpha / 2) (by linarith) (by linarith)
  have q2 := quantile1_isQuantile hne (q := 1 - alpha / 2) (by linarith) (by linarith)
  refine ⟨_, _, q1, q2, ?_, by linarith [q1.mono q2 (by linarith)]⟩
  simp only [bootstrapConfidenceInterval, bootCI, hb, npQuantile_ok hne hq]
  simp [AlphaArg.alphas, bind, Except.bind, div_eq_mul_inv]

example := C45_basic_interval exN [3, 1, 2, 7] (by simp) 2 none (1 / 20) (by norm_num)
  (by norm_num) "Basic" ex_basic


/-- The basic method with given levels: entry `i` is the reflection of the quantile at level
`n - 1 - i`, counted from the other end of the list of levels. -/
theorem C45_basic_levels (N : NormalFns K) (boot : List K) (hne : boot ≠ []) (th : K)
    (tj : Option (List K)) (alphas : List K) (hq : Levels alphas) (method : String)
    (hb : method.toLower = "basic") :
    ∃ ci, bootCI N boot (some th) tj alphas method = .ok (some ci) ∧
      List.Forall₂ (fun q c => IsQuantile boot q (2 * th - c)) alphas.reverse ci := by
  refine ⟨(alphas.map (quantile1 boot)).reverse.map (fun c => 2 * th - c), ?_, ?_⟩
  · simp only [bootCI, hb, npQuantile_ok hne hq]
    simp [bind, Except.bind]
  · rw [← List.map_reverse, List.map_map, List.forall₂_map_right_iff]
    refine List.forall₂_same.2 (fun q h => ?_)
    rw [List.mem_reverse] at h
    simpa using quantile1_isQuantile hne (hq q h).1 (hq q h).2

example := C45_basic_levels exN [3, 1, 2, 7] (by simp) 2 none [1 / 3, 1 / 2, 1]
  (by intro q h; simp at h; rcases h with rfl | rfl | rfl <;> norm_num) "Basic" ex_basic


/-- The basic bound belonging to level `q` is `2 th` minus the quantile at level `1 - q`. Given
levels that are not symmetric about one half, the code returns something else. Here for replicates
`0, 1, …, 10`, estimate 5 and the single level `1/10`: the bound is 1, the code returns 9. -/
theorem C45_basic_unsymmetric_levels_wrong (N : NormalFns ℚ) :
    IsQuantile ([0, 1, 2, 3, 4, 5, 6, 7, 8, 9, 10] : List ℚ) (1 - 1 / 10) 9 ∧
    bootCI N [0, 1, 2, 3, 4, 5, 6, 7, 8, 9, 10] (some 5) none [1 / 10] "basic" =
      .ok (some [9]) := by
  have hb : "basic".toLower = "basic" := by decide +kernel
  have o1 : IsOrderStat ([0, 1, 2, 3, 4, 5, 6, 7, 8, 9, 10] : List ℚ) 1 1 := by
    refine ⟨by simp, by decide +kernel, by decide +kernel⟩
  have o9 : IsOrderStat ([0, 1, 2, 3, 4, 5, 6, 7, 8, 9, 10] : List ℚ) 9 9 := by
    refine ⟨by simp, by decide +kernel, by decide +kernel⟩
  refine ⟨⟨9, 0, 9, 0, by norm_num, le_rfl, zero_lt_one, o9, Or.inl rfl, by norm_num⟩, ?_⟩
  obtain ⟨ci, e, h⟩ := C45_basic_levels N [0, 1, 2, 3, 4, 5, 6, 7, 8, 9, 10] (by simp) 5 none
    [1 / 10] (by intro q hq; simp at hq; subst hq; norm_num) "basic" hb
  rw [List.reverse_singleton] at h
  obtain ⟨x, l, hx, hl, rfl⟩ := List.forall₂_cons_left_iff.1 h
  obtain rfl := List.forall₂_nil_left_iff.1 hl
  have : 2 * 5 - x = 1 := hx.unique
    ⟨1, 0, 1, 0, by norm_num, le_rfl, zero_lt_one, o1, Or.inl rfl, by norm_num⟩
  rw [e, show x = 9 by linarith]

/-- Increasing affine maps of replicates and estimate pass through the basic interval. -/
theorem C45_basic_affine (N : NormalFns K) (boot : List K) (hne : boot ≠ []) (th : K)
    (tj tj' : Option (List K)) (alpha : K) (h0 : 0 ≤ alpha) (h1 : alpha ≤ 1) (method : String)
    (hb : method.toLower = "basic") (c d : K) (hpos : 0 < c) :
    ∃ lo hi, bootstrapConfidenceInterval N boot (some th) tj (.scalar alpha) method =
        .ok (some [lo, hi]) ∧
      bootstrapConfidenceInterval N (boot.map (fun x => c * x + d)) (some (c * th + d)) tj'
        (.scalar alpha) method = .ok (some [c * lo + d, c * hi + d]) := by
  obtain ⟨lo, hi, q1, q2, e, -⟩ := C45_basic_interval N boot hne th tj alpha h0 h1 method hb
  obtain ⟨lo', hi', q1', q2', e', -⟩ := C45_basic_interval N (boot.map (fun x => c * x + d))
    (by simpa using hne) (c * th + d) tj' alpha h0 h1 method hb
  refine ⟨_, _, e, ?_⟩
  rw [e', q1'.unique (q1.affine d hpos), q2'.unique (q2.affine d hpos)]
  congr 3
  · ring
  · congr 1; ring

example := C45_basic_affine exN [3, 1, 2, 7] (by simp) 2 none none (1 / 20) (by norm_num)
  (by norm_num) "Basic" ex_basic 3 1 (by norm_num)


/-- What is rejected: `basic` and `bca` without an estimate (whatever else is passed), and for
every method but `bca` a level outside `[0, 1]`. -/
theorem C45_rejects (N : NormalFns K) (boot : List K) (th : Option K) (tj : Option (List K))
    (alphas : List K) (method : String) :
    ((method.toLower = "basic" ∨ method.toLower = "bca") →
      bootCI N boot none tj alphas method = .error .valueError) ∧
    (method.toLower ≠ "bca" → ¬ Levels alphas →
      bootCI N boot th tj alphas method = .error .valueError) := by
  constructor
  · intro h
    simp only [bootCI, h, true_and, if_true]
  · intro h hq
    simp only [bootCI, h, npQuantile_error hq, if_false]
    split_ifs <;> rfl

example : bootCI exN [3, 1] none (some [1, 2]) [1 / 2] "BCa" = .error .valueError :=
  (C45_rejects exN _ none _ _ _).1 (Or.inr ex_bca)

example : bootCI exN [3, 1] none none [3 / 2] "Percentile" = .error .valueError :=
  (C45_rejects exN _ none _ _ _).2 (by rw [ex_percentile]; decide)
    (fun h => absurd (h (3 / 2) (by simp)).2 (by norm_num))


/-- The fraction of replicates below the estimate, ties counted half: always in `[0, 1]`. -/
theorem C45_percentile_of_score (boot : List K) (hne : boot ≠ []) (s : K) :
    percentileOfScore boot s = ((countLt boot s : K) + countLe boot s) / (2 * boot.length) ∧
    0 ≤ percentileOfScore boot s ∧ percentileOfScore boot s ≤ 1 := by
  have hn : (0 : K) < boot.length := by exact_mod_cast List.length_pos_iff.2 hne
  have e : percentileOfScore boot s =
      ((countLt boot s : K) + countLe boot s) / (2 * boot.length) := by
    unfold percentileOfScore countLt countLe
    rw [List.countP_eq_length_filter, List.countP_eq_length_filter]
  have h1 : (countLt boot s : K) ≤ boot.length := by
    unfold countLt; exact_mod_cast List.countP_le_length
  have h2 : (countLe boot s : K) ≤ boot.length := by
    unfold countLe; exact_mod_cast List.countP_le_length
  refine ⟨e, ?_, ?_⟩
  · rw [e]; positivity
  · rw [e, div_le_one (by positivity)]; linarith

example := C45_percentile_of_score ([3, 1, 2, 7] : List ℚ) (by simp) 2


/-- The `bca` interval, for any functions `ndtr`, `ndtri` and `x ** 1.5` with `ndtr` in `[0, 1]`:
whenever no intermediate number is infinite, every end is the quantile of the replicates at the
adjusted level `ndtr (z0 + (z0 + z) / (1 - a (z0 + z)))`; in particular it lies between two
replicates, whatever levels were asked for. -/
theorem C45_bca (N : NormalFns K) (hN : ∀ x, 0 ≤ N.ndtr x ∧ N.ndtr x ≤ 1) (boot : List K)
    (hne : boot ≠ []) (th : K) (tj : List K) (alphas : List K) (method : String)
    (hb : method.toLower = "bca") (ci : List K)
    (h : bootCI N boot (some th) (some tj) alphas method = .ok (some ci)) :
    ∃ a z0, computeA N tj = some a ∧ N.ndtri (percentileOfScore boot th) = some z0 ∧
      List.Forall₂ (fun alpha c => ∃ z, N.ndtri alpha = some z ∧ 1 - a * (z0 + z) ≠ 0 ∧
        IsQuantile boot (N.ndtr (z0 + (z0 + z) / (1 - a * (z0 + z)))) c) alphas ci ∧
      ∀ c ∈ ci, (∃ x ∈ boot, x ≤ c) ∧ ∃ x ∈ boot, c ≤ x := by
  simp only [bootCI, hb, reduceCtorEq, and_false, if_false, if_true] at h
  cases ha : computeA N tj with
  | none => rw [ha] at h; simp at h
  | some a =>
    cases hz : computeZ0 N th boot with
    | none => rw [ha, hz] at h; simp at h
    | some z0 =>
      rw [ha, hz] at h
      simp only at h
      have hz' : N.ndtri (percentileOfScore boot th) = some z0 := hz
      cases hm : alphas.mapM (bcaLevel N a z0) with
      | none => rw [hm] at h; simp at h
      | some av =>
        rw [hm] at h
        simp only at h
        have hf : List.Forall₂ (fun alpha v => bcaLevel N a z0 alpha = some v) alphas av := by
          clear h
          induction alphas generalizing av with
          | nil => simp at hm; subst hm; exact .nil
          | cons q qs ih =>
            rw [List.mapM_cons] at hm
            simp only [Option.bind_eq_bind, Option.bind_eq_some_iff, Option.pure_def,
              Option.some.injEq] at hm
            obtain ⟨v, hv, vs, hvs, rfl⟩ := hm
            exact .cons hv (ih vs hvs)
        have hl : ∀ alpha v, bcaLevel N a z0 alpha = some v → ∃ z, N.ndtri alpha = some z ∧
            1 - a * (z0 + z) ≠ 0 ∧ v = N.ndtr (z0 + (z0 + z) / (1 - a * (z0 + z))) := by
          intro alpha v hv
          unfold bcaLevel at hv
          simp only [Option.bind_eq_bind, Option.bind_eq_some_iff] at hv
          obtain ⟨z, hz, hv⟩ := hv
          split_ifs at hv with h0
          exact ⟨z, hz, h0, (Option.some.inj hv).symm⟩
        have hlev : Levels av := by
          intro v hv
          obtain ⟨q, -, hq⟩ : ∃ q ∈ alphas, bcaLevel N a z0 q = some v := by
            clear hm h
            induction hf with
            | nil => simp at hv
            | cons h _ ih =>
              rcases List.mem_cons.1 hv with rfl | hv
              · exact ⟨_, List.mem_cons_self, h⟩
              · obtain ⟨q, hq, e⟩ := ih hv
                exact ⟨q, List.mem_cons_of_mem _ hq, e⟩
          obtain ⟨z, -, -, rfl⟩ := hl q v hq
          exact hN _
        rw [npQuantile_ok hne hlev] at h
        simp only [Except.map, Except.ok.injEq, Option.some.injEq] at h
        subst h
        refine ⟨a, z0, rfl, hz', ?_, ?_⟩
        · rw [List.forall₂_map_right_iff]
          refine hf.imp ?_
          intro q v hv
          obtain ⟨z, h1, h2, rfl⟩ := hl q v hv
          exact ⟨z, h1, h2, quantile1_isQuantile hne (hN _).1 (hN _).2⟩
        · intro c hc
          obtain ⟨v, hv, rfl⟩ := List.mem_map.1 hc
          exact (quantile1_isQuantile hne (hlev v hv).1 (hlev v hv).2).bounds

private theorem ex_bca_run : bootCI exN [1, 2, 3] (some 2) (some [1, 2, 3]) [1 / 4, 3 / 4] "BCa" =
    .ok (some [quantile1 [1, 2, 3] (1 / 4), quantile1 [1, 2, 3] (3 / 4)]) := by
  have hl : Levels ([1 / 4, 3 / 4] : List ℚ) := by
    intro q h; simp at h; rcases h with rfl | rfl <;> norm_num
  have ha : computeA exN [1, 2, 3] = some 0 := by
    norm_num [computeA, exN]
  have hz : computeZ0 exN 2 [1, 2, 3] = some 0 := by
    norm_num [computeZ0, exN, percentileOfScore, List.filter]
  have hm : ([1 / 4, 3 / 4] : List ℚ).mapM (bcaLevel exN 0 0) = some [1 / 4, 3 / 4] := by
    norm_num [bcaLevel, exN]
  simp only [bootCI, ex_bca, ha, hz, hm, npQuantile_ok (List.cons_ne_nil _ _) hl]
  rfl

example := C45_bca exN (by intro x; simp only [exN]; split_ifs <;> norm_num) [1, 2, 3] (by simp) 2
  [1, 2, 3] [1 / 4, 3 / 4] "BCa" ex_bca _ ex_bca_run


/-- Without skewness (`a = 0`) and with the estimate at the median of the replicates (`z0 = 0`),
and where `ndtr` inverts `ndtri`, the `bca` interval is the percentile interval. -/
theorem C45_bca_symmetric (N : NormalFns K) (boot : List K) (hne : boot ≠ []) (th : K)
    (tj : List K) (alphas : List K) (hq : Levels alphas) (method : String)
    (hb : method.toLower = "bca") (ha : computeA N tj = some 0)
    (hmed : percentileOfScore boot th = 1 / 2) (hz : N.ndtri (1 / 2) = some 0)
    (hinv : ∀ q ∈ alphas, ∃ z, N.ndtri q = some z ∧ N.ndtr z = q) :
    bootCI N boot (some th) (some tj) alphas method =
      bootCI N boot none none alphas "percentile" := by
  have hp : "percentile".toLower = "percentile" := by decide +kernel
  have hm : alphas.mapM (bcaLevel N 0 0) = some alphas := by
    clear hq
    induction alphas with
    | nil => rfl
    | cons q qs ih =>
      obtain ⟨z, h1, h2⟩ := hinv q List.mem_cons_self
      have hl : bcaLevel N 0 0 q = some q := by
        simp [bcaLevel, h1, h2]
      rw [List.mapM_cons, hl, ih (fun q h => hinv q (List.mem_cons_of_mem _ h))]
      rfl
  simp only [bootCI, hb, hp, ha, computeZ0, hmed, hz, hm, npQuantile_ok hne hq]
  simp [bind, Except.bind, Except.map]

example := C45_bca_symmetric exN [1, 2, 3] (by simp) 2 [1, 2, 3] [1 / 4, 3 / 4]
  (by intro q h; simp at h; rcases h with rfl | rfl <;> norm_num) "BCa" ex_bca
  (by norm_num [computeA, exN]) (by norm_num [percentileOfScore, List.filter])
  (by norm_num [exN]) (by intro q h; simp at h; rcases h with rfl | rfl <;> norm_num [exN])


/-- Increasing affine maps of replicates, estimate and jackknife values pass through the `bca`
interval, provided `x ** 1.5` scales as it should. -/
theorem C45_bca_affine (N : NormalFns K) (hN : ∀ x, 0 ≤ N.ndtr x ∧ N.ndtr x ≤ 1) (c d : K)
    (hpos : 0 < c) (hpow : ∀ x, N.pow32 (c ^ 2 * x) = c ^ 3 * N.pow32 x) (boot : List K)
    (hne : boot ≠ []) (th : K) (tj : List K) (alphas : List K) (method : String)
    (hb : method.toLower = "bca") (ci : List K)
    (h : bootCI N boot (some th) (some tj) alphas method = .ok (some ci)) :
    bootCI N (boot.map (fun x => c * x + d)) (some (c * th + d))
      (some (tj.map (fun x => c * x + d))) alphas method =
        .ok (some (ci.map (fun x => c * x + d))) := by
  have hA : computeA N (tj.map (fun x => c * x + d)) = computeA N tj := by
    by_cases hne : tj = []
    · subst hne; rfl
    have hn : (tj.length : K) ≠ 0 := by
      have : 0 < tj.length := List.length_pos_iff.2 hne
      exact_mod_cast this.ne'
    have hsum : ∀ l : List K, (l.map (fun x => c * x + d)).sum = c * l.sum + l.length * d := by
      intro l
      induction l with
      | nil => simp
      | cons x l ih => simp only [List.map_cons, List.sum_cons, ih, List.length_cons]; push_cast; ring
    have hmean : (tj.map (fun x => c * x + d)).sum / ((tj.map (fun x => c * x + d)).length : K) =
        c * (tj.sum / tj.length) + d := by
      rw [hsum, List.length_map]; field_simp
    have hdelta : (tj.map (fun x => c * x + d)).map
          (fun t => (tj.map (fun x => c * x + d)).sum / ((tj.map (fun x => c * x + d)).length : K) - t) =
        (tj.map (fun t => tj.sum / tj.length - t)).map (fun t => c * t) := by
      rw [hmean, List.map_map, List.map_map]
      congr 1; funext x; simp only [Function.comp]; ring
    have hpw : ∀ (l : List K) (m : ℕ), ((l.map (fun t => c * t)).map (fun t => t ^ m)).sum =
        c ^ m * (l.map (fun t => t ^ m)).sum := by
      intro l m
      induction l with
      | nil => simp
      | cons x l ih =>
        simp only [List.map_cons, List.sum_cons, ih]; rw [mul_pow]; ring
    unfold computeA
    simp only [hdelta, hpw, hpow]
    have hc3 : c ^ 3 ≠ 0 := (pow_pos hpos 3).ne'
    have he : (tj.map (fun x => c * x + d)).isEmpty = tj.isEmpty := by cases tj <;> rfl
    rw [he]
    generalize N.pow32 _ = w
    generalize ((tj.map _).map (fun t : K => t ^ 3)).sum = u
    by_cases hw : w = 0
    · simp [hw]
    · have : 6 * (c ^ 3 * w) ≠ 0 := by
        refine mul_ne_zero ?_ (mul_ne_zero hc3 hw)
        norm_num
      simp only [this, or_false, mul_eq_zero, hw, OfNat.ofNat_ne_zero]
      split_ifs
      · rfl
      · congr 1; field_simp
  have hP : percentileOfScore (boot.map (fun x => c * x + d)) (c * th + d) =
      percentileOfScore boot th := by
    rw [(C45_percentile_of_score _ (by simpa using hne) _).1, (C45_percentile_of_score _ hne _).1,
      List.length_map]
    unfold countLt countLe
    rw [List.countP_map, List.countP_map]
    congr 3
    · congr 1; funext x; simp [hpos]
    · congr 1; funext x; simp [hpos]
  obtain ⟨a, z0, hA', hZ', hf, -⟩ := C45_bca N hN boot hne th tj alphas method hb ci h
  have hm : ∃ av, alphas.mapM (bcaLevel N a z0) = some av ∧ List.Forall₂ (IsQuantile boot) av ci ∧
      Levels av := by
    clear h
    induction hf with
    | nil => exact ⟨[], rfl, .nil, by intro q h; simp at h⟩
    | cons hx _ ih =>
      obtain ⟨z, h1, h2, h3⟩ := hx
      obtain ⟨av, e, hq, hl⟩ := ih
      refine ⟨_ :: av, ?_, .cons h3 hq, ?_⟩
      · rw [List.mapM_cons, e]
        simp [bcaLevel, h1, h2]
      · intro q hq'
        rcases List.mem_cons.1 hq' with rfl | hq'
        · exact hN _
        · exact hl q hq'
  obtain ⟨av, e, hq, hl⟩ := hm
  have hne' : boot.map (fun x => c * x + d) ≠ [] := by simpa using hne
  simp only [bootCI, hb, hA, hA', computeZ0, hP, hZ', e, npQuantile_ok hne' hl]
  simp only [reduceCtorEq, and_false, if_false, if_true, Except.map]
  congr 2
  clear e hf h
  induction hq with
  | nil => rfl
  | cons hx _ ih =>
    rw [List.map_cons, List.map_cons, ih (fun q h => hl q (List.mem_cons_of_mem _ h))]
    congr 1
    have hq := hl _ List.mem_cons_self
    exact (quantile1_isQuantile hne' hq.1 hq.2).unique (hx.affine d hpos)

example := C45_bca_affine exN (by intro x; simp only [exN]; split_ifs <;> norm_num) 1 5
  (by norm_num) (by intro x; norm_num) [1, 2, 3] (by simp) 2 [1, 2, 3] [1 / 4, 3 / 4] "BCa" ex_bca _
  ex_bca_run


/-- Over the reals `x ** 1.5 = x * sqrt x` scales as assumed in `C45_bca_affine`. -/
example (c x : ℝ) (hc : 0 < c) :
    (c ^ 2 * x) * Real.sqrt (c ^ 2 * x) = c ^ 3 * (x * Real.sqrt x) := by
  rw [Real.sqrt_mul (by positivity), Real.sqrt_sq hc.le]
  ring

end Cmomy
