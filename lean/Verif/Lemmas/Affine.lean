import Verif.Lemmas.Reduce

/-!
# Affine maps and weight scaling at the level of the specification
-/

namespace Cmomy

open Spec

section
variable {K : Type*} [Field K]

/-- Replace every value `x` by `a * x + b`. -/
def affine (a b : K) (L : List (Sample K)) : List (Sample K) :=
  L.map (fun s => ⟨s.w, a * s.x + b⟩)

/-- Multiply every weight by `c`. -/
def reweight (c : K) (L : List (Sample K)) : List (Sample K) := L.map (fun s => ⟨c * s.w, s.x⟩)

/-- Replace `x` by `a * x + b` and `y` by `c * y + d`. -/
def affine2 (a b c d : K) (L : List (Sample2 K)) : List (Sample2 K) :=
  L.map (fun s => ⟨s.w, a * s.x + b, c * s.y + d⟩)

/-- Multiply every weight by `c`. -/
def reweight2 (c : K) (L : List (Sample2 K)) : List (Sample2 K) :=
  L.map (fun s => ⟨c * s.w, s.x, s.y⟩)

theorem wsum_affine (a b : K) (L : List (Sample K)) (f : K → K) :
    wsum (affine a b L) f = wsum L (fun x => f (a * x + b)) := by
  simp [wsum, affine, Function.comp_def]

theorem weight_affine (a b : K) (L : List (Sample K)) : weight (affine a b L) = weight L := by
  simp [Spec.weight, affine, Function.comp_def]

theorem wsum_reweight (c : K) (L : List (Sample K)) (f : K → K) :
    wsum (reweight c L) f = c * wsum L f := by
  induction L with
  | nil => simp [reweight, wsum]
  | cons s L ih =>
    simp only [reweight, List.map_cons, wsum_cons] at ih ⊢
    rw [ih]; ring

theorem weight_reweight (c : K) (L : List (Sample K)) : weight (reweight c L) = c * weight L := by
  rw [← wsum_one, wsum_reweight, wsum_one]

theorem mean_affine (a b : K) (L : List (Sample K)) (hW : weight L ≠ 0) :
    mean (affine a b L) = a * mean L + b := by
  unfold Spec.mean
  rw [wsum_affine, weight_affine, wsum_add, wsum_mul]
  have : wsum L (fun _ => b) = b * weight L := by
    rw [← wsum_one, ← wsum_mul]; simp
  rw [this]
  field_simp

theorem central_affine (a b : K) (L : List (Sample K)) (hW : weight L ≠ 0) (n : ℕ) :
    central (affine a b L) n = a ^ n * central L n := by
  unfold Spec.central
  rw [wsum_affine, weight_affine, mean_affine a b L hW, ← mul_div_assoc, ← wsum_mul]
  congr 2
  funext x
  rw [← mul_pow]
  congr 1
  ring

theorem mean_reweight (c : K) (hc : c ≠ 0) (L : List (Sample K)) :
    mean (reweight c L) = mean L := by
  unfold Spec.mean
  rw [wsum_reweight, weight_reweight, mul_div_mul_left _ _ hc]

theorem central_reweight (c : K) (hc : c ≠ 0) (L : List (Sample K)) (n : ℕ) :
    central (reweight c L) n = central L n := by
  unfold Spec.central
  rw [mean_reweight c hc, wsum_reweight, weight_reweight, mul_div_mul_left _ _ hc]

theorem admissible_affine (a b : K) {L : List (Sample K)} (hL : Admissible L) :
    Admissible (affine a b L) := by
  intro pre s post e hs
  obtain ⟨pre', rest, rfl, rfl, e2⟩ := List.map_eq_append_iff.1 e
  obtain ⟨t, post', rfl, rfl, rfl⟩ := List.map_eq_cons_iff.1 e2
  have := hL pre' t post' rfl hs
  rw [← weight_affine a b] at this
  simpa [affine] using this

theorem admissible_reweight (c : K) (hc : c ≠ 0) {L : List (Sample K)} (hL : Admissible L) :
    Admissible (reweight c L) := by
  intro pre s post e hs
  obtain ⟨pre', rest, rfl, rfl, e2⟩ := List.map_eq_append_iff.1 e
  obtain ⟨t, post', rfl, rfl, rfl⟩ := List.map_eq_cons_iff.1 e2
  have := hL pre' t post' rfl (right_ne_zero_of_mul hs)
  have h2 := mul_ne_zero hc this
  rw [← weight_reweight] at h2
  simpa [reweight] using h2

theorem wsum2_affine2 (a b c d : K) (L : List (Sample2 K)) (f : K → K → K) :
    wsum2 (affine2 a b c d L) f = wsum2 L (fun x y => f (a * x + b) (c * y + d)) := by
  simp [wsum2, affine2, Function.comp_def]

theorem weight2_affine2 (a b c d : K) (L : List (Sample2 K)) :
    weight2 (affine2 a b c d L) = weight2 L := by
  simp [weight2, affine2, Function.comp_def]

theorem wsum2_const (L : List (Sample2 K)) (b : K) : wsum2 L (fun _ _ => b) = b * weight2 L := by
  rw [← wsum2_one, ← wsum2_mul]; simp

theorem meanX_affine2 (a b c d : K) (L : List (Sample2 K)) (hW : weight2 L ≠ 0) :
    meanX (affine2 a b c d L) = a * meanX L + b := by
  unfold meanX
  rw [wsum2_affine2, weight2_affine2, wsum2_add, wsum2_mul, wsum2_const]
  field_simp

theorem meanY_affine2 (a b c d : K) (L : List (Sample2 K)) (hW : weight2 L ≠ 0) :
    meanY (affine2 a b c d L) = c * meanY L + d := by
  unfold meanY
  rw [wsum2_affine2, weight2_affine2, wsum2_add, wsum2_mul, wsum2_const]
  field_simp

theorem central2_affine2 (a b c d : K) (L : List (Sample2 K)) (hW : weight2 L ≠ 0) (i j : ℕ) :
    central2 (affine2 a b c d L) i j = a ^ i * c ^ j * central2 L i j := by
  unfold central2
  rw [wsum2_affine2, weight2_affine2, meanX_affine2 a b c d L hW, meanY_affine2 a b c d L hW,
    ← mul_div_assoc, ← wsum2_mul]
  congr 2
  funext x y
  rw [mul_mul_mul_comm, ← mul_pow, ← mul_pow]
  congr 2 <;> ring

theorem wsum2_reweight2 (c : K) (L : List (Sample2 K)) (f : K → K → K) :
    wsum2 (reweight2 c L) f = c * wsum2 L f := by
  induction L with
  | nil => simp [reweight2, wsum2]
  | cons s L ih =>
    simp only [reweight2, List.map_cons, wsum2_cons] at ih ⊢
    rw [ih]; ring

theorem weight2_reweight2 (c : K) (L : List (Sample2 K)) :
    weight2 (reweight2 c L) = c * weight2 L := by
  rw [← wsum2_one, wsum2_reweight2, wsum2_one]

theorem meanX_reweight2 (c : K) (hc : c ≠ 0) (L : List (Sample2 K)) :
    meanX (reweight2 c L) = meanX L := by
  unfold meanX
  rw [wsum2_reweight2, weight2_reweight2, mul_div_mul_left _ _ hc]

theorem meanY_reweight2 (c : K) (hc : c ≠ 0) (L : List (Sample2 K)) :
    meanY (reweight2 c L) = meanY L := by
  unfold meanY
  rw [wsum2_reweight2, weight2_reweight2, mul_div_mul_left _ _ hc]

theorem central2_reweight2 (c : K) (hc : c ≠ 0) (L : List (Sample2 K)) (i j : ℕ) :
    central2 (reweight2 c L) i j = central2 L i j := by
  unfold central2
  rw [meanX_reweight2 c hc, meanY_reweight2 c hc, wsum2_reweight2, weight2_reweight2,
    mul_div_mul_left _ _ hc]

theorem admissible2_affine2 (a b c d : K) {L : List (Sample2 K)} (hL : Admissible2 L) :
    Admissible2 (affine2 a b c d L) := by
  intro pre s post e hs
  obtain ⟨pre', rest, rfl, rfl, e2⟩ := List.map_eq_append_iff.1 e
  obtain ⟨t, post', rfl, rfl, rfl⟩ := List.map_eq_cons_iff.1 e2
  have := hL pre' t post' rfl hs
  rw [← weight2_affine2 a b c d] at this
  simpa [affine2] using this

theorem admissible2_reweight2 (c : K) (hc : c ≠ 0) {L : List (Sample2 K)} (hL : Admissible2 L) :
    Admissible2 (reweight2 c L) := by
  intro pre s post e hs
  obtain ⟨pre', rest, rfl, rfl, e2⟩ := List.map_eq_append_iff.1 e
  obtain ⟨t, post', rfl, rfl, rfl⟩ := List.map_eq_cons_iff.1 e2
  have := hL pre' t post' rfl (right_ne_zero_of_mul hs)
  have h2 := mul_ne_zero hc this
  rw [← weight2_reweight2] at h2
  simpa [reweight2] using h2

end

section ordered

variable {K : Type*} [Field K] [LinearOrder K] [IsStrictOrderedRing K]

theorem wsum_nonneg {L : List (Sample K)} (hL : ∀ s ∈ L, 0 ≤ s.w) {f : K → K}
    (hf : ∀ x, 0 ≤ f x) : 0 ≤ wsum L f :=
  List.sum_nonneg (by
    intro x hx; obtain ⟨t, ht, rfl⟩ := List.mem_map.1 hx; exact mul_nonneg (hL t ht) (hf _))

theorem wsum_eq_zero_iff {L : List (Sample K)} (hL : ∀ s ∈ L, 0 ≤ s.w) {f : K → K}
    (hf : ∀ x, 0 ≤ f x) : wsum L f = 0 ↔ ∀ s ∈ L, s.w = 0 ∨ f s.x = 0 := by
  constructor
  · intro h s hs
    have := Lawful.all_zero_of_sum_zero (l := L.map (fun s : Sample K => s.w * f s.x)) (by
      intro x hx; obtain ⟨t, ht, rfl⟩ := List.mem_map.1 hx
      exact mul_nonneg (hL t ht) (hf _)) h _ (List.mem_map_of_mem hs)
    exact mul_eq_zero.1 this
  · intro h
    refine List.sum_eq_zero ?_
    intro x hx
    obtain ⟨t, ht, rfl⟩ := List.mem_map.1 hx
    exact mul_eq_zero.2 (h t ht)

theorem wsum2_nonneg {L : List (Sample2 K)} (hL : ∀ s ∈ L, 0 ≤ s.w) {f : K → K → K}
    (hf : ∀ x y, 0 ≤ f x y) : 0 ≤ wsum2 L f :=
  List.sum_nonneg (by
    intro x hx; obtain ⟨t, ht, rfl⟩ := List.mem_map.1 hx; exact mul_nonneg (hL t ht) (hf _ _))

/-- Cauchy–Schwarz for weighted lists. -/
theorem wsum2_cauchy {L : List (Sample2 K)} (hL : ∀ s ∈ L, 0 ≤ s.w) (u v : K → K → K) :
    wsum2 L (fun x y => u x y * v x y) ^ 2 ≤
      wsum2 L (fun x y => u x y ^ 2) * wsum2 L (fun x y => v x y ^ 2) := by
  set A := wsum2 L (fun x y => u x y ^ 2) with hA
  set B := wsum2 L (fun x y => u x y * v x y) with hB
  set C := wsum2 L (fun x y => v x y ^ 2) with hC
  have quad : ∀ s t : K, 0 ≤ s ^ 2 * A + 2 * s * t * B + t ^ 2 * C := by
    intro s t
    have h := wsum2_nonneg hL (f := fun x y => (s * u x y + t * v x y) ^ 2) (fun x y => sq_nonneg _)
    have e : wsum2 L (fun x y => (s * u x y + t * v x y) ^ 2) =
        s ^ 2 * A + 2 * s * t * B + t ^ 2 * C := by
      rw [hA, hB, hC, ← wsum2_mul, ← wsum2_mul, ← wsum2_mul, ← wsum2_add, ← wsum2_add]
      congr 1; funext x y; ring
    rwa [e] at h
  have hC0 : 0 ≤ C := by simpa using quad 0 1
  have hA0 : 0 ≤ A := by simpa using quad 1 0
  rcases hC0.eq_or_lt with h | h
  · have hB0 : B = 0 := by
      by_contra hb
      have := quad 1 (-(A + 1) / (2 * B))
      have e : 2 * (1 : K) * (-(A + 1) / (2 * B)) * B = -(A + 1) := by field_simp
      rw [← h, e] at this
      linarith
    rw [hB0, ← h]; simp
  · have := quad C (-B)
    nlinarith [this, mul_nonneg hC0 hA0]

end ordered

end Cmomy
