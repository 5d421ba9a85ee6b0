import Verif.Lemmas.RoundingMerge
import Verif.Props.RoundingError

/-!
# C81: the errors of merged records

How far averages and variances are off when records are merged in any way, each possibly merged itself. The errors grow
with the greatest number of pushes that follow each other, not with the number of records. The constants are not the best
ones.
-/

namespace Cmomy

open Spec

variable {K : Type*} [Field K] [LinearOrder K] [IsStrictOrderedRing K] {R : Precision K} {u B : K} {order : ℕ}

theorem MergedFrom.mergeOf {n : ℕ} {L : List (Record K)} {m : Mom K} (h : MergedFrom R u B order n L m) (hu : 0 ≤ u)
    (hB : 0 ≤ B) (hsm : 2800 * (n * u) ≤ 1) : MergeOf u B order n L m := by
  obtain ⟨P1, P2, h⟩ := h
  exact h.errors hu hB hsm

theorem mapTree_id {M : Type*} (t : MergeTree M) : mapTree (fun d => d) t = t := by
  induction t with
  | leaf c => simp [mapTree]
  | node l r hl hr => rw [mapTree, hl, hr]

/-- **C81** `push_data`: one record pushed into another. -/
theorem C81_push_data (h : Accurate R u) (hB : 0 ≤ B) {a b : Mom K} (ha : Bounded R B a) (hb : Bounded R B b)
    (hsm : 2800 * u ≤ 1) :
    ∃ m, (R.kernel1 order).pushData a b = some m ∧ MergeOf u B order 1 [recordOf b, recordOf a] m := by
  have hsm' : 2800 * (((0 + 1 : ℕ) : K) * u) ≤ 1 := by simpa using hsm
  obtain ⟨m, e, hm⟩ := MergedFrom.push (order := order) h hB hsm' (MergedFrom.record hB ha) (MergedFrom.record hB hb)
  exact ⟨m, e, hm.mergeOf h.nonneg hB hsm'⟩

/-- **C81** Chunks reduced separately, and merged in any way. -/
theorem C81_tree (h : Accurate R u) (hB : 0 ≤ B) {t : MergeTree (Mom K)} (ht : ∀ d ∈ t.records, Bounded R B d)
    (hsm : 2800 * (mergeDepth t * u) ≤ 1) :
    ∃ m, (R.kernel1 order).evalTree t = some m ∧ MergeOf u B order (mergeDepth t) (t.records.map recordOf) m := by
  obtain ⟨m, e, hm⟩ := MergedFrom.tree (order := order) (k := 0) (f := fun d => d) (g := fun d => [recordOf d]) h hB
    (t := t) (fun d hd => MergedFrom.record hB (ht d hd)) (by rw [zero_add]; exact hsm)
  rw [zero_add] at hm
  rw [mapTree_id] at e
  have := hm.mergeOf h.nonneg hB hsm
  rw [← List.map_eq_flatMap] at this
  exact ⟨m, e, this⟩

/-- **C81** `cumulative`: the errors of each row. -/
theorem C81_cumulative (h : Accurate R u) (hB : 0 ≤ B) {ds : List (Mom K)} (hd : ∀ d ∈ ds, Bounded R B d)
    (hsm : 2800 * (ds.length * u) ≤ 1) :
    ∃ rs, (R.kernel1 order).cumulative ds = some rs ∧ rs.length = ds.length ∧
      ∀ (i : ℕ) (hi : i < rs.length), MergeOf u B order i ((ds.take (i + 1)).map recordOf) rs[i] := by
  have hu := h.nonneg
  cases ds with
  | nil => exact ⟨[], rfl, rfl, fun i hi => absurd hi (by simp)⟩
  | cons d ds =>
    have c : ((0 + ds.length : ℕ) : K) * u ≤ (d :: ds).length * u :=
      mul_le_mul_of_nonneg_right (by exact_mod_cast (by simp : 0 + ds.length ≤ (d :: ds).length)) hu
    have h0 : MergedFrom R u B order 0 [recordOf d] d := MergedFrom.record hB (hd d List.mem_cons_self)
    obtain ⟨rs, e, hl, hr⟩ := MergedFrom.cumulativeGo h hB (fun d hd' => hd d (List.mem_cons_of_mem _ hd'))
      (by linarith) h0
    refine ⟨d :: rs, ?_, by simp [hl], fun i hi => ?_⟩
    · show ((R.kernel1 order).cumulativeGo d ds).bind _ = _
      rw [e]
      rfl
    · have ci : (i : K) * u ≤ (d :: ds).length * u :=
        mul_le_mul_of_nonneg_right (by
          have : i ≤ (d :: ds).length := by simp only [List.length_cons] at hi ⊢; omega
          exact_mod_cast this) hu
      cases i with
      | zero =>
        have := h0.mergeOf hu hB (by linarith)
        simpa using this
      | succ i =>
        have := hr i (by simpa using hi)
        rw [zero_add] at this
        have := this.mergeOf hu hB (by linarith)
        simpa using this

/-- **C81** Samples reduced by `reduce_vals` in groups of at most `n`, and the results merged in any way. `result`
is what `reduce_vals` gives for each group. -/
theorem C81_groups (h : Accurate R u) (hB : 0 ≤ B) {t : MergeTree (List (Sample K))} {n : ℕ}
    (ht : ∀ g ∈ t.records, g.length ≤ n ∧ ∀ s ∈ g, IsWeight R s.w ∧ |s.x| ≤ B)
    (hsm : 2800 * ((n + mergeDepth t) * u) ≤ 1) (hW : weight t.records.flatten ≠ 0) :
    ∃ result : List (Sample K) → Mom K,
      (∀ g ∈ t.records, (R.kernel1 order).reduceValsFromZero (toVals g) = some (result g)) ∧
      ∃ m, (R.kernel1 order).evalTree (mapTree result t) = some m ∧
        |m 0 - weight t.records.flatten| ≤ 4 * ((n + mergeDepth t) * u) * weight t.records.flatten ∧
        |m 1 - mean t.records.flatten| ≤ 80 * ((n + mergeDepth t) * u) * B ∧
        (order ≠ 1 → |m 2 - central t.records.flatten 2| ≤ 1800 * ((n + mergeDepth t) * u) * B ^ 2) := by
  have hu := h.nonneg
  have hsm' : 2800 * (((n + mergeDepth t : ℕ) : K) * u) ≤ 1 := by push_cast; exact hsm
  have one : ∀ g ∈ t.records, ∃ m, (R.kernel1 order).reduceValsFromZero (toVals g) = some m ∧
      MergedFrom R u B order n (g.map sampleRecord) m := by
    intro g hg
    have c : ((0 + g.length : ℕ) : K) * u ≤ (n + mergeDepth t : ℕ) * u :=
      mul_le_mul_of_nonneg_right (by
        have := (ht g hg).1
        exact_mod_cast (by omega : 0 + g.length ≤ n + mergeDepth t)) hu
    obtain ⟨m, e, hm⟩ := MergedFrom.vals h hB (ht g hg).2 (by linarith) (MergedFrom.zero h hB order)
    exact ⟨m, e, hm.mono hu hB (by rw [zero_add]; exact (ht g hg).1)⟩
  classical
  let result : List (Sample K) → Mom K := fun g =>
    ((R.kernel1 order).reduceValsFromZero (toVals g)).getD (fun _ => 0)
  have hres : ∀ g ∈ t.records, (R.kernel1 order).reduceValsFromZero (toVals g) = some (result g) ∧
      MergedFrom R u B order n (g.map sampleRecord) (result g) := by
    intro g hg
    obtain ⟨m, e, hm⟩ := one g hg
    have : result g = m := by show Option.getD _ _ = _; rw [e]; rfl
    rw [this]
    exact ⟨e, hm⟩
  obtain ⟨m, e, hm⟩ := MergedFrom.tree (order := order) (k := n) (f := result) (g := fun g => g.map sampleRecord) h hB
    (t := t) (fun g hg => (hres g hg).2) hsm'
  have key := hm.mergeOf hu hB hsm'
  have ef : t.records.flatMap (fun g => g.map sampleRecord) = t.records.flatten.map sampleRecord := by
    rw [List.flatMap_def, List.map_flatten]
  rw [ef] at key
  obtain ⟨h0, h1, h2⟩ := recMean_samples t.records.flatten
  change recWeight (t.records.flatten.map sampleRecord) = _ at h0
  change recMean (t.records.flatten.map sampleRecord) = _ at h1
  change recVar (t.records.flatten.map sampleRecord) = _ at h2
  have kw := key.weight
  have km := key.mean
  have kv := key.var
  rw [h0] at kw km kv
  rw [h1] at km
  rw [h2] at kv
  push_cast at kw km kv
  exact ⟨result, fun g hg => (hres g hg).1, m, e, kw, km hW, kv hW⟩

/-- **C81** Chunks of at most `c` records, merged over at most `k` levels. -/
theorem C81_levels {M : Type*} {c k : ℕ} : ∀ {t : MergeTree M}, MergeLevels c k t → mergeDepth t ≤ c + k
  | _, .leaf hc => le_trans hc (Nat.le_add_right _ _)
  | _, .node hl hr => by
    have h1 := C81_levels hl
    have h2 := C81_levels hr
    unfold mergeDepth
    omega

/-! ### Concrete cases -/

/-- A thousand million samples between -1 and 1 in double precision, in `2 ^ 20` groups of at most 1000, merged in pairs:
the average is right up to `1e-11`, the variance up to `3e-10`. -/
example {t : MergeTree (List (Sample ℚ))} (hk : MergeLevels 1 20 t)
    (ht : ∀ g ∈ t.records, g.length ≤ 1000 ∧ ∀ s ∈ g, IsWeight float64 s.w ∧ |s.x| ≤ 1)
    (hW : weight t.records.flatten ≠ 0) :
    ∃ result : List (Sample ℚ) → Mom ℚ,
      (∀ g ∈ t.records, (float64.kernel1 2).reduceValsFromZero (toVals g) = some (result g)) ∧
      ∃ m, (float64.kernel1 2).evalTree (mapTree result t) = some m ∧
        |m 1 - mean t.records.flatten| ≤ 1 / 10 ^ 11 ∧ |m 2 - central t.records.flatten 2| ≤ 3 / 10 ^ 10 := by
  have hd : ((mergeDepth t : ℕ) : ℚ) ≤ 21 := by exact_mod_cast C81_levels hk
  have hc : (((1000 : ℕ) : ℚ) + mergeDepth t) * 2 ^ (-53 : ℤ) ≤ 1021 * 2 ^ (-53 : ℤ) :=
    mul_le_mul_of_nonneg_right (by push_cast; linarith) (by positivity)
  have hn : 2800 * (1021 * (2 : ℚ) ^ (-53 : ℤ)) ≤ 1 := by norm_num
  obtain ⟨result, hr, m, e, -, h1, h2⟩ := C81_groups (order := 2) (n := 1000) C76_float64 zero_le_one ht
    (by linarith) hW
  have a1 : 80 * (1021 * (2 : ℚ) ^ (-53 : ℤ)) ≤ 1 / 10 ^ 11 := by norm_num
  have a2 : 1800 * (1021 * (2 : ℚ) ^ (-53 : ℤ)) ≤ 3 / 10 ^ 10 := by norm_num
  have h2 := h2 (by norm_num)
  refine ⟨result, hr, m, e, h1.trans ?_, h2.trans ?_⟩
  · rw [mul_one]
    exact (mul_le_mul_of_nonneg_left hc (by norm_num)).trans a1
  · rw [one_pow, mul_one]
    exact (mul_le_mul_of_nonneg_left hc (by norm_num)).trans a2

/-- The same group at every place, merged in pairs over `k` levels. -/
def pairs {M : Type*} (g : M) : ℕ → MergeTree M
  | 0 => .leaf [g]
  | k + 1 => .node (pairs g k) (pairs g k)

theorem pairs_levels {M : Type*} (g : M) : ∀ k, MergeLevels 1 k (pairs g k) ∧ (pairs g k).records = List.replicate (2 ^ k) g
  | 0 => ⟨.leaf (by simp), rfl⟩
  | k + 1 => by
    obtain ⟨h1, h2⟩ := pairs_levels g k
    refine ⟨.node h1 h1, ?_⟩
    show (pairs g k).records ++ (pairs g k).records = _
    rw [h2, List.replicate_append_replicate, pow_succ, mul_two]

/-- Groups of `c + 1` samples of weight 1 and value `1 / 3`. -/
theorem pairs_samples (c k : ℕ) :
    ∃ t : MergeTree (List (Sample ℚ)), MergeLevels 1 k t ∧ t.records.length = 2 ^ k ∧
      (∀ g ∈ t.records, g.length ≤ c + 1 ∧ ∀ s ∈ g, IsWeight float64 s.w ∧ |s.x| ≤ 1) ∧
      weight t.records.flatten ≠ 0 := by
  obtain ⟨h1, h2⟩ := pairs_levels (List.replicate (c + 1) (⟨1, 1 / 3⟩ : Sample ℚ)) k
  refine ⟨_, h1, by rw [h2, List.length_replicate], fun g hg => ?_, ?_⟩
  · rw [h2] at hg
    rw [List.eq_of_mem_replicate hg]
    refine ⟨by rw [List.length_replicate], fun s hs => ?_⟩
    rw [List.eq_of_mem_replicate hs]
    exact ⟨⟨C75_float64.num_one, zero_le_one⟩, by rw [abs_le]; constructor <;> norm_num⟩
  · rw [h2, List.flatten_replicate_replicate]
    unfold weight
    rw [List.map_replicate, List.sum_replicate, nsmul_eq_mul, mul_one]
    positivity

/-- Such samples exist. -/
example : ∃ t : MergeTree (List (Sample ℚ)), MergeLevels 1 20 t ∧ t.records.length = 2 ^ 20 ∧
    (∀ g ∈ t.records, g.length ≤ 1000 ∧ ∀ s ∈ g, IsWeight float64 s.w ∧ |s.x| ≤ 1) ∧ weight t.records.flatten ≠ 0 :=
  pairs_samples 999 20

/-- The record of 1 and 3, stored with 14 digits. -/
def twoSamples : Mom ℚ := fun i => if i = 0 then 2 else if i = 1 then 2 else if i = 2 then 1 else 0

/-- The record of `1 / 3`, as computed with 14 digits. -/
def oneThird : Mom ℚ := fun i => if i = 0 then 1 else if i = 1 then 5461 / 16384 else 0

/-- With 14 digits, the hypotheses of `C81_push_data` and of `C81_cumulative` hold for these records. -/
example : Accurate (digits 14) (2 ^ (-14 : ℤ)) ∧ Bounded (digits 14) 3 twoSamples ∧ Bounded (digits 14) 3 oneThird ∧
    2800 * (2 : ℚ) ^ (-14 : ℤ) ≤ 1 ∧ 2800 * (([twoSamples, oneThird, twoSamples].length : ℚ) * 2 ^ (-14 : ℤ)) ≤ 1 :=
  ⟨C76_digits (p := 14) (by norm_num) (by norm_num),
    ⟨by unfold IsWeight IsNum; decide +kernel, by decide +kernel, by decide +kernel⟩,
    ⟨by unfold IsWeight IsNum; decide +kernel, by decide +kernel, by decide +kernel⟩, by norm_num, by norm_num⟩

/-- The running averages of these records, where those of the second and the third row are not exact. -/
example : (((digits 14).kernel1 2).cumulative [twoSamples, oneThird, twoSamples]).map (List.map fun m => (m 0, m 1))
    = some [(2, 2), (3, 5917 / 4096), (5, 6827 / 4096)] := by
  decide +kernel

end Cmomy
