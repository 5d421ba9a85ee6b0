import Verif.Lemmas.Tree

/-!
# Resampling, jackknife and cumulative: generic part
-/

set_option linter.unusedSectionVars false

namespace Cmomy

variable {K V M ι : Type*} [Field K]

namespace Lawful

section

variable [DecidableEq K] {k : Kernel K V M} (h : Lawful k ι)
include h

theorem resampleDataRow_raw {fd : List (K × M)} {r : M} (e : k.resampleDataRow fd = some r) :
    h.raw r = h.rtot fd := by
  induction fd with
  | nil => cases e; rw [h.raw_zero]; rfl
  | cons p fd ih =>
    obtain ⟨f, d⟩ := p
    rw [Kernel.resampleDataRow] at e
    split_ifs at e with hf
    · rw [h.resampleRest_eq] at e
      rw [h.foldScale_raw e, h.raw_mul, h.rtot_cons]
    · simp only [not_not] at hf
      rw [ih e, h.rtot_cons, hf, zero_smul, zero_add]

theorem resampleDataRow_weight {fd : List (K × M)} {r : M} (e : k.resampleDataRow fd = some r) :
    k.weight r = wtot k fd := by
  rw [← h.raw_i0, h.resampleDataRow_raw e, h.rtot_i0]

/-- A resample of values is the accumulation with the product weights, including where it divides
by zero. -/
theorem resampleValsRow_eq_reduceVals (fx : List (K × V × K)) (o : M) :
    k.resampleValsRow fx o = k.reduceVals (fx.map (fun p => (p.2.1, p.2.2 * p.1))) o := by
  unfold Kernel.resampleValsRow Kernel.reduceVals
  rw [List.foldlM_map]
  congr 1
  funext o p
  split_ifs with hp
  · rw [hp, mul_zero, h.pushVal_eq, h.scale_skip]
    simp [h.weight_ofVal]
  · rfl

theorem rsum_eraseIdx (data : List M) (i : ℕ) (hi : i < data.length) :
    h.rsum data = h.raw data[i] + h.rsum (data.eraseIdx i) := by
  induction data generalizing i with
  | nil => simp at hi
  | cons d data ih =>
    cases i with
    | zero => simp [h.rsum_cons]
    | succ i =>
      simp only [List.length_cons, Nat.add_lt_add_iff_right] at hi
      simp only [List.getElem_cons_succ, List.eraseIdx_cons_succ, h.rsum_cons, ih i hi]
      ring

theorem wsumD_eraseIdx (data : List M) (i : ℕ) (hi : i < data.length) :
    wsumD k data = k.weight data[i] + wsumD k (data.eraseIdx i) := by
  have := congrFun (h.rsum_eraseIdx data i hi) h.i0
  simpa [h.rsum_i0, h.raw_i0] using this

/-- One row of the jackknife kernel, given the full reduction. -/
theorem jackknife_row (data : List M) (red : M) (e : k.reduceDataFromZero data = some red) (i : ℕ)
    (hi : i < data.length) (hw : wsumD k (data.eraseIdx i) ≠ 0) :
    ∃ r, k.pushScale data[i] (-1) red = some r ∧ h.raw r = h.rsum (data.eraseIdx i) ∧
      k.weight r ≠ 0 := by
  have hW := h.reduceData_weight e
  rw [h.weight_zero, zero_add, h.wsumD_eraseIdx data i hi] at hW
  have hback : k.weight red + k.weight data[i] * (-1) = wsumD k (data.eraseIdx i) := by
    rw [hW]; ring
  obtain ⟨r, er⟩ := h.pushScale_exists (d := data[i]) (s := -1) (o := red)
    (Or.inr (by rw [hback]; exact hw))
  refine ⟨r, er, ?_, by rw [h.pushScale_weight er, hback]; exact hw⟩
  rw [h.pushScale_raw er, h.reduceData_raw e, h.raw_zero, h.rsum_eraseIdx data i hi]
  module

theorem jackknife_row_none (data : List M) (red : M) (e : k.reduceDataFromZero data = some red)
    (i : ℕ) (hi : i < data.length) :
    k.pushScale data[i] (-1) red = none ↔
      k.weight data[i] ≠ 0 ∧ wsumD k (data.eraseIdx i) = 0 := by
  have hW := h.reduceData_weight e
  rw [h.weight_zero, zero_add, h.wsumD_eraseIdx data i hi] at hW
  rw [h.pushScale_eq_none_iff, hW]
  have : k.weight data[i] + wsumD k (data.eraseIdx i) + k.weight data[i] * -1 =
    wsumD k (data.eraseIdx i) := by ring
  rw [this, mul_neg_one, neg_ne_zero]

theorem jackknifeValsKernel_eq (red : M) (xs : List (V × K)) :
    k.jackknifeValsKernel red xs =
      k.jackknifeDataKernel red (xs.map (fun p => k.ofVal p.1 p.2)) := by
  unfold Kernel.jackknifeValsKernel Kernel.jackknifeDataKernel
  rw [List.map_map]
  refine List.map_congr_left fun p _ => ?_
  simp only [Function.comp_apply]
  rw [← h.val_eq, mul_neg_one]

theorem jackknifeVals_eq (xs : List (V × K)) :
    k.jackknifeVals xs = k.jackknifeData (xs.map (fun p => k.ofVal p.1 p.2)) := by
  unfold Kernel.jackknifeVals Kernel.jackknifeData Kernel.reduceValsFromZero
    Kernel.reduceDataFromZero
  rw [h.reduceVals_eq_reduceData]
  simp only [h.jackknifeValsKernel_eq]

theorem cumulativeGo_spec {prev : M} {ds rs : List M} (e : k.cumulativeGo prev ds = some rs) :
    rs.length = ds.length ∧
    ∀ i (hi : i < rs.length), h.raw rs[i] = h.raw prev + h.rsum (ds.take (i + 1)) := by
  induction ds generalizing prev rs with
  | nil => cases e; simp
  | cons d ds ih =>
    rw [Kernel.cumulativeGo] at e
    obtain ⟨r, er, e⟩ := Option.bind_eq_some_iff.1 e
    obtain ⟨rs', ers, e⟩ := Option.bind_eq_some_iff.1 e
    cases e
    obtain ⟨hl, hr⟩ := ih ers
    rw [h.data_eq] at er
    have hraw := h.pushScale_raw er
    rw [one_smul] at hraw
    refine ⟨by simp [hl], ?_⟩
    intro i hi
    cases i with
    | zero => simp [hraw, h.rsum_cons, h.rsum_nil, add_comm]
    | succ i =>
      simp only [List.getElem_cons_succ, List.take_succ_cons, h.rsum_cons]
      rw [hr i (by simpa using hi), hraw]
      module

theorem cumulative_spec {data rs : List M} (e : k.cumulative data = some rs) :
    rs.length = data.length ∧
    ∀ i (hi : i < rs.length), h.raw rs[i] = h.rsum (data.take (i + 1)) := by
  cases data with
  | nil => cases e; simp
  | cons d ds =>
    rw [Kernel.cumulative] at e
    obtain ⟨rs', ers, e⟩ := Option.bind_eq_some_iff.1 e
    cases e
    obtain ⟨hl, hr⟩ := h.cumulativeGo_spec ers
    refine ⟨by simp [hl], ?_⟩
    intro i hi
    cases i with
    | zero => simp [h.rsum_cons, h.rsum_nil]
    | succ i =>
      simp only [List.getElem_cons_succ, List.take_succ_cons, h.rsum_cons]
      rw [hr i (by simpa using hi)]

/-- Existence and inversion of one cumulative run. -/
theorem cumulativeInverseGo_cumulativeGo {prev : M} (ds : List M)
    (hw : ∀ d ∈ ds, k.weight d ≠ 0)
    (hp : ∀ i, i < ds.length → k.weight prev + wsumD k (ds.take (i + 1)) ≠ 0) :
    ∃ rs bs, k.cumulativeGo prev ds = some rs ∧ k.cumulativeInverseGo prev rs = some bs ∧
      List.Forall₂ h.Eqv bs ds := by
  induction ds generalizing prev with
  | nil => exact ⟨[], [], rfl, rfl, List.Forall₂.nil⟩
  | cons d ds ih =>
    have hd := hw d List.mem_cons_self
    have hp0 : k.weight d + k.weight prev ≠ 0 := by
      have := hp 0 (by simp)
      simpa [wsumD, add_comm] using this
    obtain ⟨r, b, er, eb, hb⟩ := h.push_unpush d prev hd hp0
    have hwr : k.weight r = k.weight d + k.weight prev := by
      rw [h.data_eq] at er
      rw [h.pushScale_weight er, mul_one]
    obtain ⟨rs, bs, ers, ebs, hbs⟩ := ih (prev := r) (fun x hx => hw x (List.mem_cons_of_mem _ hx))
      (fun i hi => by
        have := hp (i + 1) (by simpa using hi)
        rw [List.take_succ_cons] at this
        simp only [wsumD, List.map_cons, List.sum_cons] at this
        rw [hwr, wsumD]
        intro hz
        exact this (by rw [← hz]; ring))
    refine ⟨r :: rs, b :: bs, ?_, ?_, List.Forall₂.cons hb hbs⟩
    · rw [Kernel.cumulativeGo, er]
      exact Option.bind_eq_some_iff.2 ⟨r, rfl, Option.bind_eq_some_iff.2 ⟨rs, ers, rfl⟩⟩
    · rw [Kernel.cumulativeInverseGo, eb]
      exact Option.bind_eq_some_iff.2 ⟨b, rfl, Option.bind_eq_some_iff.2 ⟨bs, ebs, rfl⟩⟩

theorem cumulativeInverse_cumulative (data : List M) (hw : ∀ d ∈ data.tail, k.weight d ≠ 0)
    (hp : ∀ i, 1 ≤ i → i < data.length → wsumD k (data.take (i + 1)) ≠ 0) :
    ∃ rs bs, k.cumulative data = some rs ∧ k.cumulativeInverse rs = some bs ∧
      List.Forall₂ h.Eqv bs data := by
  cases data with
  | nil => exact ⟨[], [], rfl, rfl, List.Forall₂.nil⟩
  | cons d ds =>
    obtain ⟨rs, bs, ers, ebs, hbs⟩ := h.cumulativeInverseGo_cumulativeGo (prev := d) ds hw
      (fun i hi => by
        have := hp (i + 1) (by omega) (by simpa using hi)
        rw [List.take_succ_cons] at this
        simpa [wsumD] using this)
    refine ⟨d :: rs, d :: bs, ?_, ?_, List.Forall₂.cons (Eqv.refl d) hbs⟩
    · rw [Kernel.cumulative]
      exact Option.bind_eq_some_iff.2 ⟨rs, ers, rfl⟩
    · rw [Kernel.cumulativeInverse]
      exact Option.bind_eq_some_iff.2 ⟨bs, ebs, rfl⟩

end

section ordered

variable [LinearOrder K] [IsStrictOrderedRing K] {k : Kernel K V M} (h : Lawful k ι)
include h

theorem resampleDataRow_exists {fd : List (K × M)} (hf : ∀ p ∈ fd, 0 ≤ p.1)
    (hw : ∀ p ∈ fd, 0 ≤ k.weight p.2) : ∃ r, k.resampleDataRow fd = some r := by
  induction fd with
  | nil => exact ⟨_, rfl⟩
  | cons p fd ih =>
    obtain ⟨f, d⟩ := p
    have hf' : ∀ p ∈ fd, 0 ≤ p.1 := fun p hp => hf p (List.mem_cons_of_mem _ hp)
    have hw' : ∀ p ∈ fd, 0 ≤ k.weight p.2 := fun p hp => hw p (List.mem_cons_of_mem _ hp)
    rw [Kernel.resampleDataRow]
    split_ifs with h0
    · rw [h.resampleRest_eq]
      refine h.foldScale_exists_of_nonneg ?_ (fun q hq => mul_nonneg (hw' q hq) (hf' q hq))
      rw [h.weight_mul]
      exact mul_nonneg (hw _ List.mem_cons_self) (hf _ List.mem_cons_self)
    · exact ih hf' hw'

/-- Raw sums of the drawn multiset. -/
theorem rsum_drawn (fd : List (ℕ × M)) :
    h.rsum (fd.flatMap (fun p => List.replicate p.1 p.2)) =
      h.rtot (fd.map (fun p => ((p.1 : K), p.2))) := by
  induction fd with
  | nil => rfl
  | cons p fd ih =>
    rw [List.flatMap_cons, h.rsum_append, ih, List.map_cons, h.rtot_cons]
    congr 1
    simp [rsum, List.map_replicate, List.sum_replicate, Nat.cast_smul_eq_nsmul]

/-- Resampling by counts equals reducing the drawn multiset. -/
theorem resample_eq_reduce_drawn (fd : List (ℕ × M)) (hw : ∀ p ∈ fd, 0 ≤ k.weight p.2)
    (hpos : wtot k (fd.map (fun p => ((p.1 : K), p.2))) ≠ 0) :
    ∃ r r', k.resampleDataRow (fd.map (fun p => ((p.1 : K), p.2))) = some r ∧
      k.reduceDataFromZero (fd.flatMap (fun p => List.replicate p.1 p.2)) = some r' ∧
      h.Eqv r r' := by
  obtain ⟨r, e⟩ := h.resampleDataRow_exists (fd := fd.map (fun p => ((p.1 : K), p.2)))
    (by intro p hp; obtain ⟨q, -, rfl⟩ := List.mem_map.1 hp; exact Nat.cast_nonneg _)
    (by intro p hp; obtain ⟨q, hq, rfl⟩ := List.mem_map.1 hp; exact hw q hq)
  obtain ⟨r', e'⟩ := h.reduceData_exists
    (data := fd.flatMap (fun p => List.replicate p.1 p.2)) (o := k.zero) (by rw [h.weight_zero]) (by
      intro d hd
      obtain ⟨p, hp, hd⟩ := List.mem_flatMap.1 hd
      rw [(List.mem_replicate.1 hd).2]
      exact hw p hp)
  refine ⟨r, r', e, e', h.eqv_of_raw ?_ ?_⟩
  · rw [h.resampleDataRow_weight e]; exact hpos
  · rw [h.resampleDataRow_raw e, h.reduceData_raw e', h.raw_zero, zero_add, h.rsum_drawn]

theorem resampleVals_eqv_resampleData (fs : List K) (xs : List (V × K)) (hf : ∀ f ∈ fs, 0 ≤ f)
    (hx : ∀ p ∈ xs, 0 ≤ p.2)
    (hpos : 0 < (List.zipWith (fun f (p : V × K) => p.2 * f) fs xs).sum) :
    ∃ r r', k.resampleVals [fs] xs = [some r] ∧
      k.resampleData [fs] (xs.map (fun p => k.ofVal p.1 p.2)) = [some r'] ∧ h.Eqv r r' := by
  obtain ⟨r', e'⟩ := h.resampleDataRow_exists
    (fd := fs.zip (xs.map (fun p => k.ofVal p.1 p.2)))
    (fun p hp => hf _ (List.of_mem_zip hp).1)
    (fun p hp => by
      obtain ⟨q, hq, e⟩ := List.mem_map.1 (List.of_mem_zip hp).2
      rw [← e, h.weight_ofVal]
      exact hx q hq)
  obtain ⟨r, e⟩ : ∃ r, k.resampleValsRow (fs.zip xs) k.zero = some r := by
    rw [h.resampleValsRow_eq_reduceVals, h.reduceVals_eq_reduceData]
    refine h.reduceData_exists (by rw [h.weight_zero]) ?_
    intro d hd
    simp only [List.map_map, List.mem_map] at hd
    obtain ⟨p, hp, rfl⟩ := hd
    simp only [Function.comp_apply, h.weight_ofVal]
    exact mul_nonneg (hx _ (List.of_mem_zip hp).2) (hf _ (List.of_mem_zip hp).1)
  refine ⟨r, r', by simp [Kernel.resampleVals, e], by simp [Kernel.resampleData, e'], ?_⟩
  have hraw : h.raw r = h.raw r' := by
    rw [h.resampleValsRow_eq_reduceVals] at e
    rw [h.resampleDataRow_raw e', h.reduceVals_raw e, h.raw_zero, zero_add]
    simp only [Lawful.vsum, Lawful.rtot, List.zip_map_right, List.map_map]
    congr 1
    refine List.map_congr_left fun p _ => ?_
    simp only [Function.comp_apply, Prod.map_fst, Prod.map_snd, id]
    rw [h.raw_ofVal, smul_smul, mul_comm]
  refine h.eqv_of_raw ?_ hraw
  rw [h.weight_eq_of_raw hraw, h.resampleDataRow_weight e']
  have : wtot k (fs.zip (xs.map (fun p => k.ofVal p.1 p.2))) =
      (List.zipWith (fun f (p : V × K) => p.2 * f) fs xs).sum := by
    simp only [Lawful.wtot, List.zip_map_right, List.map_map]
    rw [← List.map_uncurry_zip_eq_zipWith]
    congr 1
    refine List.map_congr_left fun p _ => ?_
    simp [h.weight_ofVal, Function.uncurry]
  rw [this]
  exact hpos.ne'

theorem cumulative_exists (data : List M) (hw : ∀ d ∈ data, 0 ≤ k.weight d) :
    ∃ rs, k.cumulative data = some rs := by
  have key : ∀ (ds : List M) (prev : M), 0 ≤ k.weight prev → (∀ d ∈ ds, 0 ≤ k.weight d) →
      ∃ rs, k.cumulativeGo prev ds = some rs := by
    intro ds
    induction ds with
    | nil => intro prev _ _; exact ⟨[], rfl⟩
    | cons d ds ih =>
      intro prev hp hd
      have hd0 := hd d List.mem_cons_self
      obtain ⟨r, er⟩ := h.pushScale_exists (d := prev) (s := 1) (o := d) (by
        by_cases hz : k.weight prev = 0
        · left; simp [hz]
        · right
          have : 0 < k.weight prev := lt_of_le_of_ne hp (Ne.symm hz)
          rw [mul_one]; positivity)
      have hr : 0 ≤ k.weight r := by rw [h.pushScale_weight er, mul_one]; positivity
      obtain ⟨rs, ers⟩ := ih r hr (fun x hx => hd x (List.mem_cons_of_mem _ hx))
      refine ⟨r :: rs, ?_⟩
      rw [Kernel.cumulativeGo, h.data_eq, er]
      exact Option.bind_eq_some_iff.2 ⟨r, rfl, Option.bind_eq_some_iff.2 ⟨rs, ers, rfl⟩⟩
  cases data with
  | nil => exact ⟨[], rfl⟩
  | cons d ds =>
    obtain ⟨rs, ers⟩ := key ds d (hw d List.mem_cons_self)
      (fun x hx => hw x (List.mem_cons_of_mem _ hx))
    refine ⟨d :: rs, ?_⟩
    rw [Kernel.cumulative]
    exact Option.bind_eq_some_iff.2 ⟨rs, ers, rfl⟩

end ordered

end Lawful

end Cmomy
