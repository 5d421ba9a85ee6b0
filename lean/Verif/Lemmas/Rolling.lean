import Verif.Model.Rolling
import Verif.Lemmas.Reduce
import Verif.Spec.Rolling

/-!
# Rolling windows: the incremental state describes the window
-/

set_option linter.unusedSectionVars false

namespace Cmomy

open Spec

theorem scanEmit_spec {σ α β : Type*} {step : σ → α → Option σ} {emit : σ → β} (xs : List α)
    (Inv : ℕ → σ → Prop) (s : σ) (h0 : Inv 0 s)
    (hstep : ∀ i (hi : i < xs.length) s, Inv i s → ∃ s', step s xs[i] = some s' ∧ Inv (i + 1) s') :
    ∃ p, scanEmit step emit xs s = some p ∧ p.1.length = xs.length ∧ Inv xs.length p.2 ∧
      ∀ i, i < xs.length → ∃ s', Inv (i + 1) s' ∧ p.1[i]? = some (emit s') := by
  induction xs generalizing Inv s with
  | nil => exact ⟨([], s), rfl, rfl, h0, fun i hi => absurd hi (by simp)⟩
  | cons a as ih =>
    obtain ⟨s1, e1, i1⟩ := hstep 0 (by simp) s h0
    obtain ⟨p, ep, hl, hf, hrows⟩ := ih (fun i => Inv (i + 1)) s1 i1 (fun i hi s hs => by
      have := hstep (i + 1) (by simpa using hi) s hs
      simpa using this)
    refine ⟨(emit s1 :: p.1, p.2), ?_, by simp [hl], by simpa using hf, ?_⟩
    · simp only [List.getElem_cons_zero] at e1
      simp [scanEmit, e1, ep]
    · intro i hi
      cases i with
      | zero => exact ⟨s1, i1, by simp⟩
      | succ i =>
        obtain ⟨s', hs', e'⟩ := hrows i (by simpa using hi)
        exact ⟨s', hs', by simpa using e'⟩

/-- Mapping the inputs of a scan. -/
theorem scanEmit_map {σ α α' β : Type*} (step : σ → α → Option σ) (step' : σ → α' → Option σ)
    (emit : σ → β) (f : α' → α) (hf : ∀ s a, step s (f a) = step' s a) (xs : List α') (s : σ) :
    scanEmit step emit (xs.map f) s = scanEmit step' emit xs s := by
  induction xs generalizing s with
  | nil => rfl
  | cons a as ih =>
    simp only [List.map_cons, scanEmit, hf]
    congr 1
    funext s'
    rw [ih]

theorem take_succ_drop {α : Type*} (l : List α) (a b : ℕ) (hb : b < l.length) (hab : a ≤ b) :
    (l.take (b + 1)).drop a = (l.take b).drop a ++ [l[b]] := by
  rw [List.take_succ_eq_append_getElem hb, List.drop_append_of_le_length]
  simp only [List.length_take]
  omega

theorem drop_eq_cons {α : Type*} (l : List α) (a b : ℕ) (hb : b ≤ l.length) (hab : a < b) :
    (l.take b).drop a = l[a] :: (l.take b).drop (a + 1) := by
  have : a < (l.take b).length := by simp only [List.length_take]; omega
  rw [List.drop_eq_getElem_cons this, List.getElem_take]

namespace Kernel

variable {K V M ι : Type*} [Field K] [LinearOrder K] [IsStrictOrderedRing K] {k : Kernel K V M}

/-- Number of rows with non-zero weight. -/
def nz (k : Kernel K V M) (l : List M) : ℕ := validCount (l.map k.weight)

theorem nz_nil : nz k [] = 0 := rfl

theorem nz_cons (d : M) (l : List M) :
    nz k (d :: l) = (if k.weight d ≠ 0 then 1 else 0) + nz k l := by
  unfold nz validCount
  rw [List.map_cons, List.countP_cons]
  simp only [decide_eq_true_eq]
  rw [add_comm]

theorem nz_append (l l' : List M) : nz k (l ++ l') = nz k l + nz k l' := by
  simp [nz, validCount]

theorem nz_eq_zero {l : List M} (h : nz k l = 0) : ∀ d ∈ l, k.weight d = 0 := by
  intro d hd
  by_contra hne
  have := List.countP_eq_zero.1 h (k.weight d) (List.mem_map_of_mem hd)
  simp [hne] at this

theorem nz_pos {l : List M} (h : 0 < nz k l) : ∃ d ∈ l, k.weight d ≠ 0 := by
  obtain ⟨w, hw, hne⟩ := List.countP_pos_iff.1 h
  obtain ⟨d, hd, rfl⟩ := List.mem_map.1 hw
  exact ⟨d, hd, by simpa using hne⟩

theorem nz_of_all_zero {l : List M} (h : ∀ d ∈ l, k.weight d = 0) : nz k l = 0 := by
  refine List.countP_eq_zero.2 ?_
  intro w hw
  obtain ⟨d, hd, rfl⟩ := List.mem_map.1 hw
  simp [h d hd]

variable (h : Lawful k ι)

/-- The state describes the rows `l`. -/
def Good (l : List M) (s : RollState M) : Prop :=
  h.raw s.dummy = h.rsum l ∧ s.count = nz k l

include h

theorem Good.weight {l : List M} {s : RollState M} (g : Good h l s) :
    k.weight s.dummy = Lawful.wsumD k l := by
  rw [← h.raw_i0, g.1, h.rsum_i0]

theorem wsumD_nonneg {l : List M} (hl : ∀ d ∈ l, 0 ≤ k.weight d) : 0 ≤ Lawful.wsumD k l := by
  refine List.sum_nonneg ?_
  intro x hx
  obtain ⟨d, hd, rfl⟩ := List.mem_map.1 hx
  exact hl d hd

theorem wsumD_cons (d : M) (l : List M) :
    Lawful.wsumD k (d :: l) = k.weight d + Lawful.wsumD k l := by
  simp [Lawful.wsumD]

theorem wsumD_append (l l' : List M) :
    Lawful.wsumD k (l ++ l') = Lawful.wsumD k l + Lawful.wsumD k l' := by
  simp [Lawful.wsumD]

theorem wsumD_pos {l : List M} (hl : ∀ d ∈ l, 0 ≤ k.weight d) (hn : 0 < nz k l) :
    0 < Lawful.wsumD k l := by
  refine lt_of_le_of_ne (wsumD_nonneg h hl) fun hz => ?_
  obtain ⟨d, hd, hne⟩ := nz_pos hn
  exact hne (Lawful.weights_zero_of_wsumD hl hz.symm d hd)

theorem rollAdd_good {l : List M} {d : M} (hl : ∀ d ∈ l, 0 ≤ k.weight d) (hd : 0 ≤ k.weight d)
    {s : RollState M} (g : Good h l s) :
    ∃ s', k.rollAdd s d = some s' ∧ Good h (l ++ [d]) s' := by
  unfold rollAdd
  by_cases h0 : k.weight d = 0
  · refine ⟨s, by simp [h0], ?_, ?_⟩
    · rw [g.1, h.rsum_append, h.rsum_cons, h.rsum_nil, h.raw_of_weight_zero h0]; simp
    · rw [g.2, nz_append, nz_cons, nz_nil]; simp [h0]
  · have hpos : 0 < k.weight d := lt_of_le_of_ne hd (Ne.symm h0)
    have hw := wsumD_nonneg h hl
    rw [← g.weight] at hw
    obtain ⟨m, em⟩ := h.pushScale_exists (d := d) (s := 1) (o := s.dummy)
      (Or.inr (by rw [mul_one]; exact (add_pos_of_nonneg_of_pos hw hpos).ne'))
    have ed : k.pushData d s.dummy = some m := by rw [h.data_eq]; exact em
    refine ⟨⟨m, s.count + 1⟩, by simp [h0, ed], ?_, ?_⟩
    · simp only [h.pushScale_raw em, g.1, one_smul]
      rw [h.rsum_append, h.rsum_cons, h.rsum_nil, add_zero]
    · simp only [g.2, nz_append, nz_cons, nz_nil]; simp [h0]

theorem rollStep_good {l : List M} {old new : M} (hl : ∀ d ∈ l, 0 ≤ k.weight d)
    (hn : 0 ≤ k.weight new) {s : RollState M}
    {l' : List M} (hll : l ++ [new] = old :: l') (g : Good h l s) :
    ∃ s', k.rollStep s (new, old) = some s' ∧ Good h l' s' := by
  have hl' : ∀ d ∈ l', 0 ≤ k.weight d := by
    intro d hd
    have : d ∈ l ++ [new] := by rw [hll]; exact List.mem_cons_of_mem _ hd
    rcases List.mem_append.1 this with h1 | h1
    · exact hl d h1
    · rw [List.mem_singleton.1 h1]; exact hn
  obtain ⟨s1, e1, g1⟩ := rollAdd_good h hl hn g
  rw [hll] at g1
  have key : k.rollStep s (new, old) =
      if k.weight old ≠ 0 then
        if k.weight old < k.weight s1.dummy then do
          let m ← k.pushScale old (-1) s1.dummy
          return ⟨m, s1.count - 1⟩
        else return ⟨k.zero, s1.count - 1⟩
      else return s1 := by
    unfold rollStep
    simp only [e1]
    rfl
  rw [key]
  have hw1 : k.weight s1.dummy = k.weight old + Lawful.wsumD k l' := by
    rw [g1.weight, wsumD_cons h]
  by_cases h0 : k.weight old = 0
  · refine ⟨s1, by simp [h0], ?_, ?_⟩
    · rw [g1.1, h.rsum_cons, h.raw_of_weight_zero h0, zero_add]
    · rw [g1.2, nz_cons]; simp [h0]
  · have hcount : s1.count - 1 = nz k l' := by
      rw [g1.2, nz_cons, if_pos h0]; push_cast; ring
    by_cases hlt : k.weight old < k.weight s1.dummy
    · have hne : k.weight s1.dummy + k.weight old * (-1) ≠ 0 := by
        rw [mul_neg_one, ← sub_eq_add_neg]; exact (sub_pos.2 hlt).ne'
      obtain ⟨m, em⟩ := h.pushScale_exists (d := old) (s := -1) (o := s1.dummy) (Or.inr hne)
      refine ⟨⟨m, s1.count - 1⟩, by simp [h0, hlt, em], ?_, hcount⟩
      simp only [h.pushScale_raw em, g1.1, h.rsum_cons]
      simp
    · have hz : Lawful.wsumD k l' = 0 := by
        have := wsumD_nonneg h hl'
        rw [hw1] at hlt
        refine le_antisymm ?_ this
        linarith [not_lt.1 hlt]
      have hall := Lawful.weights_zero_of_wsumD hl' hz
      refine ⟨⟨k.zero, s1.count - 1⟩, by simp [h0, hlt], ?_, hcount⟩
      simp only [h.raw_zero]
      unfold Lawful.rsum
      symm
      refine List.sum_eq_zero ?_
      intro x hx
      obtain ⟨d, hd, rfl⟩ := List.mem_map.1 hx
      exact h.raw_of_weight_zero (hall d hd)

/-- The kernel, all rows. -/
theorem rollingKernel_spec (window : ℕ) (minCount : ℤ) (data : List M)
    (hd : ∀ d ∈ data, 0 ≤ k.weight d) :
    ∃ rows, k.rollingKernel window minCount data = some rows ∧ rows.length = data.length ∧
      ∀ i, i < data.length → ∃ s, Good h (windowRows window i data) s ∧
        rows[i]? = some (rollEmit minCount s) := by
  have hnn : ∀ a b, ∀ d ∈ (data.take b).drop a, 0 ≤ k.weight d := fun a b d hm =>
    hd d (List.mem_of_mem_take (List.mem_of_mem_drop hm))
  obtain ⟨p, ep, hl, hf, hrows⟩ := scanEmit_spec (step := k.rollAdd) (emit := rollEmit minCount)
    (data.take window) (fun i s => Good h (data.take i) s) ⟨k.zero, 0⟩
    ⟨by simp [h.raw_zero, Lawful.rsum], by simp [nz_nil]⟩ (by
      intro i hi s hs
      have hi' : i < data.length := by simp only [List.length_take] at hi; omega
      have := rollAdd_good h (fun d hm => hd d (List.mem_of_mem_take hm))
        (hd _ (List.getElem_mem hi')) hs
      rw [← List.take_succ_eq_append_getElem hi'] at this
      simpa using this)
  have hf' : Good h ((data.take (window + 0)).drop 0) p.2 := by
    have e : data.take (data.take window).length = data.take window := by
      rw [List.length_take]
      by_cases hw : window ≤ data.length
      · rw [min_eq_left hw]
      · rw [min_eq_right (by omega), List.take_length, List.take_of_length_le (by omega)]
    rw [e] at hf
    simpa using hf
  obtain ⟨q, eq, hl2, -, hrows2⟩ := scanEmit_spec (step := k.rollStep) (emit := rollEmit minCount)
    ((data.drop window).zip data)
    (fun i s => Good h ((data.take (window + i)).drop i) s) p.2 hf' (by
      intro i hi s hs
      have hi' : window + i < data.length := by
        simp only [List.length_zip, List.length_drop] at hi; omega
      have hget : ((data.drop window).zip data)[i] = (data[window + i], data[i]) := by
        simp
      rw [hget]
      refine rollStep_good h (hnn _ _) (hd _ (List.getElem_mem _)) ?_ hs
      rw [← take_succ_drop data i (window + i) hi' (by omega),
        drop_eq_cons data i (window + i + 1) (by omega) (by omega)]
      rfl)
  refine ⟨p.1 ++ q.1, ?_, ?_, ?_⟩
  · unfold rollingKernel
    simp [ep, eq]
  · rw [List.length_append, hl, hl2]
    simp only [List.length_zip, List.length_drop, List.length_take]
    omega
  · intro i hi
    by_cases hw : i < window
    · have hi' : i < (data.take window).length := by simp only [List.length_take]; omega
      obtain ⟨s, gs, es⟩ := hrows i hi'
      refine ⟨s, ?_, ?_⟩
      · rw [windowRows, show i + 1 - window = 0 by omega]
        exact gs
      · rw [List.getElem?_append_left (by omega)]
        exact es
    · obtain ⟨j, rfl⟩ : ∃ j, i = window + j := ⟨i - window, by omega⟩
      have hj : j < ((data.drop window).zip data).length := by
        simp only [List.length_zip, List.length_drop]; omega
      obtain ⟨s, gs, es⟩ := hrows2 j hj
      refine ⟨s, ?_, ?_⟩
      · rw [windowRows, show window + j + 1 - window = j + 1 by omega,
          show window + j + 1 = window + (j + 1) by omega]
        exact gs
      · have hlp : p.1.length = window := by
          rw [hl, List.length_take]; omega
        rw [List.getElem?_append_right (by omega), hlp, show window + j - window = j by omega]
        exact es

/-- A described, non-empty window, as an array. -/
theorem Good.eqv_reduce {l : List M} (hl : ∀ d ∈ l, 0 ≤ k.weight d) {s : RollState M}
    (g : Good h l s) (hn : 0 < nz k l) :
    ∃ r, k.reduceDataFromZero l = some r ∧ h.Eqv s.dummy r := by
  obtain ⟨r, e⟩ := h.reduceData_exists (data := l) (o := k.zero) (by rw [h.weight_zero]) hl
  refine ⟨r, e, h.eqv_of_raw ?_ ?_⟩
  · rw [g.weight]; exact (wsumD_pos h hl hn).ne'
  · rw [g.1, h.reduceData_raw e, h.raw_zero, zero_add]

theorem rollingKernel_row (window : ℕ) (minCount : ℤ) (hm : 1 ≤ minCount) (data : List M)
    (hd : ∀ d ∈ data, 0 ≤ k.weight d) :
    ∃ rows, k.rollingKernel window minCount data = some rows ∧ rows.length = data.length ∧
      ∀ i, i < data.length →
        (minCount ≤ nz k (windowRows window i data) →
          ∃ r r', rows[i]? = some (some r) ∧
            k.reduceDataFromZero (windowRows window i data) = some r' ∧ h.Eqv r r') ∧
        ((nz k (windowRows window i data) : ℤ) < minCount → rows[i]? = some none) := by
  obtain ⟨rows, e, hl, hrows⟩ := rollingKernel_spec h window minCount data hd
  refine ⟨rows, e, hl, fun i hi => ?_⟩
  obtain ⟨s, g, es⟩ := hrows i hi
  constructor
  · intro hc
    have hpos : 0 < nz k (windowRows window i data) := by omega
    obtain ⟨r', er, eqv⟩ := g.eqv_reduce h
      (fun d hm => hd d (List.mem_of_mem_take (List.mem_of_mem_drop hm))) hpos
    refine ⟨s.dummy, r', ?_, er, eqv⟩
    rw [es, rollEmit, if_pos (by rw [g.2]; exact hc)]
  · intro hc
    rw [es, rollEmit, if_neg (by rw [g.2]; omega)]

theorem rollingValsKernel_eq (window : ℕ) (minCount : ℤ) (xs : List (V × K)) :
    k.rollingValsKernel window minCount xs =
      k.rollingKernel window minCount (xs.map (fun p => k.ofVal p.1 p.2)) := by
  have ev : ∀ (p : V × K) o, k.pushData (k.ofVal p.1 p.2) o = k.pushVal p.1 p.2 o := by
    intro p o; rw [h.pushVal_eq, h.data_eq]
  have e1 : ∀ s (p : V × K), k.rollAdd s (k.ofVal p.1 p.2) = k.rollAddVal s p := by
    intro s p
    unfold rollAdd rollAddVal
    rw [h.weight_ofVal, ev]
  have e2 : ∀ s (p : (V × K) × (V × K)),
      k.rollStep s (k.ofVal p.1.1 p.1.2, k.ofVal p.2.1 p.2.2) = k.rollStepVal s p := by
    intro s p
    unfold rollStep rollStepVal
    have hneg : ∀ o, k.pushScale (k.ofVal p.2.1 p.2.2) (-1) o = k.pushVal p.2.1 (-p.2.2) o := by
      intro o; rw [← h.val_eq, mul_neg_one]
    simp only [h.weight_ofVal, e1, hneg]
  unfold rollingValsKernel rollingKernel
  rw [← List.map_take, ← List.map_drop, scanEmit_map _ _ _ _ e1]
  have hz : ((xs.drop window).map (fun p => k.ofVal p.1 p.2)).zip
      (xs.map (fun p => k.ofVal p.1 p.2)) =
      ((xs.drop window).zip xs).map (fun p => (k.ofVal p.1.1 p.1.2, k.ofVal p.2.1 p.2.2)) := by
    rw [List.zip_map]; rfl
  rw [hz]
  congr 1
  funext first
  rw [scanEmit_map _ _ _ _ e2]

omit h [LinearOrder K] [IsStrictOrderedRing K] in
theorem centerShift_toNat (window : ℕ) : (-centerShift window).toNat = (window - 1) / 2 := by
  unfold centerShift; omega

omit h in
theorem nz_zeros (h : Lawful k ι) (l : List M) (q : ℕ) :
    nz k (l ++ List.replicate q k.zero) = nz k l := by
  rw [nz_append, nz_of_all_zero (l := List.replicate q k.zero), add_zero]
  intro d hd
  rw [List.eq_of_mem_replicate hd, h.weight_zero]

theorem reduce_zeros (l : List M) (q : ℕ) :
    k.reduceDataFromZero (l ++ List.replicate q k.zero) = k.reduceDataFromZero l := by
  unfold reduceDataFromZero
  rw [h.reduceData_append]
  have : ∀ o, k.reduceData (List.replicate q k.zero) o = some o := fun o =>
    h.reduceData_of_all_zero (fun d hd => by rw [List.eq_of_mem_replicate hd, h.weight_zero]) o
  rw [show k.reduceData (List.replicate q k.zero) = some from funext this]
  cases k.reduceData l k.zero <;> rfl

omit h [LinearOrder K] [IsStrictOrderedRing K] in
/-- A window of the padded data is the centred window followed by zeros. -/
theorem windowRows_pad (window : ℕ) (hw : 1 ≤ window) (data : List M) (i : ℕ)
    (hi : i < data.length) (z : M) :
    ∃ q, windowRows window (i + (window - 1) / 2)
        (data ++ List.replicate ((window - 1) / 2) z) =
      centredRows window i data ++ List.replicate q z := by
  unfold windowRows centredRows
  have e : i + (window - 1) / 2 + 1 - window = i - window / 2 := by omega
  rw [e]
  by_cases hl : i + (window - 1) / 2 + 1 ≤ data.length
  · exact ⟨0, by rw [List.take_append_of_le_length hl]; simp⟩
  · refine ⟨i + (window - 1) / 2 + 1 - data.length, ?_⟩
    rw [List.take_append, List.take_of_length_le (by omega), List.take_replicate,
      min_eq_left (by omega), List.drop_append_of_le_length (by omega)]

theorem rollingData_rows (window : ℕ) (minPeriods : Option ℤ) (data : List M)
    (hd : ∀ d ∈ data, 0 ≤ k.weight d) :
    ∃ rows, k.rollingData window minPeriods false data = some rows ∧
      RowsSpec data.length
        (fun i => max (minPeriods.getD window) 1 ≤ (nz k (windowRows window i data) : ℤ))
        (fun i r => ∃ r', k.reduceDataFromZero (windowRows window i data) = some r' ∧ h.Eqv r r')
        rows := by
  obtain ⟨rows, e, hl, hrow⟩ := rollingKernel_row h window (max (minPeriods.getD window) 1)
    (le_max_right _ _) data hd
  refine ⟨rows, by simp [rollingData, e], hl, fun i hi => ?_⟩
  obtain ⟨h1, h2⟩ := hrow i hi
  by_cases hc : max (minPeriods.getD window) 1 ≤ (nz k (windowRows window i data) : ℤ)
  · obtain ⟨r, r', a, b, c⟩ := h1 hc
    exact Or.inl ⟨hc, r, a, r', b, c⟩
  · exact Or.inr ⟨hc, h2 (not_le.1 hc)⟩

theorem rollingData_centred (window : ℕ) (hw : 1 ≤ window) (minPeriods : Option ℤ) (data : List M)
    (hd : ∀ d ∈ data, 0 ≤ k.weight d) :
    ∃ rows, k.rollingData window minPeriods true data = some rows ∧
      RowsSpec data.length
        (fun i => max (minPeriods.getD window) 1 ≤ (nz k (centredRows window i data) : ℤ))
        (fun i r => ∃ r', k.reduceDataFromZero (centredRows window i data) = some r' ∧ h.Eqv r r')
        rows := by
  obtain ⟨rows, e, hl, hrow⟩ := rollingKernel_row h window (max (minPeriods.getD window) 1)
    (le_max_right _ _) (data ++ List.replicate ((window - 1) / 2) k.zero) (by
      intro d hm
      rcases List.mem_append.1 hm with hm | hm
      · exact hd d hm
      · rw [List.eq_of_mem_replicate hm, h.weight_zero])
  refine ⟨rows.drop ((window - 1) / 2), by simp [rollingData, centerShift_toNat, e], ?_,
    fun i hi => ?_⟩
  · rw [List.length_drop, hl, List.length_append, List.length_replicate]; omega
  · obtain ⟨q, hq⟩ := windowRows_pad window hw data i hi k.zero
    obtain ⟨h1, h2⟩ := hrow (i + (window - 1) / 2) (by
      rw [List.length_append, List.length_replicate]; omega)
    rw [hq, nz_zeros h] at h1 h2
    rw [reduce_zeros h] at h1
    rw [List.getElem?_drop, add_comm ((window - 1) / 2) i]
    by_cases hc : max (minPeriods.getD window) 1 ≤ (nz k (centredRows window i data) : ℤ)
    · obtain ⟨r, r', a, b, c⟩ := h1 hc
      exact Or.inl ⟨hc, r, a, r', b, c⟩
    · exact Or.inr ⟨hc, h2 (not_le.1 hc)⟩

theorem rollingVals_eq (x0 : V) (hx0 : k.ofVal x0 0 = k.zero) (window : ℕ)
    (minPeriods : Option ℤ) (center : Bool) (xs : List (V × K)) :
    k.rollingVals x0 window minPeriods center xs =
      k.rollingData window minPeriods center (xs.map (fun p => k.ofVal p.1 p.2)) := by
  unfold rollingVals rollingData
  simp only [rollingValsKernel_eq h, List.map_append, List.map_replicate, hx0]

end Kernel

end Cmomy
