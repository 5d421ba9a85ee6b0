import Verif.Lemmas.Indexed
import Verif.Lemmas.Factor
import Verif.Lemmas.Reduce

/-!
# Indexed against grouped reduction, generic part
-/

set_option linter.unusedSectionVars false

namespace Cmomy

open Spec

theorem slice_map {α β : Type*} (f : α → β) (l : List α) (a b : ℕ) :
    slice (l.map f) a b = (slice l a b).map f := by
  simp [slice]

theorem selectScaled_ones {α K : Type*} [One K] (data : List α) (index : List ℤ) (a b : ℤ) :
    selectScaled data index (List.replicate index.length (1 : K)) a b =
      (selectRows data index a b).map (fun d => ((1 : K), d)) := by
  unfold selectScaled selectRows
  have : index.zip (List.replicate index.length (1 : K)) = index.map (fun i => (i, (1 : K))) := by
    apply List.ext_getElem <;> simp
  rw [this, slice_map, List.filterMap_map, List.map_filterMap]
  rfl

/-- Rows of a label are the rows at the positions of that label. -/
theorem filterMap_positions {α : Type*} (p : ℤ → Bool) (labels : List ℤ) (data : List α)
    (hl : labels.length = data.length) :
    (positionsWhere p labels).filterMap (fun i => data[i]?) =
      (labels.zip data).filterMap (fun q => if p q.1 then some q.2 else none) := by
  unfold positionsWhere
  induction labels generalizing data with
  | nil => rfl
  | cons l labels ih =>
    cases data with
    | nil => simp at hl
    | cons d data =>
      rw [List.length_cons, List.range_succ_eq_map, List.filter_cons, List.filter_map,
        List.zip_cons_cons, List.filterMap_cons]
      have h1 : ((fun i => ((l :: labels)[i]?).any p) ∘ Nat.succ) =
          (fun i => (labels[i]?).any p) := by
        funext i; simp
      have h2 : ((fun i => (d :: data)[i]?) ∘ Nat.succ) = (fun i => data[i]?) := by
        funext i; simp
      have ih := ih data (by simpa using hl)
      by_cases hp : p l = true
      · simp only [List.getElem?_cons_zero, Option.any_some, hp, if_true, List.filterMap_cons, h1,
          List.filterMap_map, h2, ih]
      · simp only [List.getElem?_cons_zero, Option.any_some, hp, if_false, h1, Bool.false_eq_true,
          List.filterMap_map, h2, ih]

theorem groupRows_positions {α : Type*} (g : ℤ) (labels : List ℤ) (data : List α)
    (hl : labels.length = data.length) :
    (positionsWhere (fun l => decide (l = g)) labels).filterMap (fun i => data[i]?) =
      groupRows g labels data := by
  rw [filterMap_positions _ _ _ hl]
  unfold groupRows
  congr 1
  funext q
  by_cases h : q.1 = g <;> simp [h]

/-- A table with at least one sample in every group is accepted by the validation. -/
theorem codesTable_accepted (codes : List ℤ) (G : ℕ)
    (hG : ∀ v : ℤ, (v ∈ codes ∧ 0 ≤ v) ↔ (0 ≤ v ∧ v < G)) (idx : List ℕ)
    (hp : idx.Perm (Factor.keptPositions codes)) :
    Indexed.validateIndex codes.length (idx.map (fun i : ℕ => (i : ℤ)))
      (((List.range G).map (fun g : ℕ =>
        codes.countP (fun c => decide (0 ≤ c ∧ c < (g : ℤ))))).map (fun i : ℕ => (i : ℤ)))
      (((List.range G).map (fun g : ℕ =>
        codes.countP (fun c => decide (0 ≤ c ∧ c ≤ (g : ℤ))))).map (fun i : ℕ => (i : ℤ))) =
      .ok () := by
  rw [Indexed.validateIndex_iff]
  have hlen : idx.length = codes.countP (fun c => decide (0 ≤ c)) := by
    have := Factor.filter_eq_map_kept codes
    rw [hp.length_eq, List.countP_eq_length_filter, this, List.length_map]
  have hle : ∀ g : ℕ, codes.countP (fun c => decide (0 ≤ c ∧ c < (g : ℤ))) ≤
      codes.countP (fun c => decide (0 ≤ c ∧ c ≤ (g : ℤ))) := by
    intro g
    refine List.countP_mono_left fun c _ h => ?_
    simp only [decide_eq_true_eq] at h ⊢
    omega
  have hstop : ∀ g : ℕ, codes.countP (fun c => decide (0 ≤ c ∧ c ≤ (g : ℤ))) ≤ idx.length := by
    intro g
    rw [hlen]
    refine List.countP_mono_left fun c _ h => ?_
    simp only [decide_eq_true_eq] at h ⊢
    omega
  have hlt : ∀ g : ℕ, g < G → codes.countP (fun c => decide (0 ≤ c ∧ c < (g : ℤ))) <
      codes.countP (fun c => decide (0 ≤ c ∧ c ≤ (g : ℤ))) := by
    intro g hg
    have hm := ((hG g).2 ⟨by omega, by omega⟩).1
    have h1 : codes.countP (fun c => decide (0 ≤ c ∧ c ≤ (g : ℤ))) =
        codes.countP (fun c => decide (0 ≤ c ∧ c < (g : ℤ))) + codes.count (g : ℤ) := by
      clear hm hlen hle hstop hp hG
      induction codes with
      | nil => rfl
      | cons c l ih =>
        rw [List.countP_cons, List.countP_cons, List.count_cons, ih]
        rcases lt_trichotomy c (g : ℤ) with h | h | h
        · have h2 := h.le
          have h3 := h.ne
          simp only [h, h2, and_true, beq_iff_eq, h3, if_false]
          omega
        · subst h
          simp
          omega
        · have h2 : ¬c ≤ g := by omega
          have h3 : ¬c < g := by omega
          have h4 : c ≠ g := by omega
          simp [h2, h3, h4]
    have h2 : 0 < codes.count (g : ℤ) := List.count_pos_iff.2 hm
    omega
  refine ⟨by simp, ?_, ?_⟩
  · intro p hp
    rw [List.map_map, List.map_map, List.zip_map', List.mem_map] at hp
    obtain ⟨g, -, rfl⟩ := hp
    simp only [Function.comp_apply]
    have := hle g
    omega
  · by_cases h0 : G = 0
    · left
      subst h0
      refine ⟨?_, by simp, by simp⟩
      have : idx.length = 0 := by
        rw [hlen, List.countP_eq_zero]
        intro c hc
        simp only [decide_eq_true_eq]
        intro h
        have := (hG c).1 ⟨hc, h⟩
        omega
      rw [List.length_eq_zero_iff.1 this]
      rfl
    · right
      have hpos := hlt 0 (by omega)
      have := hstop 0
      refine ⟨?_, by simp [h0], by simp [h0], ?_, ?_, ?_⟩
      · intro h
        have := congrArg List.length h
        simp only [List.length_map, List.length_nil] at this
        omega
      · intro i hi
        obtain ⟨j, hj, rfl⟩ := List.mem_map.1 hi
        have := (Factor.mem_keptPositions.1 (hp.mem_iff.1 hj)).1
        omega
      · intro a ha
        rw [List.map_map] at ha
        obtain ⟨g, hg, rfl⟩ := List.mem_map.1 ha
        have := hlt g (List.mem_range.1 hg)
        have := hstop g
        simp only [Function.comp_apply, List.length_map]
        omega
      · intro a ha
        rw [List.map_map] at ha
        obtain ⟨g, hg, rfl⟩ := List.mem_map.1 ha
        have := hstop g
        simp only [Function.comp_apply, List.length_map]
        omega

namespace Lawful

variable {K V M ι : Type*} [Field K] [LinearOrder K] [IsStrictOrderedRing K] {k : Kernel K V M}
  (h : Lawful k ι)
include h

/-- One row of the indexed kernel with unit scales. -/
theorem copyFold_reduce (l l' : List M) (hp : l.Perm l') (hl : ∀ d ∈ l, 0 ≤ k.weight d) :
    ∃ r r', Indexed.copyFold k (l.map (fun d => ((1 : K), d))) = some r ∧
      k.reduceDataFromZero l' = some r' ∧ k.weight r = k.weight r' ∧
      (k.weight r' ≠ 0 → h.Eqv r r') ∧ (l = [] → r = k.zero) := by
  obtain ⟨r, e⟩ := Indexed.copyFold_exists h (l := l.map (fun d => ((1 : K), d))) (by
    intro p hp
    obtain ⟨d, hd, rfl⟩ := List.mem_map.1 hp
    simpa using hl d hd)
  obtain ⟨r', e'⟩ := h.reduceData_exists (data := l') (o := k.zero) (by rw [h.weight_zero])
    (fun d hd => hl d (hp.mem_iff.2 hd))
  have hraw : h.raw r = h.raw r' := by
    rw [Indexed.copyFold_raw h e, h.rtot_map_one, h.reduceData_raw e', h.raw_zero, zero_add,
      h.rsum_perm hp]
  have hw := h.weight_eq_of_raw hraw
  refine ⟨r, r', e, e', hw, fun hne => h.eqv_of_raw (hw ▸ hne) hraw, ?_⟩
  rintro rfl
  cases e
  rfl

/-- Rows of `reduce_data_indexed` without scales. -/
theorem indexed_rows (data : List M) (hw : ∀ d ∈ data, 0 ≤ k.weight d) (index start stop : List ℤ)
    (hv : Indexed.validateIndex data.length index start stop = .ok ()) :
    ∃ rows : List M, Indexed.reduceDataIndexed k data index start stop none =
        .ok (rows.map some) ∧ rows.length = start.length ∧
      List.Forall₂ (fun (p : ℤ × ℤ) r =>
        ∃ r', k.reduceDataFromZero (selectRows data index p.1 p.2) = some r' ∧
          k.weight r = k.weight r' ∧ (k.weight r' ≠ 0 → h.Eqv r r') ∧
          (p.1 = p.2 → r = k.zero)) (start.zip stop) rows := by
  have hacc := Indexed.accepted_of_validate hv
  rw [Indexed.reduceDataIndexed_eq k data index start stop none hv (by simp)]
  have hsel : ∀ a b : ℤ, ∀ d ∈ selectRows data index a b, 0 ≤ k.weight d := by
    intro a b d hd
    unfold selectRows at hd
    obtain ⟨i, -, hi⟩ := List.mem_filterMap.1 hd
    exact hw d (List.mem_of_getElem? hi)
  have key : ∀ l : List (ℤ × ℤ), ∃ rows : List M,
      l.map (fun p => Indexed.copyFold k (selectScaled data index
        ((none : Option (List K)).getD (List.replicate index.length 1)) p.1 p.2)) =
        rows.map some ∧
      List.Forall₂ (fun (p : ℤ × ℤ) r =>
        ∃ r', k.reduceDataFromZero (selectRows data index p.1 p.2) = some r' ∧
          k.weight r = k.weight r' ∧ (k.weight r' ≠ 0 → h.Eqv r r') ∧
          (p.1 = p.2 → r = k.zero)) l rows := by
    intro l
    induction l with
    | nil => exact ⟨[], rfl, List.Forall₂.nil⟩
    | cons p l ih =>
      obtain ⟨rows, e, hr⟩ := ih
      obtain ⟨r, r', e1, e2, e3, e4, e5⟩ := h.copyFold_reduce _ _ (List.Perm.refl _)
        (hsel p.1 p.2)
      refine ⟨r :: rows, ?_, List.Forall₂.cons ⟨r', e2, e3, e4, ?_⟩ hr⟩
      · rw [List.map_cons, List.map_cons, e, Option.getD_none, selectScaled_ones, e1]
      · intro he
        refine e5 ?_
        unfold selectRows slice
        rw [he]
        simp
  obtain ⟨rows, e, hr⟩ := key (start.zip stop)
  refine ⟨rows, by rw [e], ?_, hr⟩
  rw [← hr.length_eq, List.length_zip, ← hacc.len, min_self]

/-- Indexed reduction over the tables made from codes against grouped reduction by the codes. -/
theorem indexed_eqv_grouped {argsort : List ℤ → List ℕ} (ha : IsArgsort argsort)
    (codes : List ℤ) (G : ℕ) (hG : ∀ v : ℤ, (v ∈ codes ∧ 0 ≤ v) ↔ (0 ≤ v ∧ v < G))
    (data : List M) (hl : codes.length = data.length) (hne : codes ≠ [])
    (hw : ∀ d ∈ data, 0 ≤ k.weight d) :
    ∃ rows rows' : List M,
      Indexed.reduceDataIndexed k data
        ((Factor.codesToIndex argsort codes).1.map (fun i : ℕ => (i : ℤ)))
        ((Factor.codesToIndex argsort codes).2.1.map (fun i : ℕ => (i : ℤ)))
        ((Factor.codesToIndex argsort codes).2.2.map (fun i : ℕ => (i : ℤ))) none =
          .ok (rows.map some) ∧
      k.reduceDataGrouped data codes (some G) = .ok (rows'.map some) ∧
      rows.length = G ∧
      List.Forall₂ (fun r r' => k.weight r = k.weight r' ∧ (k.weight r' ≠ 0 → h.Eqv r r'))
        rows rows' := by
  obtain ⟨idx, hp, hs, e, hslice⟩ := Factor.codesToIndex_spec ha codes G hG
  have hv := codesTable_accepted codes G hG idx hp
  rw [hl] at hv
  rw [e]
  simp only
  have hgr : k.reduceDataGrouped data codes (some G) = .ok ((List.range G).map
      (fun g : ℕ => k.reduceDataFromZero (groupRows g codes data))) := by
    unfold Kernel.reduceDataGrouped
    rw [if_neg (not_not.2 hl)]
    cases hm : codes.max? with
    | none => exact absurd (by simpa using hm) hne
    | some m =>
      refine groupedKernel_rows k data codes G hm ?_
      by_cases h0 : 0 ≤ m
      · exact ((hG m).1 ⟨max?_mem hm, h0⟩).2
      · omega
  rw [hgr, Indexed.reduceDataIndexed_eq k data _ _ _ none hv (by simp)]
  rw [List.map_map, List.map_map, List.zip_map', List.map_map]
  have key : ∀ l : List ℕ, ∃ rows rows' : List M,
      l.map ((fun p : ℤ × ℤ => Indexed.copyFold k (selectScaled data
        (idx.map (fun i : ℕ => (i : ℤ))) ((none : Option (List K)).getD
          (List.replicate (idx.map (fun i : ℕ => (i : ℤ))).length 1)) p.1 p.2)) ∘
        fun g : ℕ => (((fun i : ℕ => (i : ℤ)) ∘ fun g : ℕ =>
          codes.countP (fun c => decide (0 ≤ c ∧ c < (g : ℤ)))) g,
          ((fun i : ℕ => (i : ℤ)) ∘ fun g : ℕ =>
          codes.countP (fun c => decide (0 ≤ c ∧ c ≤ (g : ℤ)))) g)) = rows.map some ∧
      l.map (fun g : ℕ => k.reduceDataFromZero (groupRows g codes data)) = rows'.map some ∧
      rows.length = l.length ∧
      List.Forall₂ (fun r r' => k.weight r = k.weight r' ∧ (k.weight r' ≠ 0 → h.Eqv r r'))
        rows rows' := by
    intro l
    induction l with
    | nil => exact ⟨[], [], rfl, rfl, rfl, List.Forall₂.nil⟩
    | cons g l ih =>
      obtain ⟨rows, rows', e1, e2, e3, e4⟩ := ih
      have hsel : (selectRows data (idx.map (fun i : ℕ => (i : ℤ)))
          ((codes.countP (fun c => decide (0 ≤ c ∧ c < (g : ℤ))) : ℕ) : ℤ)
          ((codes.countP (fun c => decide (0 ≤ c ∧ c ≤ (g : ℤ))) : ℕ) : ℤ)).Perm
          (groupRows (g : ℤ) codes data) := by
        unfold selectRows
        rw [Int.toNat_natCast, Int.toNat_natCast, slice_map, hslice g, List.filterMap_map]
        rw [← groupRows_positions _ _ _ hl]
        refine List.Perm.filterMap _ ((hp.filter _).trans (List.Perm.of_eq ?_))
        unfold positionsWhere Factor.keptPositions
        rw [List.filter_filter]
        refine List.filter_congr fun i hi => ?_
        have hi := List.mem_range.1 hi
        simp only [Factor.codeAt, hi, List.getElem?_eq_getElem, Option.getD_some, Option.any_some]
        rw [Bool.eq_iff_iff]
        simp only [Bool.and_eq_true, decide_eq_true_eq]
        omega
      obtain ⟨r, r', f1, f2, f3, f4, -⟩ := h.copyFold_reduce _ _ hsel (by
        intro d hd
        unfold selectRows at hd
        obtain ⟨i, -, hi⟩ := List.mem_filterMap.1 hd
        exact hw d (List.mem_of_getElem? hi))
      refine ⟨r :: rows, r' :: rows', ?_, ?_, by simp [e3], List.Forall₂.cons ⟨f3, f4⟩ e4⟩
      · rw [List.map_cons, List.map_cons, e1]
        simp only [Function.comp_apply, Option.getD_none]
        rw [selectScaled_ones, f1]
      · rw [List.map_cons, List.map_cons, e2, f2]
  obtain ⟨rows, rows', e1, e2, e3, e4⟩ := key (List.range G)
  exact ⟨rows, rows', by rw [e1], by rw [e2], by simpa using e3, e4⟩

/-- Reducing the rows of a grouped reduction is reducing the kept samples. -/
theorem grouped_then_reduce (labels : List ℤ) (data : List M) (n : ℕ)
    (hn : ∀ l ∈ labels, l < n) (hw : ∀ d ∈ data, 0 ≤ k.weight d) :
    ∃ rows : List M, (List.range n).map (fun g : ℕ =>
        k.reduceDataFromZero (groupRows g labels data)) = rows.map some ∧
      ∃ r r', k.reduceDataFromZero rows = some r ∧
        k.reduceDataFromZero (keptRows labels data) = some r' ∧ h.Eqv r r' := by
  have hg : ∀ g : ℤ, ∀ d ∈ groupRows g labels data, 0 ≤ k.weight d := by
    intro g d hd
    unfold groupRows at hd
    obtain ⟨p, hp, e⟩ := List.mem_filterMap.1 hd
    split_ifs at e
    cases e
    exact hw _ (List.of_mem_zip (a := p.1) (b := p.2) hp).2
  have hk : ∀ d ∈ keptRows labels data, 0 ≤ k.weight d := by
    intro d hd
    unfold keptRows at hd
    obtain ⟨p, hp, e⟩ := List.mem_filterMap.1 hd
    split_ifs at e
    cases e
    exact hw _ (List.of_mem_zip (a := p.1) (b := p.2) hp).2
  have key : ∀ l : List ℕ, ∃ rows : List M, l.map (fun g : ℕ =>
        k.reduceDataFromZero (groupRows g labels data)) = rows.map some ∧
      (∀ d ∈ rows, 0 ≤ k.weight d) ∧
      h.rsum rows = (l.map (fun g : ℕ => h.rsum (groupRows g labels data))).sum := by
    intro l
    induction l with
    | nil => exact ⟨[], rfl, by simp, rfl⟩
    | cons g l ih =>
      obtain ⟨rows, e1, e2, e3⟩ := ih
      obtain ⟨r, e⟩ := h.reduceData_exists (data := groupRows g labels data) (o := k.zero)
        (by rw [h.weight_zero]) (hg g)
      refine ⟨r :: rows, ?_, ?_, ?_⟩
      · rw [List.map_cons, List.map_cons, e1]
        exact congrArg (· :: _) e
      · intro d hd
        rcases List.mem_cons.1 hd with rfl | hd
        · rw [h.reduceData_weight e, h.weight_zero, zero_add]
          refine List.sum_nonneg fun x hx => ?_
          obtain ⟨y, hy, rfl⟩ := List.mem_map.1 hx
          exact hg g y hy
        · exact e2 d hd
      · rw [h.rsum_cons, e3, List.map_cons, List.sum_cons, h.reduceData_raw e, h.raw_zero, zero_add]
  obtain ⟨rows, e1, e2, e3⟩ := key (List.range n)
  have hsum : ((List.range n).map (fun g : ℕ => h.rsum (groupRows g labels data))).sum =
      h.rsum (keptRows labels data) := by
    clear e1 e2 e3 hg hk hw
    unfold groupRows keptRows
    have hz : ∀ p ∈ labels.zip data, p.1 < (n : ℤ) := fun p hp =>
      hn _ (List.of_mem_zip (a := p.1) (b := p.2) hp).1
    revert hz
    generalize labels.zip data = ps
    intro hz
    induction ps with
    | nil => simp [h.rsum_nil]
    | cons p ps ih =>
      have ih := ih (fun q hq => hz q (List.mem_cons_of_mem _ hq))
      have hp := hz p List.mem_cons_self
      have hsplit : ∀ g : ℕ, h.rsum ((p :: ps).filterMap
          (fun p => if p.1 = (g : ℤ) then some p.2 else none)) =
          (if p.1 = (g : ℤ) then h.raw p.2 else 0) +
            h.rsum (ps.filterMap (fun p => if p.1 = (g : ℤ) then some p.2 else none)) := by
        intro g
        by_cases hg : p.1 = (g : ℤ)
        · rw [List.filterMap_cons_some (b := p.2) (by rw [if_pos hg]), h.rsum_cons, if_pos hg]
        · rw [List.filterMap_cons_none (by rw [if_neg hg]), if_neg hg, zero_add]
      simp only [hsplit]
      rw [List.sum_map_add, ih]
      have hone : ((List.range n).map
          (fun g : ℕ => if p.1 = (g : ℤ) then h.raw p.2 else 0)).sum =
          if 0 ≤ p.1 then h.raw p.2 else 0 := by
        clear ih hsplit hn hz
        by_cases h0 : 0 ≤ p.1
        · obtain ⟨g, hg⟩ := Int.eq_ofNat_of_zero_le h0
          rw [if_pos h0, hg]
          have hgn : g < n := by omega
          simp only [Nat.cast_inj]
          have : ∀ m : ℕ, ((List.range m).map
              (fun a : ℕ => if g = a then h.raw p.2 else 0)).sum =
              if g < m then h.raw p.2 else 0 := by
            intro m
            induction m with
            | zero => simp
            | succ m ih =>
              rw [List.range_succ, List.map_append, List.sum_append, ih]
              by_cases h1 : g < m
              · have h2 : g ≠ m := by omega
                have h3 : g < m + 1 := by omega
                simp [h1, h2, h3]
              · by_cases h2 : g = m
                · simp [h2]
                · have h3 : ¬g < m + 1 := by omega
                  simp [h1, h2, h3]
          rw [this, if_pos hgn]
        · rw [if_neg h0]
          refine List.sum_eq_zero fun x hx => ?_
          obtain ⟨g, -, rfl⟩ := List.mem_map.1 hx
          rw [if_neg (by omega)]
      rw [hone]
      by_cases h0 : 0 ≤ p.1
      · rw [List.filterMap_cons_some (b := p.2) (by rw [if_pos h0]), h.rsum_cons, if_pos h0]
      · rw [List.filterMap_cons_none (by rw [if_neg h0]), if_neg h0, zero_add]
  exact ⟨rows, e1, h.reduce_eqv_of_rsum e2 hk (e3.trans hsum)⟩

end Lawful

end Cmomy
