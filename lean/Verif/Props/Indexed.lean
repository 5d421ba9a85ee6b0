import Verif.Lemmas.Agree
import Verif.Props.Grouped

/-!
# C32, C35, C36, C52: indexed reduction, its validation, and block averaging
-/

set_option linter.unusedSectionVars false

namespace Cmomy

open Spec

/-! ## C31 example -/

example : (kernel1 3).reduceDataGrouped [exA, exB, exD, exA] [0, 2, -1, 0] none =
    .ok [(kernel1 3).reduceDataFromZero [exA, exA], some (kernel1 3).zero,
      (kernel1 3).reduceDataFromZero [exB]] :=
  C31_grouped_rows_default (kernel1 3) [exA, exB, exD, exA] [0, 2, -1, 0] 2 rfl (by decide)
    (by decide) (by decide)

/-! ## C32: indexed reduction -/

theorem length_factorBy (sort isIndex : Bool) (xs : List (Option ℤ)) :
    (Factor.factorBy sort isIndex xs).2.length = xs.length := by
  show (Factor.factorize sort _).1.length = _
  rw [Factor.length_codes]
  cases isIndex <;> simp [Factor.dropNegative]

section ordered

variable {K : Type*} [Field K] [LinearOrder K] [IsStrictOrderedRing K]

/-- **C32.** For every table accepted by validation and data with non-negative weights, row `g` of
`reduce_data_indexed` is the reduction of `data[index[start[g]:end[g]]]`; an empty group is all
zeros. (When the selected weights are all zero only the weight is claimed: see
`C32_zero_weight_first_copies`.) -/
theorem C32_indexed_rows {order : ℕ} (ho : 1 ≤ order) (data : List (Mom K))
    (hw : ∀ d ∈ data, 0 ≤ d 0) (index start stop : List ℤ)
    (hv : Indexed.validateIndex data.length index start stop = .ok ()) :
    ∃ rows : List (Mom K),
      Indexed.reduceDataIndexed (kernel1 order) data index start stop none = .ok (rows.map some) ∧
      rows.length = start.length ∧
      List.Forall₂ (fun (p : ℤ × ℤ) r =>
        ∃ r', (kernel1 order).reduceDataFromZero (selectRows data index p.1 p.2) = some r' ∧
          r 0 = r' 0 ∧ (r' 0 ≠ 0 → EqUpTo order r r') ∧ (p.1 = p.2 → r = fun _ => 0))
        (start.zip stop) rows := by
  obtain ⟨rows, e, hl, h⟩ :=
    (lawful1 (K := K) order ho).indexed_rows data hw index start stop hv
  refine ⟨rows, e, hl, h.imp ?_⟩
  rintro p r ⟨r', e1, e2, e3, e4⟩
  exact ⟨r', e1, e2, fun hne => (eqv1_iff ho).1 (e3 hne), e4⟩

/-- **C32**, comoments. -/
theorem C32_indexed_rows_cov {o0 o1 : ℕ} (h0 : 1 ≤ o0) (h1 : 1 ≤ o1) (data : List (Com K))
    (hw : ∀ d ∈ data, 0 ≤ d 0 0) (index start stop : List ℤ)
    (hv : Indexed.validateIndex data.length index start stop = .ok ()) :
    ∃ rows : List (Com K),
      Indexed.reduceDataIndexed (kernel2 o0 o1) data index start stop none =
        .ok (rows.map some) ∧
      rows.length = start.length ∧
      List.Forall₂ (fun (p : ℤ × ℤ) r =>
        ∃ r', (kernel2 o0 o1).reduceDataFromZero (selectRows data index p.1 p.2) = some r' ∧
          r 0 0 = r' 0 0 ∧ (r' 0 0 ≠ 0 → EqUpTo2 o0 o1 r r') ∧ (p.1 = p.2 → r = fun _ _ => 0))
        (start.zip stop) rows := by
  obtain ⟨rows, e, hl, h⟩ :=
    (lawful2 (K := K) o0 o1 h0 h1).indexed_rows data hw index start stop hv
  refine ⟨rows, e, hl, h.imp ?_⟩
  rintro p r ⟨r', e1, e2, e3, e4⟩
  exact ⟨r', e1, e2, fun hne => (eqv2_iff h0 h1).1 (e3 hne), e4⟩

/-- **C32.** Label path against index path: grouping samples by `factor_by` codes and reducing
through `factor_by_to_index` tables give rows of equal weight, and equal moments wherever that
weight is not zero — for every labelling, with missing and negative labels, and any sorting
permutation. -/
theorem C32_agrees_with_grouped {order : ℕ} (ho : 1 ≤ order) {argsort : List ℤ → List ℕ}
    (ha : IsArgsort argsort) (isIndex : Bool) (xs : List (Option ℤ)) (hne : xs ≠ [])
    (data : List (Mom K)) (hl : xs.length = data.length) (hw : ∀ d ∈ data, 0 ≤ d 0) :
    ∃ rows rows' : List (Mom K),
      Indexed.reduceDataIndexed (kernel1 order) data
        ((Factor.factorByToIndex argsort isIndex xs).2.1.map (fun i : ℕ => (i : ℤ)))
        ((Factor.factorByToIndex argsort isIndex xs).2.2.1.map (fun i : ℕ => (i : ℤ)))
        ((Factor.factorByToIndex argsort isIndex xs).2.2.2.map (fun i : ℕ => (i : ℤ))) none =
          .ok (rows.map some) ∧
      (kernel1 order).reduceDataGrouped data (Factor.factorBy true isIndex xs).2
        (some (Factor.factorBy true isIndex xs).1.length) = .ok (rows'.map some) ∧
      rows.length = (Factor.factorByToIndex argsort isIndex xs).1.length ∧
      List.Forall₂ (fun r r' => r 0 = r' 0 ∧ (r' 0 ≠ 0 → EqUpTo order r r')) rows rows' := by
  obtain ⟨rows, rows', e1, e2, e3, e4⟩ :=
    (lawful1 (K := K) order ho).indexed_eqv_grouped ha (Factor.factorBy true isIndex xs).2
      (Factor.factorBy true isIndex xs).1.length (Factor.mem_codes_iff true _) data
      (by rw [length_factorBy, hl]) (by
        intro h
        have := length_factorBy true isIndex xs
        rw [h] at this
        exact hne (List.length_eq_zero_iff.1 this.symm)) hw
  exact ⟨rows, rows', e1, e2, e3, e4.imp fun r r' h => ⟨h.1, fun hn => (eqv1_iff ho).1 (h.2 hn)⟩⟩

/-- **C32**, comoments. -/
theorem C32_agrees_with_grouped_cov {o0 o1 : ℕ} (h0 : 1 ≤ o0) (h1 : 1 ≤ o1)
    {argsort : List ℤ → List ℕ}
    (ha : IsArgsort argsort) (isIndex : Bool) (xs : List (Option ℤ)) (hne : xs ≠ [])
    (data : List (Com K)) (hl : xs.length = data.length) (hw : ∀ d ∈ data, 0 ≤ d 0 0) :
    ∃ rows rows' : List (Com K),
      Indexed.reduceDataIndexed (kernel2 o0 o1) data
        ((Factor.factorByToIndex argsort isIndex xs).2.1.map (fun i : ℕ => (i : ℤ)))
        ((Factor.factorByToIndex argsort isIndex xs).2.2.1.map (fun i : ℕ => (i : ℤ)))
        ((Factor.factorByToIndex argsort isIndex xs).2.2.2.map (fun i : ℕ => (i : ℤ))) none =
          .ok (rows.map some) ∧
      (kernel2 o0 o1).reduceDataGrouped data (Factor.factorBy true isIndex xs).2
        (some (Factor.factorBy true isIndex xs).1.length) = .ok (rows'.map some) ∧
      rows.length = (Factor.factorByToIndex argsort isIndex xs).1.length ∧
      List.Forall₂ (fun r r' => r 0 0 = r' 0 0 ∧ (r' 0 0 ≠ 0 → EqUpTo2 o0 o1 r r'))
        rows rows' := by
  obtain ⟨rows, rows', e1, e2, e3, e4⟩ :=
    (lawful2 (K := K) o0 o1 h0 h1).indexed_eqv_grouped ha (Factor.factorBy true isIndex xs).2
      (Factor.factorBy true isIndex xs).1.length (Factor.mem_codes_iff true _) data
      (by rw [length_factorBy, hl]) (by
        intro h
        have := length_factorBy true isIndex xs
        rw [h] at this
        exact hne (List.length_eq_zero_iff.1 this.symm)) hw
  exact ⟨rows, rows', e1, e2, e3,
    e4.imp fun r r' h => ⟨h.1, fun hn => (eqv2_iff h0 h1).1 (h.2 hn)⟩⟩

end ordered

section field

variable {K : Type*} [Field K] [CharZero K] [DecidableEq K]

theorem selectScaled_map {α β : Type*} (f : α → β) (data : List α) (index : List ℤ)
    (scale : List K) (a b : ℤ) :
    selectScaled (data.map f) index scale a b =
      (selectScaled data index scale a b).map (fun p => (p.1, f p.2)) := by
  unfold selectScaled
  rw [List.map_filterMap]
  congr 1
  funext p
  simp only [List.getElem?_map, Option.map_map]
  rfl

theorem getElem?_zip_pair {α β : Type*} {l : List α} {m : List β} {i : ℕ} {a : α} {b : β}
    (h1 : l[i]? = some a) (h2 : m[i]? = some b) : (l.zip m)[i]? = some (a, b) := by
  rw [List.getElem?_zip_eq_some]
  exact ⟨h1, h2⟩

/-- **C32**, with scales of any sign: row `g` stands for the selected samples with every weight
multiplied by the scale of its index entry. -/
theorem C32_row_stands_for_selection {order : ℕ} (ho : 1 ≤ order)
    (data : List (List (Sample K) × Mom K)) (hd : ∀ p ∈ data, Holds order p.1 p.2)
    (index start stop : List ℤ) (scale : List K) (rows : List (Option (Mom K)))
    (e : Indexed.reduceDataIndexed (kernel1 order) (data.map Prod.snd) index start stop
      (some scale) = .ok rows)
    (g : ℕ) (a b : ℤ) (ha : start[g]? = some a) (hb : stop[g]? = some b) (r : Mom K)
    (hr : rows[g]? = some (some r)) :
    Holds order ((selectScaled data index scale a b).flatMap
      (fun p => p.2.1.map (fun s : Sample K => ⟨s.w * p.1, s.x⟩))) r := by
  have hv : Indexed.validateIndex (data.map Prod.snd).length index start stop = .ok () := by
    by_contra hv
    have := Indexed.validateIndex_error hv
    unfold Indexed.reduceDataIndexed at e
    rw [this] at e
    cases e
  have hs : scale.length = index.length := by
    by_contra hs
    unfold Indexed.reduceDataIndexed at e
    rw [hv] at e
    simp only [Except.bind, ne_eq, hs, not_false_eq_true, if_true] at e
    cases e
  rw [Indexed.reduceDataIndexed_eq _ _ _ _ _ _ hv (by rintro _ ⟨⟩; exact hs)] at e
  cases e
  rw [List.getElem?_map, getElem?_zip_pair ha hb] at hr
  simp only [Option.map_some, Option.getD_some, Option.some.injEq] at hr
  have hall : ∀ p ∈ selectScaled data index scale a b, Holds order p.2.1 p.2.2 := by
    intro p hp
    unfold selectScaled at hp
    obtain ⟨q, -, hq⟩ := List.mem_filterMap.1 hp
    obtain ⟨d, hd', rfl⟩ := Option.map_eq_some_iff.1 hq
    exact hd _ (List.mem_of_getElem? hd')
  rw [selectScaled_map] at hr
  rw [holds_iff_raw ho]
  intro n
  rw [Indexed.copyFold_raw (lawful1 (K := K) order ho) hr]
  clear hr
  revert hall
  generalize selectScaled data index scale a b = sel
  intro hall
  induction sel with
  | nil => rfl
  | cons p rows ih =>
    rw [List.map_cons, (lawful1 (K := K) order ho).rtot_cons, Pi.add_apply,
      ih (fun q hq => hall q (List.mem_cons_of_mem _ hq)), List.flatMap_cons, wsum_append,
      Pi.smul_apply, (holds_iff_raw ho).1 (hall p List.mem_cons_self) n, smul_eq_mul]
    congr 1
    simp only [Spec.wsum, List.map_map, ← List.sum_map_mul_left]
    congr 1
    refine List.map_congr_left fun s _ => ?_
    simp only [Function.comp_apply]
    ring

/-- **C32**, with scales, comoments. -/
theorem C32_row_stands_for_selection_cov {o0 o1 : ℕ} (h0 : 1 ≤ o0) (h1 : 1 ≤ o1)
    (data : List (List (Sample2 K) × Com K)) (hd : ∀ p ∈ data, Holds2 o0 o1 p.1 p.2)
    (index start stop : List ℤ) (scale : List K) (rows : List (Option (Com K)))
    (e : Indexed.reduceDataIndexed (kernel2 o0 o1) (data.map Prod.snd) index start stop
      (some scale) = .ok rows)
    (g : ℕ) (a b : ℤ) (ha : start[g]? = some a) (hb : stop[g]? = some b) (r : Com K)
    (hr : rows[g]? = some (some r)) :
    Holds2 o0 o1 ((selectScaled data index scale a b).flatMap
      (fun p => p.2.1.map (fun s : Sample2 K => ⟨s.w * p.1, s.x, s.y⟩))) r := by
  have hv : Indexed.validateIndex (data.map Prod.snd).length index start stop = .ok () := by
    by_contra hv
    have := Indexed.validateIndex_error hv
    unfold Indexed.reduceDataIndexed at e
    rw [this] at e
    cases e
  have hs : scale.length = index.length := by
    by_contra hs
    unfold Indexed.reduceDataIndexed at e
    rw [hv] at e
    simp only [Except.bind, ne_eq, hs, not_false_eq_true, if_true] at e
    cases e
  rw [Indexed.reduceDataIndexed_eq _ _ _ _ _ _ hv (by rintro _ ⟨⟩; exact hs)] at e
  cases e
  rw [List.getElem?_map, getElem?_zip_pair ha hb] at hr
  simp only [Option.map_some, Option.getD_some, Option.some.injEq] at hr
  have hall : ∀ p ∈ selectScaled data index scale a b, Holds2 o0 o1 p.2.1 p.2.2 := by
    intro p hp
    unfold selectScaled at hp
    obtain ⟨q, -, hq⟩ := List.mem_filterMap.1 hp
    obtain ⟨d, hd', rfl⟩ := Option.map_eq_some_iff.1 hq
    exact hd _ (List.mem_of_getElem? hd')
  rw [selectScaled_map] at hr
  rw [holds2_iff_raw h0 h1]
  intro n
  rw [Indexed.copyFold_raw (lawful2 (K := K) o0 o1 h0 h1) hr]
  clear hr
  revert hall
  generalize selectScaled data index scale a b = sel
  intro hall
  induction sel with
  | nil => rfl
  | cons p rows ih =>
    rw [List.map_cons, (lawful2 (K := K) o0 o1 h0 h1).rtot_cons, Pi.add_apply,
      ih (fun q hq => hall q (List.mem_cons_of_mem _ hq)), List.flatMap_cons, wsum2_append,
      Pi.smul_apply, (holds2_iff_raw h0 h1).1 (hall p List.mem_cons_self) n, smul_eq_mul]
    congr 1
    simp only [Spec.wsum2, List.map_map, ← List.sum_map_mul_left]
    congr 1
    refine List.map_congr_left fun s _ => ?_
    simp only [Function.comp_apply]
    ring

/-- **C32**, the exception: a group whose samples all have weight zero is *not* the zero array a
reduction gives; its first sample's moments stay in the row. -/
theorem C32_zero_weight_first_copies {order : ℕ} (ho : 1 ≤ order) (d : Mom K) (hd : d 0 = 0) :
    Indexed.reduceDataIndexed (kernel1 order) [d] [0] [0] [1] none = .ok [some d] ∧
    (kernel1 order).reduceDataFromZero [d] = some (fun _ => 0) := by
  constructor
  · have hv : Indexed.validateIndex 1 [0] [0] [1] = .ok () := by decide
    rw [Indexed.reduceDataIndexed_eq _ _ _ _ _ _ (by exact hv) (by simp)]
    have : selectScaled [d] [0] ((none : Option (List K)).getD (List.replicate [(0 : ℤ)].length 1))
        0 1 = [((1 : K), d)] := by rfl
    simp only [List.zip_cons_cons, List.zip_nil_right, List.map_cons, List.map_nil]
    rw [this]
    have h2 : (kernel1 order).mulWeight d (1 : K) = d := by
      show Function.update d 0 (d 0 * 1) = d
      rw [mul_one, Function.update_eq_self]
    show Except.ok [some ((kernel1 order).mulWeight d 1)] = _
    rw [h2]
  · show (pushData order d (fun _ => 0)).bind some = _
    have : pushData order d (fun _ => 0) = some (fun _ => 0) := by
      unfold pushData
      rw [pushDataBody_eq order ho, if_pos hd]
    rw [this]
    rfl

/-- **C32.** A scale array whose length is not that of `index` is rejected. -/
theorem C32_wrong_scale_length {K V M : Type*} [Field K] [DecidableEq K] (k : Kernel K V M) (data : List M)
    (index start stop : List ℤ) (scale : List K) (hs : scale.length ≠ index.length) :
    Indexed.reduceDataIndexed k data index start stop (some scale) = .error .valueError := by
  by_cases hv : Indexed.validateIndex data.length index start stop = .ok ()
  · unfold Indexed.reduceDataIndexed
    rw [hv]
    simp only [Except.bind, ne_eq, hs, not_false_eq_true, if_true]
  · unfold Indexed.reduceDataIndexed
    rw [Indexed.validateIndex_error hv]
    rfl

end field

/-- Three groups (one empty) over a table using samples repeatedly and out of order. -/
example : Indexed.validateIndex 3 [2, 0, 0, 1] [0, 2, 3] [2, 2, 4] = .ok () := by decide +kernel

example : ((Indexed.reduceDataIndexed (kernel1 3) [exA, exB, exD] [2, 0, 0, 1] [0, 2, 3] [2, 2, 4]
    none).toOption.map (List.map (Option.map (fun r => (r 0, r 1))))) =
    some [some (3, 2), some (0, 0), some (3, -1)] := by decide +kernel

/-! ## C35: validation -/

/-- **C35.** Soundness: on a table accepted for `data.length` samples, with one scale per index
entry, no read of the kernel is out of bounds. -/
theorem C35_accepted_reads_in_bounds {K V M : Type*} [Field K] [DecidableEq K]
    (k : Kernel K V M) (data : List M) (index start stop : List ℤ) (scale : List K)
    (hs : scale.length = index.length)
    (hv : Indexed.validateIndex data.length index start stop = .ok ()) :
    ∃ rows, Indexed.kernel k data index scale start stop = .ok rows ∧
      rows.length = start.length := by
  have hacc := Indexed.accepted_of_validate hv
  refine ⟨_, Indexed.kernel_eq k data index scale start stop hs hacc, ?_⟩
  rw [List.length_map, List.length_zip, ← hacc.len, min_self]

/-- **C35.** Everything else is reported as `ValueError`, never anything worse. -/
theorem C35_rejection_is_value_error {K V M : Type*} [Field K] [DecidableEq K]
    (k : Kernel K V M) (data : List M) (index start stop : List ℤ) (scale : Option (List K)) :
    (Indexed.validateIndex data.length index start stop = .ok () ∨
      Indexed.validateIndex data.length index start stop = .error .valueError) ∧
    (∀ e, Indexed.reduceDataIndexed k data index start stop scale = .error e →
      e = .valueError) := by
  by_cases hv : Indexed.validateIndex data.length index start stop = .ok ()
  · refine ⟨Or.inl hv, fun e he => ?_⟩
    by_cases hs : ∀ sc, scale = some sc → sc.length = index.length
    · rw [Indexed.reduceDataIndexed_eq k _ _ _ _ _ hv hs] at he
      cases he
    · push Not at hs
      obtain ⟨sc, rfl, hsc⟩ := hs
      rw [C32_wrong_scale_length k data index start stop sc hsc] at he
      cases he
      rfl
  · refine ⟨Or.inr (Indexed.validateIndex_error hv), fun e he => ?_⟩
    unfold Indexed.reduceDataIndexed at he
    rw [Indexed.validateIndex_error hv] at he
    cases he
    rfl

/-- **C35.** Where validation is too strict. For a table that the kernel can process (at least one
group, indices in range, `0 ≤ start ≤ end ≤ len(index)`), it is accepted exactly when `index` is
empty or no group starts at the very end; so with a non-empty `index`, a trailing empty group
`start = end = len(index)` is an error. -/
theorem C35_too_strict (ndat : ℕ) (index start stop : List ℤ) (hne : start ≠ [])
    (hl : start.length = stop.length) (hi : ∀ i ∈ index, 0 ≤ i ∧ i < ndat)
    (hg : ∀ p ∈ start.zip stop, 0 ≤ p.1 ∧ p.1 ≤ p.2 ∧ p.2 ≤ index.length) :
    (Indexed.validateIndex ndat index start stop = .ok () ↔
      index = [] ∨ ∀ a ∈ start, a ≠ index.length) ∧
    (∀ {K V M : Type} [Field K] [DecidableEq K] (k : Kernel K V M) (data : List M)
      (scale : List K), data.length = ndat → scale.length = index.length →
      ∃ rows, Indexed.kernel k data index scale start stop = .ok rows) := by
  have hstart : ∀ a ∈ start, ∃ b, (a, b) ∈ start.zip stop := by
    intro a ha
    obtain ⟨i, hi, rfl⟩ := List.mem_iff_getElem.1 ha
    exact ⟨stop[i]'(hl ▸ hi), List.mem_iff_getElem.2 ⟨i, by simp; omega, by simp⟩⟩
  have hstop : ∀ b ∈ stop, ∃ a, (a, b) ∈ start.zip stop := by
    intro b hb
    obtain ⟨i, hi, rfl⟩ := List.mem_iff_getElem.1 hb
    exact ⟨start[i]'(hl.symm ▸ hi), List.mem_iff_getElem.2 ⟨i, by simp; omega, by simp⟩⟩
  constructor
  · rw [Indexed.validateIndex_iff]
    constructor
    · rintro ⟨-, -, ⟨h, -⟩ | ⟨-, -, -, -, h, -⟩⟩
      · exact Or.inl h
      · exact Or.inr fun a ha => by have := h a ha; omega
    · intro h
      refine ⟨hl, fun p hp => (hg p hp).2.1, ?_⟩
      by_cases hx : index = []
      · left
        subst hx
        refine ⟨rfl, ?_, ?_⟩
        · intro a ha
          obtain ⟨b, hb⟩ := hstart a ha
          have := hg _ hb
          simp at this
          omega
        · intro b hb
          obtain ⟨a, ha⟩ := hstop b hb
          have := hg _ ha
          simp at this
          omega
      · right
        refine ⟨hx, hne, ?_, hi, ?_, ?_⟩
        · intro h0
          rw [h0] at hl
          exact hne (List.length_eq_zero_iff.1 hl)
        · intro a ha
          obtain ⟨b, hb⟩ := hstart a ha
          have h1 := hg _ hb
          have h2 := (h.resolve_left hx) a ha
          simp only at h1
          omega
        · intro b hb
          obtain ⟨a, ha⟩ := hstop b hb
          have h1 := hg _ ha
          simp only at h1
          omega
  · intro K V M _ _ k data scale hd hs
    exact ⟨_, Indexed.kernel_eq k data index scale start stop hs ⟨hl, hd ▸ hi, hg⟩⟩

/-- A trailing empty group: fine for the kernel, refused by validation. -/
example : Indexed.validateIndex 2 [0, 1] [0, 2] [2, 2] = .error .valueError := by decide +kernel
/-- The same empty group anywhere else is accepted. -/
example : Indexed.validateIndex 2 [0, 1] [0, 0] [0, 2] = .ok () := by decide +kernel

/-- **C35.** The full acceptance condition, for arbitrary integers. -/
theorem C35_acceptance (ndat : ℕ) (index start stop : List ℤ) :
    Indexed.validateIndex ndat index start stop = .ok () ↔
      start.length = stop.length ∧ (∀ p ∈ start.zip stop, p.1 ≤ p.2) ∧
      ((index = [] ∧ (∀ a ∈ start, a = 0) ∧ (∀ b ∈ stop, b = 0)) ∨
        (index ≠ [] ∧ start ≠ [] ∧ stop ≠ [] ∧ (∀ i ∈ index, 0 ≤ i ∧ i < ndat) ∧
          (∀ a ∈ start, 0 ≤ a ∧ a < index.length) ∧
          (∀ b ∈ stop, 0 ≤ b ∧ b < index.length + 1))) :=
  Indexed.validateIndex_iff ndat index start stop

/-! ## C36: frequencies through the indexed path -/

section freq

variable {K V M : Type*} [Field K] [DecidableEq K]

theorem written_select [CharZero K] (r : List ℤ) (hr : ∀ f ∈ r, 0 ≤ f) (data : List M) (d : ℕ) :
    ((Indexed.written r d).map (fun p => (p.1, (p.2 : K)))).filterMap
      (fun p => (data[p.1.toNat]?).map (fun x => (p.2, x))) =
      ((r.map (fun z : ℤ => (z : K))).zip (data.drop d)).filter (fun p => p.1 ≠ 0) := by
  induction r generalizing d with
  | nil => simp [Indexed.written]
  | cons f fs ih =>
    have ih := ih (fun g hg => hr g (List.mem_cons_of_mem _ hg)) (d + 1)
    have hf := hr f List.mem_cons_self
    rw [Indexed.written]
    by_cases hd : d < data.length
    · rw [List.drop_eq_getElem_cons hd, List.map_cons, List.zip_cons_cons, List.filter_cons]
      by_cases h0 : 0 < f
      · have h1 : (f : K) ≠ 0 := by
          rw [Ne, Int.cast_eq_zero]; omega
        simp only [h0, if_true, List.map_cons, ne_eq, h1, not_false_eq_true, decide_true]
        rw [List.filterMap_cons_some (b := ((f : K), data[d])) (by simp [hd]), ih]
      · have h1 : f = 0 := by omega
        simp only [h1, lt_irrefl, if_false, Int.cast_zero, ne_eq, not_true_eq_false, decide_false,
          Bool.false_eq_true]
        exact ih
    · have h1 : data.drop d = [] := List.drop_eq_nil_of_le (by omega)
      have h2 : data.drop (d + 1) = [] := List.drop_eq_nil_of_le (by omega)
      rw [h2] at ih
      rw [h1, List.zip_nil_right, List.filter_nil]
      rw [List.zip_nil_right, List.filter_nil] at ih
      split_ifs with h0
      · rw [List.map_cons, List.filterMap_cons_none (by simp; omega), ih]
      · exact ih

/-- **C36.** The table built from a non-negative frequency table, when validation accepts it,
gives through the indexed kernel exactly the rows of `resample_data` (same numbers, same divisions
by zero), whatever the uninitialised buffers held. -/
theorem C36_indexed_equals_frequency [CharZero K] (k : Kernel K V M) (junkI junkS : ℕ → ℤ)
    (freq : List (List ℤ)) (data : List M) (hf : ∀ r ∈ freq, ∀ f ∈ r, 0 ≤ f)
    (rows : List (Option M))
    (e : Indexed.resampleDataIndexed k junkI junkS freq data = .ok rows) :
    rows = k.resampleData (freq.map (List.map (fun z : ℤ => (z : K)))) data := by
  unfold Indexed.resampleDataIndexed at e
  rw [Indexed.freqToIndexed_nonneg junkI junkS freq hf] at e
  simp only at e
  have hv : Indexed.validateIndex data.length
      ((freq.flatMap (fun r => Indexed.written r 0)).map Prod.fst)
      ((Indexed.offsets freq 0).map Prod.fst) ((Indexed.offsets freq 0).map Prod.snd) =
      .ok () := by
    by_contra hv
    unfold Indexed.reduceDataIndexed at e
    rw [Indexed.validateIndex_error hv] at e
    cases e
  rw [Indexed.reduceDataIndexed_eq _ _ _ _ _ _ hv (by rintro _ ⟨⟩; simp)] at e
  rw [Indexed.offsets_zip] at e
  cases e
  have hz : ((freq.flatMap (fun r => Indexed.written r 0)).map Prod.fst).zip
      (((freq.flatMap (fun r => Indexed.written r 0)).map Prod.snd).map
        (fun z : ℤ => (z : K))) =
      (freq.flatMap (fun r => Indexed.written r 0)).map (fun p => (p.1, (p.2 : K))) := by
    rw [List.map_map, List.zip_map']
    rfl
  have := Indexed.map_offsets_slice (fun ws => Indexed.copyFold k
    ((ws.map (fun p => (p.1, (p.2 : K)))).filterMap
      (fun p => (data[p.1.toNat]?).map (fun x => (p.2, x))))) freq []
  simp only [List.length_nil, List.nil_append] at this
  refine Eq.trans ?_ (this.trans ?_)
  · refine List.map_congr_left fun p _ => ?_
    rw [selectScaled, Option.getD_some, hz, slice_map]
  · unfold Kernel.resampleData
    rw [List.map_map]
    refine List.map_congr_left fun r hr => ?_
    rw [written_select r (hf r hr) data 0]
    simp only [List.drop_zero, Function.comp_apply]
    rw [Indexed.resampleDataRow_eq_copyFold]

theorem offsets_append (rs : List (List ℤ)) (r : List ℤ) (n : ℕ) :
    Indexed.offsets (rs ++ [r]) n = Indexed.offsets rs n ++
      [(((n + (rs.flatMap (fun r => Indexed.written r 0)).length : ℕ) : ℤ),
        ((n + (rs.flatMap (fun r => Indexed.written r 0)).length +
          (Indexed.written r 0).length : ℕ) : ℤ))] := by
  induction rs generalizing n with
  | nil => simp [Indexed.offsets]
  | cons q rs ih =>
    rw [List.cons_append, Indexed.offsets, Indexed.offsets, ih, List.flatMap_cons,
      List.length_append]
    simp only [List.cons_append, Nat.add_assoc]

/-- **C36.** When validation accepts: for a non-negative table of the right width, exactly when
there are no replicates, nothing is drawn at all, or the *last* replicate draws something. A table
whose last replicate draws nothing while another one does is refused, although `resample_data`
handles it. -/
theorem C36_acceptance (k : Kernel K V M) (junkI junkS : ℕ → ℤ) (freq : List (List ℤ))
    (data : List M) (hf : ∀ r ∈ freq, ∀ f ∈ r, 0 ≤ f) (hlen : ∀ r ∈ freq, r.length = data.length) :
    (∃ rows, Indexed.resampleDataIndexed k junkI junkS freq data = .ok rows) ↔
      (∀ r ∈ freq, ∀ f ∈ r, f = 0) ∨ ∃ r ∈ freq.getLast?, ∃ f ∈ r, f ≠ 0 := by
  have hwne : ∀ r : List ℤ, (∀ f ∈ r, 0 ≤ f) →
      (0 < (Indexed.written r 0).length ↔ ∃ f ∈ r, f ≠ 0) := by
    intro r hr
    rw [Indexed.length_written_eq r 0 hr, List.countP_pos_iff]
    simp
  have hidx : ∀ i ∈ (freq.flatMap (fun r => Indexed.written r 0)).map Prod.fst,
      0 ≤ i ∧ i < (data.length : ℤ) := by
    intro i hi
    obtain ⟨p, hp, rfl⟩ := List.mem_map.1 hi
    obtain ⟨r, hr, hp⟩ := List.mem_flatMap.1 hp
    have := Indexed.mem_written hp
    rw [hlen r hr] at this
    push_cast at this
    omega
  have hok : (∃ rows, Indexed.resampleDataIndexed k junkI junkS freq data = .ok rows) ↔
      Indexed.validateIndex data.length
        ((freq.flatMap (fun r => Indexed.written r 0)).map Prod.fst)
        ((Indexed.offsets freq 0).map Prod.fst) ((Indexed.offsets freq 0).map Prod.snd) =
        .ok () := by
    unfold Indexed.resampleDataIndexed
    rw [Indexed.freqToIndexed_nonneg junkI junkS freq hf]
    simp only
    constructor
    · rintro ⟨rows, e⟩
      by_contra hv
      unfold Indexed.reduceDataIndexed at e
      rw [Indexed.validateIndex_error hv] at e
      cases e
    · intro hv
      exact ⟨_, Indexed.reduceDataIndexed_eq _ _ _ _ _ _ hv (by rintro _ ⟨⟩; simp)⟩
  rw [hok]
  rcases List.eq_nil_or_concat freq with rfl | ⟨rs, r, rfl⟩
  · simp [Indexed.offsets, Indexed.validateIndex, Except.bind]
  · rw [List.concat_eq_append] at hf hlen hidx hok ⊢
    have hmem : r ∈ rs ++ [r] := by simp
    have hr := hwne r (hf r hmem)
    have hall : ((rs ++ [r]).flatMap (fun r => Indexed.written r 0) = []) ↔
        ∀ q ∈ rs ++ [r], ∀ f ∈ q, f = 0 := by
      rw [List.flatMap_eq_nil_iff]
      refine forall₂_congr fun q hq => ?_
      have := hwne q (hf q hq)
      rw [← List.length_eq_zero_iff]
      constructor
      · intro h0 f hfq
        by_contra hne
        have := this.2 ⟨f, hfq, hne⟩
        omega
      · intro h0
        by_contra hne
        obtain ⟨f, hfq, hne⟩ := this.1 (Nat.pos_of_ne_zero hne)
        exact hne (h0 f hfq)
    have hstr := (C35_too_strict data.length
      (((rs ++ [r]).flatMap (fun r => Indexed.written r 0)).map Prod.fst)
      ((Indexed.offsets (rs ++ [r]) 0).map Prod.fst) ((Indexed.offsets (rs ++ [r]) 0).map Prod.snd)
      (by rw [offsets_append]; simp) (by simp) hidx (by
        rw [Indexed.offsets_zip]
        intro p hp
        have := Indexed.mem_offsets hp
        simp only [List.length_map]
        omega)).1
    rw [hstr, List.map_eq_nil_iff, hall]
    refine or_congr_right ?_
    simp only [List.getLast?_append, List.getLast?_singleton, Option.some_or, Option.some.injEq,
      Option.mem_def, exists_eq_left']
    rw [← hr, offsets_append]
    simp only [List.map_append, List.map_cons, List.map_nil, List.length_map,
      List.flatMap_append, List.length_append, List.flatMap_cons, List.flatMap_nil,
      List.length_nil, Nat.add_zero, Nat.zero_add]
    constructor
    · intro h
      have := h _ (List.mem_append_right _ (List.mem_singleton_self _))
      push_cast at this
      omega
    · intro h a ha
      rcases List.mem_append.1 ha with ha | ha
      · obtain ⟨p, hp, rfl⟩ := List.mem_map.1 ha
        have := Indexed.mem_offsets hp
        push_cast
        omega
      · rw [List.mem_singleton.1 ha]
        push_cast
        omega

/-- **C36.** A negative frequency is counted when sizing the buffers but never written: part of
`index` stays uninitialised and is then validated, so whether the call succeeds depends on what
was in memory. -/
theorem C36_negative_frequency_reads_garbage (k : Kernel K V M) (junkI junkS : ℕ → ℤ) (a b : M) :
    (∃ rows, Indexed.resampleDataIndexed k junkI junkS [[-1, 1]] [a, b] = .ok rows) ↔
      0 ≤ junkI 1 ∧ junkI 1 < 2 := by
  unfold Indexed.resampleDataIndexed
  rw [Indexed.freqToIndexed_eq]
  have hw : Indexed.written [-1, 1] 0 = [(1, 1)] := by decide
  have hc : [([-1, 1] : List ℤ).countP (fun f => decide (f ≠ 0))].sum = 2 := by decide
  simp only [List.flatMap_cons, List.flatMap_nil, List.append_nil, hw, Indexed.offsets,
    List.length_cons, List.length_nil, List.map_cons, List.map_nil]
  rw [hc]
  have hr : ∀ f : ℕ → ℤ, (List.drop (0 + 1) ((List.range 2).map f)) = [f 1] := by
    intro f; rfl
  rw [hr, hr]
  have hv : Indexed.validateIndex [a, b].length ([1] ++ [junkI 1]) [((0 : ℕ) : ℤ)]
      [((0 + (0 + 1) : ℕ) : ℤ)] = .ok () ↔ 0 ≤ junkI 1 ∧ junkI 1 < 2 := by
    rw [Indexed.validateIndex_iff]
    simp
  rw [← hv]
  constructor
  · rintro ⟨rows, e⟩
    by_contra hv
    unfold Indexed.reduceDataIndexed at e
    rw [Indexed.validateIndex_error hv] at e
    cases e
  · intro hv
    exact ⟨_, Indexed.reduceDataIndexed_eq _ _ _ _ _ _ hv (by rintro _ ⟨⟩; simp)⟩

end freq

/-- A non-negative table whose last row draws something. -/
example : (∀ r ∈ [[0, 2, 1], [0, 0, 0], [3, 0, 0]], ∀ f ∈ r, (0 : ℤ) ≤ f) ∧
    ((Indexed.resampleDataIndexed (kernel1 3) (fun _ => 77) (fun _ => 99)
      [[0, 2, 1], [0, 0, 0], [3, 0, 0]] [exA, exB, exD]).toOption.map
      (List.map (Option.map (fun r => (r 0, r 1))))) =
    some [some (7, -2/7), some (0, 0), some (6, 1)] := by decide +kernel

/-! ## C52: block averaging keeps totals -/

theorem keptRows_nonneg {α : Type*} (labels : List ℤ) (data : List α)
    (hl : labels.length = data.length) (h : ∀ l ∈ labels, 0 ≤ l) : keptRows labels data = data := by
  unfold keptRows
  induction labels generalizing data with
  | nil => cases data with
    | nil => rfl
    | cons _ _ => simp at hl
  | cons l labels ih =>
    cases data with
    | nil => simp at hl
    | cons d data =>
      rw [List.zip_cons_cons, List.filterMap_cons_some (b := d)
        (by rw [if_pos (h l List.mem_cons_self)]),
        ih data (by simpa using hl) (fun x hx => h x (List.mem_cons_of_mem _ hx))]

theorem keptRows_neg {α : Type*} (labels : List ℤ) (data : List α)
    (h : ∀ l ∈ labels, l < 0) : keptRows labels data = [] := by
  unfold keptRows
  rw [List.filterMap_eq_nil_iff]
  intro p hp
  have := h _ (List.of_mem_zip (a := p.1) (b := p.2) hp).1
  rw [if_neg (by omega)]

theorem keptRows_append {α : Type*} (a b : List ℤ) (data : List α)
    (hl : a.length ≤ data.length) :
    keptRows (a ++ b) data = keptRows a (data.take a.length) ++ keptRows b (data.drop a.length) := by
  unfold keptRows
  rw [← List.filterMap_append, ← List.zip_append (by simp [hl]), List.take_append_drop]

open Block in
/-- What the block labels keep. -/
theorem keptRows_blockBy {α : Type*} (data : List α) (block : ℕ) (mode : Mode) (h1 : 1 ≤ block)
    (h2 : block ≤ data.length) (hm : mode ≠ .unknown) :
    ∃ labels, blockBy data.length block mode = .ok labels ∧ labels.length = data.length ∧
      (((data.length / block - 1 : ℕ) : ℤ) ∈ labels) ∧
      (∀ l ∈ labels, l ≤ ((data.length / block - 1 : ℕ) : ℤ)) ∧
      keptRows labels data =
        blockKept (decide (mode = .dropFirst)) (decide (mode = .dropLast)) block data := by
  have hpos : 0 < data.length / block := Nat.div_pos h2 h1
  have hdm := Nat.div_add_mod data.length block
  rw [Nat.mul_comm] at hdm
  have hmem : ∀ a : ℤ, a ∈ arangeRepeat (data.length / block) block ↔
      0 ≤ a ∧ a < ((data.length / block : ℕ) : ℤ) := by
    intro a
    rw [← List.count_pos_iff, count_arangeRepeat]
    split_ifs with h
    · simp only [h, and_self, iff_true]; omega
    · simp only [h, iff_false]; omega
  have hlast : ((data.length / block - 1 : ℕ) : ℤ) ∈ arangeRepeat (data.length / block) block :=
    (hmem _).2 (by omega)
  have hle : ∀ l ∈ arangeRepeat (data.length / block) block,
      l ≤ ((data.length / block - 1 : ℕ) : ℤ) := fun l hl => by
    have := (hmem l).1 hl
    omega
  have hnn : ∀ l ∈ arangeRepeat (data.length / block) block, 0 ≤ l := fun l hl => ((hmem l).1 hl).1
  refine ⟨_, blockBy_eq data.length block mode h1 h2 hm, ?_, ?_, ?_, ?_⟩
  · cases mode <;> simp only [List.length_append, List.length_replicate, length_arangeRepeat] <;>
      first | omega | exact absurd rfl hm
  · cases mode with
    | unknown => exact absurd rfl hm
    | dropFirst => exact List.mem_append_right _ hlast
    | dropLast => exact List.mem_append_left _ hlast
    | expandFirst => exact List.mem_append_right _ hlast
    | expandLast => exact List.mem_append_left _ hlast
  · intro l hl
    cases mode with
    | unknown => exact absurd rfl hm
    | dropFirst =>
      rcases List.mem_append.1 hl with hl | hl
      · rw [List.eq_of_mem_replicate hl]; omega
      · exact hle l hl
    | dropLast =>
      rcases List.mem_append.1 hl with hl | hl
      · exact hle l hl
      · rw [List.eq_of_mem_replicate hl]; omega
    | expandFirst =>
      rcases List.mem_append.1 hl with hl | hl
      · rw [List.eq_of_mem_replicate hl]; omega
      · exact hle l hl
    | expandLast =>
      rcases List.mem_append.1 hl with hl | hl
      · exact hle l hl
      · rw [List.eq_of_mem_replicate hl]
  · cases mode with
    | unknown => exact absurd rfl hm
    | dropFirst =>
      have hle : data.length % block ≤ data.length := Nat.mod_le _ _
      simp only [blockKept, decide_true, if_true]
      rw [keptRows_append _ _ _ (by simpa using hle), keptRows_neg, keptRows_nonneg _ _ _ hnn,
        List.length_replicate, List.nil_append]
      · rw [List.length_drop, length_arangeRepeat, List.length_replicate]; omega
      · intro l hl; rw [List.eq_of_mem_replicate hl]; omega
    | dropLast =>
      simp only [blockKept, reduceCtorEq, decide_false, decide_true, if_true, Bool.false_eq_true,
        if_false]
      rw [keptRows_append _ _ _ (by rw [length_arangeRepeat]; omega), keptRows_nonneg _ _ _ hnn,
        keptRows_neg, length_arangeRepeat, List.append_nil]
      · intro l hl; rw [List.eq_of_mem_replicate hl]; omega
      · rw [List.length_take, length_arangeRepeat]; omega
    | expandFirst =>
      simp only [blockKept, reduceCtorEq, decide_false, Bool.false_eq_true, if_false]
      refine keptRows_nonneg _ _ ?_ ?_
      · simp only [List.length_append, List.length_replicate, length_arangeRepeat]; omega
      · intro l hl
        rcases List.mem_append.1 hl with hl | hl
        · rw [List.eq_of_mem_replicate hl]
        · exact hnn l hl
    | expandLast =>
      simp only [blockKept, reduceCtorEq, decide_false, Bool.false_eq_true, if_false]
      refine keptRows_nonneg _ _ ?_ ?_
      · simp only [List.length_append, List.length_replicate, length_arangeRepeat]; omega
      · intro l hl
        rcases List.mem_append.1 hl with hl | hl
        · exact hnn l hl
        · rw [List.eq_of_mem_replicate hl]; omega

section blocks

variable {K : Type*} [Field K] [LinearOrder K] [IsStrictOrderedRing K]

/-- Generic form of C52. -/
theorem block_then_reduce {V M ι : Type*} {k : Kernel K V M} (h : Lawful k ι) (data : List M)
    (hw : ∀ d ∈ data, 0 ≤ k.weight d) (block : ℕ) (mode : Block.Mode) (h1 : 1 ≤ block)
    (h2 : block ≤ data.length) (hm : mode ≠ .unknown) :
    ∃ labels rows r r', Block.blockBy data.length block mode = .ok labels ∧
      k.reduceDataGrouped data labels none = .ok (rows.map some) ∧
      rows.length = data.length / block ∧
      k.reduceDataFromZero rows = some r ∧
      k.reduceDataFromZero (blockKept (decide (mode = .dropFirst)) (decide (mode = .dropLast))
        block data) = some r' ∧ h.Eqv r r' ∧
      k.weight r = ((blockKept (decide (mode = .dropFirst)) (decide (mode = .dropLast))
        block data).map k.weight).sum := by
  obtain ⟨labels, e, hl, hmem, hmax, hkept⟩ := keptRows_blockBy data block mode h1 h2 hm
  have hpos : 0 < data.length / block := Nat.div_pos h2 h1
  obtain ⟨rows, e1, r, r', e2, e3, e4⟩ := h.grouped_then_reduce labels data (data.length / block)
    (fun l hl => by have := hmax l hl; omega) hw
  rw [hkept] at e3
  refine ⟨labels, rows, r, r', e, ?_, ?_, e2, e3, e4, ?_⟩
  · rw [C31_grouped_rows_default k data labels _ hl hmem hmax (by omega), ← e1]
    congr 2
    congr 1
    omega
  · have := congrArg List.length e1
    simpa using this.symm
  · rw [← h.raw_i0, h.raw_eq_of_eqv e4, h.raw_i0, h.reduceData_weight e3, h.weight_zero, zero_add]
    rfl

/-- **C52.** Reducing by blocks and then reducing the block results is the full reduction of the
samples the mode keeps (all of them in the expanding modes), with their total weight. -/
theorem C52_block_then_reduce {order : ℕ} (ho : 1 ≤ order) (data : List (Mom K))
    (hw : ∀ d ∈ data, 0 ≤ d 0) (block : ℕ) (mode : Block.Mode) (h1 : 1 ≤ block)
    (h2 : block ≤ data.length) (hm : mode ≠ .unknown) :
    ∃ labels rows r r', Block.blockBy data.length block mode = .ok labels ∧
      (kernel1 order).reduceDataGrouped data labels none = .ok (rows.map some) ∧
      rows.length = data.length / block ∧
      (kernel1 order).reduceDataFromZero rows = some r ∧
      (kernel1 order).reduceDataFromZero (blockKept (decide (mode = .dropFirst))
        (decide (mode = .dropLast)) block data) = some r' ∧ EqUpTo order r r' ∧
      r 0 = ((blockKept (decide (mode = .dropFirst)) (decide (mode = .dropLast))
        block data).map (fun d => d 0)).sum := by
  obtain ⟨labels, rows, r, r', e1, e2, e3, e4, e5, e6, e7⟩ :=
    block_then_reduce (lawful1 (K := K) order ho) data hw block mode h1 h2 hm
  exact ⟨labels, rows, r, r', e1, e2, e3, e4, e5, (eqv1_iff ho).1 e6, e7⟩

/-- **C52**, comoments. -/
theorem C52_block_then_reduce_cov {o0 o1 : ℕ} (h0 : 1 ≤ o0) (h1' : 1 ≤ o1) (data : List (Com K))
    (hw : ∀ d ∈ data, 0 ≤ d 0 0) (block : ℕ) (mode : Block.Mode) (h1 : 1 ≤ block)
    (h2 : block ≤ data.length) (hm : mode ≠ .unknown) :
    ∃ labels rows r r', Block.blockBy data.length block mode = .ok labels ∧
      (kernel2 o0 o1).reduceDataGrouped data labels none = .ok (rows.map some) ∧
      rows.length = data.length / block ∧
      (kernel2 o0 o1).reduceDataFromZero rows = some r ∧
      (kernel2 o0 o1).reduceDataFromZero (blockKept (decide (mode = .dropFirst))
        (decide (mode = .dropLast)) block data) = some r' ∧ EqUpTo2 o0 o1 r r' ∧
      r 0 0 = ((blockKept (decide (mode = .dropFirst)) (decide (mode = .dropLast))
        block data).map (fun d => d 0 0)).sum := by
  obtain ⟨labels, rows, r, r', e1, e2, e3, e4, e5, e6, e7⟩ :=
    block_then_reduce (lawful2 (K := K) o0 o1 h0 h1') data hw block mode h1 h2 hm
  exact ⟨labels, rows, r, r', e1, e2, e3, e4, e5, (eqv2_iff h0 h1').1 e6, e7⟩

/-- **C52.** `block ≤ 0` or `block = ndat`: one block, which is the full reduction itself,
whatever the mode. -/
theorem C52_single_block {K V M : Type*} [Field K] [DecidableEq K] (k : Kernel K V M)
    (data : List M) (hne : data ≠ []) (block : ℤ) (mode : Block.Mode)
    (hb : block ≤ 0 ∨ block = data.length) :
    ∃ labels, Block.blockBy data.length block mode = .ok labels ∧
      k.reduceDataGrouped data labels none = .ok [k.reduceDataFromZero data] := by
  refine ⟨_, (C33_degenerate data.length block mode).1 hb, ?_⟩
  have hlen : 0 < data.length := List.length_pos_iff.2 hne
  have hmem : (0 : ℤ) ∈ List.replicate data.length 0 := by
    rw [List.mem_replicate]; exact ⟨by omega, rfl⟩
  rw [C31_grouped_rows_default k data _ 0 (by simp) hmem
    (fun l hl => (List.eq_of_mem_replicate hl).le) (by omega)]
  have : ∀ data : List M, groupRows 0 (List.replicate data.length 0) data = data := by
    intro data
    induction data with
    | nil => rfl
    | cons d data ih =>
      unfold groupRows at ih ⊢
      rw [List.length_cons, List.replicate_succ, List.zip_cons_cons,
        List.filterMap_cons_some (b := d) (by simp), ih]
  have hr : List.range (0 + 1 : ℤ).toNat = [0] := rfl
  rw [hr, List.map_cons, List.map_nil, Nat.cast_zero, this]

end blocks

example : (∀ d ∈ [exA, exB, exD, exA, exB], (0 : ℚ) ≤ d 0) ∧
    (1 ≤ 2 ∧ 2 ≤ [exA, exB, exD, exA, exB].length) ∧
    (Block.blockBy 5 2 .dropFirst = .ok [-1, 0, 0, 1, 1]) ∧
    blockKept true false 2 [exA, exB, exD, exA, exB] = [exB, exD, exA, exB] :=
  ⟨by decide +kernel, by decide, by decide +kernel, rfl⟩

end Cmomy
