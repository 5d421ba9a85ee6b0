import Verif.Lemmas.Grouped

/-!
# Index tables: validation, frequencies, copy-then-push
-/

set_option linter.unusedSectionVars false

namespace Cmomy.Indexed

open Spec

variable {K V M ι : Type*} [Field K]

/-- Exactly what `_validate_index` accepts. -/
theorem validateIndex_iff (ndat : ℕ) (index start stop : List ℤ) :
    validateIndex ndat index start stop = .ok () ↔
      start.length = stop.length ∧ (∀ p ∈ start.zip stop, p.1 ≤ p.2) ∧
      ((index = [] ∧ (∀ a ∈ start, a = 0) ∧ (∀ b ∈ stop, b = 0)) ∨
        (index ≠ [] ∧ start ≠ [] ∧ stop ≠ [] ∧ (∀ i ∈ index, 0 ≤ i ∧ i < ndat) ∧
          (∀ a ∈ start, 0 ≤ a ∧ a < index.length) ∧
          (∀ b ∈ stop, 0 ≤ b ∧ b < index.length + 1))) := by
  unfold validateIndex
  by_cases hx : index = []
  · subst hx
    simp only [List.length_nil, if_true, true_and, ne_eq, not_true_eq_false, false_and, or_false]
    by_cases h0 : (start.any (fun x => decide (¬x = 0)) || stop.any (fun x => decide (¬x = 0))) = true
    · rw [if_pos h0]
      simp only [Except.bind, reduceCtorEq, false_iff]
      rintro ⟨-, -, h1, h2⟩
      rw [Bool.or_eq_true, List.any_eq_true, List.any_eq_true] at h0
      rcases h0 with ⟨x, hx, h⟩ | ⟨x, hx, h⟩
      · simp [h1 x hx] at h
      · simp [h2 x hx] at h
    · rw [if_neg h0]
      simp only [Except.bind]
      rw [Bool.or_eq_true, List.any_eq_true, List.any_eq_true, not_or] at h0
      have h1 : ∀ a ∈ start, a = 0 := by
        intro a ha
        by_contra hc
        exact h0.1 ⟨a, ha, by simpa using hc⟩
      have h2 : ∀ a ∈ stop, a = 0 := by
        intro a ha
        by_contra hc
        exact h0.2 ⟨a, ha, by simpa using hc⟩
      by_cases hl : start.length = stop.length
      · rw [if_neg (not_not.2 hl)]
        by_cases hp : (start.zip stop).any (fun p => decide (p.2 < p.1)) = true
        · rw [if_pos hp]
          rw [List.any_eq_true] at hp
          obtain ⟨p, hp, h⟩ := hp
          simp only [reduceCtorEq, false_iff, not_and]
          intro _ h3
          have := h3 p hp
          simp at h
          omega
        · rw [if_neg hp]
          rw [List.any_eq_true] at hp
          simp only [true_iff]
          refine ⟨hl, fun p hq => ?_, h1, h2⟩
          by_contra hc
          exact hp ⟨p, hq, by simpa using hc⟩
      · rw [if_pos hl]
        simp [hl]
  · have hlen : index.length ≠ 0 := by simpa using hx
    rw [if_neg hlen]
    by_cases c1 : validateRange index ndat = .ok ()
    · by_cases c2 : validateRange start index.length = .ok ()
      · by_cases c3 : validateRange stop (index.length + 1) = .ok ()
        · rw [c1, c2, c3]
          simp only [Except.bind]
          rw [validateRange_iff] at c1 c2 c3
          by_cases hl : start.length = stop.length
          · rw [if_neg (not_not.2 hl)]
            by_cases hp : (start.zip stop).any (fun p => decide (p.2 < p.1)) = true
            · rw [if_pos hp]
              rw [List.any_eq_true] at hp
              obtain ⟨p, hp, h⟩ := hp
              simp only [reduceCtorEq, false_iff, not_and]
              intro _ h3
              have := h3 p hp
              simp at h
              omega
            · rw [if_neg hp]
              rw [List.any_eq_true] at hp
              simp only [true_iff]
              refine ⟨hl, fun p hq => ?_, Or.inr ⟨hx, c2.1, c3.1, c1.2, c2.2, c3.2⟩⟩
              by_contra hc
              exact hp ⟨p, hq, by simpa using hc⟩
          · rw [if_pos hl]
            simp [hl]
        · rw [c1, c2, validateRange_error c3]
          simp only [Except.bind, reduceCtorEq, false_iff]
          rw [validateRange_iff] at c3
          rintro ⟨-, -, h | h⟩
          · exact hx h.1
          · exact c3 ⟨h.2.2.1, h.2.2.2.2.2⟩
      · rw [c1, validateRange_error c2]
        simp only [Except.bind, reduceCtorEq, false_iff]
        rw [validateRange_iff] at c2
        rintro ⟨-, -, h | h⟩
        · exact hx h.1
        · exact c2 ⟨h.2.1, h.2.2.2.2.1⟩
    · rw [validateRange_error c1]
      simp only [Except.bind, reduceCtorEq, false_iff]
      rw [validateRange_iff] at c1
      rintro ⟨-, -, h | h⟩
      · exact hx h.1
      · exact c1 ⟨hx, h.2.2.2.1⟩

theorem validateIndex_error {ndat : ℕ} {index start stop : List ℤ}
    (h : validateIndex ndat index start stop ≠ .ok ()) :
    validateIndex ndat index start stop = .error .valueError := by
  unfold validateIndex at h ⊢
  by_cases hx : index.length = 0
  · rw [if_pos hx] at h ⊢
    by_cases h0 : (start.any (fun x => decide (x ≠ 0)) || stop.any (fun x => decide (x ≠ 0))) = true
    · rw [if_pos h0]; rfl
    · rw [if_neg h0] at h ⊢
      simp only [Except.bind] at h ⊢
      split_ifs at h ⊢ <;> first | rfl | exact absurd rfl h
  · rw [if_neg hx] at h ⊢
    by_cases c1 : validateRange index ndat = .ok ()
    · by_cases c2 : validateRange start index.length = .ok ()
      · by_cases c3 : validateRange stop (index.length + 1) = .ok ()
        · rw [c1, c2, c3] at h ⊢
          simp only [Except.bind] at h ⊢
          split_ifs at h ⊢ <;> first | rfl | exact absurd rfl h
        · rw [c1, c2, validateRange_error c3]; rfl
      · rw [c1, validateRange_error c2]; rfl
    · rw [validateRange_error c1]; rfl

theorem accepted_of_validate {ndat : ℕ} {index start stop : List ℤ}
    (h : validateIndex ndat index start stop = .ok ()) : Accepted ndat index start stop := by
  obtain ⟨hl, hp, h⟩ := (validateIndex_iff _ _ _ _).1 h
  rcases h with ⟨rfl, h1, h2⟩ | ⟨-, -, -, hi, ha, hb⟩
  · refine ⟨hl, by simp, fun p hq => ?_⟩
    rw [h1 _ (List.of_mem_zip (a := p.1) (b := p.2) hq).1,
      h2 _ (List.of_mem_zip (a := p.1) (b := p.2) hq).2]
    simp
  · refine ⟨hl, hi, fun p hq => ?_⟩
    have h1 := ha _ (List.of_mem_zip (a := p.1) (b := p.2) hq).1
    have h2 := hb _ (List.of_mem_zip (a := p.1) (b := p.2) hq).2
    have h3 := hp p hq
    omega

/-- `reduce_data_indexed` on an accepted table. -/
theorem reduceDataIndexed_eq [DecidableEq K] (k : Kernel K V M) (data : List M)
    (index start stop : List ℤ) (scale : Option (List K))
    (h : validateIndex data.length index start stop = .ok ())
    (hs : ∀ sc, scale = some sc → sc.length = index.length) :
    reduceDataIndexed k data index start stop scale = .ok ((start.zip stop).map
      (fun p => copyFold k (selectScaled data index
        (scale.getD (List.replicate index.length 1)) p.1 p.2))) := by
  unfold reduceDataIndexed
  rw [h]
  simp only [Except.bind]
  cases scale with
  | none => exact kernel_eq k data index _ start stop (by simp) (accepted_of_validate h)
  | some sc =>
    simp only
    rw [if_neg (not_not.2 (hs sc rfl))]
    exact kernel_eq k data index _ start stop (hs sc rfl) (accepted_of_validate h)

section copyFold

variable [DecidableEq K] {k : Kernel K V M} (h : Lawful k ι)
include h

theorem copyFold_raw {l : List (K × M)} {r : M} (e : copyFold k l = some r) :
    h.raw r = h.rtot l := by
  cases l with
  | nil => cases e; rw [h.raw_zero]; rfl
  | cons p l =>
    obtain ⟨f, d⟩ := p
    rw [h.foldScale_raw e, h.raw_mul, h.rtot_cons]

theorem copyFold_weight {l : List (K × M)} {r : M} (e : copyFold k l = some r) :
    k.weight r = Lawful.wtot k l := by
  rw [← h.raw_i0, copyFold_raw h e, h.rtot_i0]

end copyFold

/-- The frequency kernel is the copy-then-push loop over the samples drawn at all. -/
theorem resampleDataRow_eq_copyFold [DecidableEq K] (k : Kernel K V M) (fd : List (K × M)) :
    k.resampleDataRow fd = copyFold k (fd.filter (fun p => p.1 ≠ 0)) := by
  have hrest : ∀ (l : List (K × M)) (o : M), k.resampleRest l o =
      Lawful.foldScale k (l.filter (fun p => p.1 ≠ 0)) o := by
    intro l
    induction l with
    | nil => intro o; rfl
    | cons p l ih =>
      intro o
      unfold Kernel.resampleRest at ih ⊢
      rw [List.foldlM_cons]
      by_cases hp : p.1 = 0
      · simp only [hp, ne_eq, not_true_eq_false, if_false, List.filter_cons, decide_false,
          Bool.false_eq_true]
        exact ih o
      · simp only [hp, ne_eq, not_false_eq_true, if_true, List.filter_cons, decide_true]
        rw [Lawful.foldScale_cons]
        cases k.pushScale p.2 p.1 o with
        | none => rfl
        | some r => exact ih r
  induction fd with
  | nil => rfl
  | cons p fd ih =>
    obtain ⟨f, d⟩ := p
    rw [Kernel.resampleDataRow]
    by_cases hf : f = 0
    · simp [hf, ih]
    · simp only [hf, ne_eq, not_false_eq_true, if_true, List.filter_cons, decide_true]
      rw [hrest]
      rfl

section ordered

variable [LinearOrder K] [IsStrictOrderedRing K] {k : Kernel K V M} (h : Lawful k ι)
include h

theorem copyFold_exists {l : List (K × M)} (hl : ∀ p ∈ l, 0 ≤ k.weight p.2 * p.1) :
    ∃ r, copyFold k l = some r := by
  cases l with
  | nil => exact ⟨_, rfl⟩
  | cons p l =>
    refine h.foldScale_exists_of_nonneg ?_ (fun q hq => hl q (List.mem_cons_of_mem _ hq))
    rw [h.weight_mul]
    exact hl p List.mem_cons_self

end ordered

/-! ### `freq_to_index_start_end_scales` -/

/-- Written `(position, frequency)` pairs of one row, from position `d`. -/
def written : List ℤ → ℕ → List (ℤ × ℤ)
  | [], _ => []
  | f :: fs, d => if 0 < f then ((d : ℤ), f) :: written fs (d + 1) else written fs (d + 1)

theorem set_append_cons {α : Type*} (A J : List α) (j v : α) :
    (A ++ j :: J).set A.length v = A ++ v :: J := by
  rw [List.set_append_right (h := le_rfl)]
  simp

theorem freqRow_eq (r : List ℤ) (d : ℕ) (A S JI JS : List ℤ) (hAS : A.length = S.length)
    (hI : (written r d).length ≤ JI.length) (hS : (written r d).length ≤ JS.length) :
    freqRow r d ⟨A ++ JI, S ++ JS, A.length⟩ =
      ⟨(A ++ (written r d).map Prod.fst) ++ JI.drop (written r d).length,
        (S ++ (written r d).map Prod.snd) ++ JS.drop (written r d).length,
        A.length + (written r d).length⟩ := by
  induction r generalizing d A S JI JS with
  | nil => simp [freqRow, written]
  | cons f fs ih =>
    rw [freqRow]
    by_cases hf : 0 < f
    · rw [if_pos hf]
      have hw : written (f :: fs) d = ((d : ℤ), f) :: written fs (d + 1) := by
        simp [written, hf]
      rw [hw] at hI hS ⊢
      simp only [List.length_cons] at hI hS
      cases JI with
      | nil => simp at hI
      | cons ji JI =>
        cases JS with
        | nil => simp at hS
        | cons js JS =>
          simp only [List.length_cons, Nat.add_le_add_iff_right] at hI hS
          rw [set_append_cons]
          have e2 : (S ++ js :: JS).set A.length f = S ++ f :: JS := by
            rw [hAS]; exact set_append_cons S JS js f
          rw [e2]
          have := ih (d + 1) (A ++ [(d : ℤ)]) (S ++ [f]) JI JS (by simp [hAS]) hI hS
          simp only [List.length_append, List.length_singleton, List.append_assoc,
            List.singleton_append] at this
          rw [this]
          simp
          omega
    · rw [if_neg hf]
      have hw : written (f :: fs) d = written fs (d + 1) := by
        simp [written, hf]
      rw [hw] at hI hS ⊢
      exact ih (d + 1) A S JI JS hAS hI hS

/-- Prefix sums of the row sizes. -/
def offsets : List (List ℤ) → ℕ → List (ℤ × ℤ)
  | [], _ => []
  | r :: rs, n => ((n : ℤ), ((n + (written r 0).length : ℕ) : ℤ)) ::
      offsets rs (n + (written r 0).length)

theorem freqRows_eq (rs : List (List ℤ)) (A S JI JS : List ℤ) (hAS : A.length = S.length)
    (hI : (rs.flatMap (fun r => written r 0)).length ≤ JI.length)
    (hS : (rs.flatMap (fun r => written r 0)).length ≤ JS.length) :
    freqRows rs ⟨A ++ JI, S ++ JS, A.length⟩ =
      ((offsets rs A.length).map Prod.fst, (offsets rs A.length).map Prod.snd,
        ⟨(A ++ (rs.flatMap (fun r => written r 0)).map Prod.fst) ++
            JI.drop (rs.flatMap (fun r => written r 0)).length,
          (S ++ (rs.flatMap (fun r => written r 0)).map Prod.snd) ++
            JS.drop (rs.flatMap (fun r => written r 0)).length,
          A.length + (rs.flatMap (fun r => written r 0)).length⟩) := by
  induction rs generalizing A S JI JS with
  | nil => simp [freqRows, offsets]
  | cons r rs ih =>
    simp only [List.flatMap_cons, List.length_append] at hI hS ⊢
    rw [freqRows, freqRow_eq r 0 A S JI JS hAS (by omega) (by omega)]
    have := ih (A ++ (written r 0).map Prod.fst) (S ++ (written r 0).map Prod.snd)
      (JI.drop (written r 0).length) (JS.drop (written r 0).length) (by simp [hAS])
      (by rw [List.length_drop]; omega) (by rw [List.length_drop]; omega)
    simp only [List.length_append, List.length_map] at this
    simp only
    rw [this]
    simp only [offsets, List.map_cons, List.map_append, List.append_assoc, List.drop_drop,
      Nat.add_assoc, Nat.add_sub_cancel_left, Nat.cast_add]

theorem length_written_le (r : List ℤ) (d : ℕ) :
    (written r d).length ≤ r.countP (fun f => decide (f ≠ 0)) := by
  induction r generalizing d with
  | nil => simp [written]
  | cons f fs ih =>
    rw [written, List.countP_cons]
    have := ih (d + 1)
    split_ifs with h1 h2 h2
    · rw [List.length_cons]; omega
    · simp at h2; omega
    · omega
    · omega

theorem length_written_eq (r : List ℤ) (d : ℕ) (hr : ∀ f ∈ r, 0 ≤ f) :
    (written r d).length = r.countP (fun f => decide (f ≠ 0)) := by
  induction r generalizing d with
  | nil => simp [written]
  | cons f fs ih =>
    rw [written, List.countP_cons, ← ih (d + 1) (fun g hg => hr g (List.mem_cons_of_mem _ hg))]
    have := hr f List.mem_cons_self
    split_ifs with h1 h2 h2
    · simp
    · simp at h2; omega
    · simp at h2; omega
    · omega

theorem length_flatMap_written_le (rs : List (List ℤ)) :
    (rs.flatMap (fun r => written r 0)).length ≤
      (rs.map (fun r => r.countP (fun f => decide (f ≠ 0)))).sum := by
  induction rs with
  | nil => simp
  | cons r rs ih =>
    have := length_written_le r 0
    simp only [List.flatMap_cons, List.length_append, List.map_cons, List.sum_cons]
    omega

theorem length_flatMap_written_eq (rs : List (List ℤ)) (h : ∀ r ∈ rs, ∀ f ∈ r, 0 ≤ f) :
    (rs.flatMap (fun r => written r 0)).length =
      (rs.map (fun r => r.countP (fun f => decide (f ≠ 0)))).sum := by
  induction rs with
  | nil => simp
  | cons r rs ih =>
    have := length_written_eq r 0 (h r List.mem_cons_self)
    have := ih (fun r hr => h r (List.mem_cons_of_mem _ hr))
    simp only [List.flatMap_cons, List.length_append, List.map_cons, List.sum_cons]
    omega

/-- The four arrays, for any table: the drawn entries, then whatever memory held. -/
theorem freqToIndexed_eq (junkI junkS : ℕ → ℤ) (freq : List (List ℤ)) :
    freqToIndexed junkI junkS freq =
      ((freq.flatMap (fun r => written r 0)).map Prod.fst ++
        ((List.range (freq.map (fun r => r.countP (fun f => decide (f ≠ 0)))).sum).map junkI).drop
          (freq.flatMap (fun r => written r 0)).length,
       (offsets freq 0).map Prod.fst, (offsets freq 0).map Prod.snd,
       (freq.flatMap (fun r => written r 0)).map Prod.snd ++
        ((List.range (freq.map (fun r => r.countP (fun f => decide (f ≠ 0)))).sum).map junkS).drop
          (freq.flatMap (fun r => written r 0)).length) := by
  have := freqRows_eq freq [] []
    ((List.range (freq.map (fun r => r.countP (fun f => decide (f ≠ 0)))).sum).map junkI)
    ((List.range (freq.map (fun r => r.countP (fun f => decide (f ≠ 0)))).sum).map junkS) rfl
    (by simpa using length_flatMap_written_le freq) (by simpa using length_flatMap_written_le freq)
  simp only [List.nil_append, List.length_nil] at this
  simp only [freqToIndexed, this]

theorem freqToIndexed_nonneg (junkI junkS : ℕ → ℤ) (freq : List (List ℤ))
    (h : ∀ r ∈ freq, ∀ f ∈ r, 0 ≤ f) :
    freqToIndexed junkI junkS freq =
      ((freq.flatMap (fun r => written r 0)).map Prod.fst,
       (offsets freq 0).map Prod.fst, (offsets freq 0).map Prod.snd,
       (freq.flatMap (fun r => written r 0)).map Prod.snd) := by
  rw [freqToIndexed_eq, length_flatMap_written_eq freq h]
  simp

theorem mem_written {r : List ℤ} {d : ℕ} {p : ℤ × ℤ} (h : p ∈ written r d) :
    (d : ℤ) ≤ p.1 ∧ p.1 < d + r.length ∧ 0 < p.2 := by
  induction r generalizing d with
  | nil => simp [written] at h
  | cons f fs ih =>
    rw [written] at h
    simp only [List.length_cons]
    split_ifs at h with hf
    · rcases List.mem_cons.1 h with rfl | h
      · simp; omega
      · have := ih h
        push_cast at this ⊢
        omega
    · have := ih h
      push_cast at this ⊢
      omega

theorem offsets_zip (rs : List (List ℤ)) (n : ℕ) :
    ((offsets rs n).map Prod.fst).zip ((offsets rs n).map Prod.snd) = offsets rs n := by
  induction offsets rs n with
  | nil => rfl
  | cons p l ih => simp [ih]

theorem mem_offsets {rs : List (List ℤ)} {n : ℕ} {p : ℤ × ℤ} (h : p ∈ offsets rs n) :
    (n : ℤ) ≤ p.1 ∧ p.1 ≤ p.2 ∧ p.2 ≤ n + (rs.flatMap (fun r => written r 0)).length := by
  induction rs generalizing n with
  | nil => simp [offsets] at h
  | cons r rs ih =>
    rw [offsets] at h
    simp only [List.flatMap_cons, List.length_append]
    rcases List.mem_cons.1 h with rfl | h
    · push_cast; omega
    · have := ih h
      push_cast at this ⊢
      omega

/-- The rows picked by the offsets are the written pairs of each row. -/
theorem map_offsets_slice {β : Type*} (F : List (ℤ × ℤ) → β) (rs : List (List ℤ))
    (pre : List (ℤ × ℤ)) :
    (offsets rs pre.length).map (fun p =>
      F (slice (pre ++ rs.flatMap (fun r => written r 0)) p.1.toNat p.2.toNat)) =
      rs.map (fun r => F (written r 0)) := by
  induction rs generalizing pre with
  | nil => rfl
  | cons r rs ih =>
    rw [offsets, List.map_cons, List.map_cons]
    congr 1
    · congr 1
      simp only [Int.toNat_natCast, slice, List.flatMap_cons]
      rw [List.take_append, List.drop_append]
      simp
    · have := ih (pre ++ written r 0)
      rw [List.length_append] at this
      rw [← this]
      simp only [List.flatMap_cons, List.append_assoc]

end Cmomy.Indexed
