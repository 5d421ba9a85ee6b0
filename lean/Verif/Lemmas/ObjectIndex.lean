import Verif.Spec.ObjectIndex
import Verif.Lemmas.ObjectOps
import Verif.Lemmas.ObjectCollect

/-!
# Slices, keys and concatenation
-/

set_option linter.unusedSectionVars false

namespace Cmomy

open Spec Nd Axes ObjectIndex

/-! ### Slices -/

/-- The positions from `a` on, every `c`-th. -/
abbrev runFrom (a : ℤ) (count : ℕ) (c : ℤ) : List ℕ :=
  (List.range count).map (fun j => (a + (j : ℕ) * c).toNat)

theorem count_up {a b c : ℤ} (hc : 0 < c) (j : ℕ) :
    j < (if a < b then (b - a - 1) / c + 1 else 0 : ℤ).toNat ↔ a + j * c < b := by
  split_ifs with h
  · have h0 : 0 ≤ (b - a - 1) / c := Int.ediv_nonneg (by omega) hc.le
    have : j < ((b - a - 1) / c + 1).toNat ↔ (j : ℤ) ≤ (b - a - 1) / c := by omega
    rw [this, Int.le_ediv_iff_mul_le hc]
    omega
  · have : 0 ≤ (j : ℤ) * c := mul_nonneg (by omega) hc.le
    simp only [Int.toNat_zero, Nat.not_lt_zero, false_iff]
    omega

theorem count_down {a b c : ℤ} (hc : c < 0) (j : ℕ) :
    j < (if b < a then (a - b - 1) / (-c) + 1 else 0 : ℤ).toNat ↔ b < a + j * c := by
  have h := count_up (a := -a) (b := -b) (c := -c) (by omega) j
  rw [mul_neg] at h
  have e : (if -a < -b then (-b - -a - 1) / -c + 1 else 0 : ℤ)
      = if b < a then (a - b - 1) / (-c) + 1 else 0 := by
    rw [show -b - -a - 1 = a - b - 1 by ring]
    by_cases hab : b < a
    · rw [if_pos hab, if_pos (by omega)]
    · rw [if_neg hab, if_neg (by omega)]
  rw [e] at h
  rw [h]
  omega

theorem mem_run_up {a b c : ℤ} (hc : 0 < c) (ha : 0 ≤ a) {count : ℕ}
    (hcount : ∀ j : ℕ, j < count ↔ a + j * c < b) (p : ℕ) :
    p ∈ runFrom a count c ↔ a ≤ p ∧ (p : ℤ) < b ∧ c ∣ p - a := by
  simp only [List.mem_map, List.mem_range]
  constructor
  · rintro ⟨j, hj, rfl⟩
    have h1 := (hcount j).1 hj
    have h2 : 0 ≤ (j : ℤ) * c := mul_nonneg (by omega) hc.le
    rw [Int.toNat_of_nonneg (by omega)]
    exact ⟨by omega, h1, ⟨j, by ring⟩⟩
  · rintro ⟨h1, h2, q, hq⟩
    have hq0 : 0 ≤ q := by
      by_contra hneg
      have : c * q < 0 := mul_neg_of_pos_of_neg hc (by omega)
      omega
    have hp : (p : ℤ) = a + q.toNat * c := by
      rw [Int.toNat_of_nonneg hq0]; linarith [mul_comm c q]
    refine ⟨q.toNat, (hcount _).2 (by rw [← hp]; exact h2), ?_⟩
    rw [← hp]
    rfl

theorem mem_run_down {a b c : ℤ} (hc : c < 0) (hb : -1 ≤ b) {count : ℕ}
    (hcount : ∀ j : ℕ, j < count ↔ b < a + j * c) (p : ℕ) :
    p ∈ runFrom a count c ↔ p ≤ a ∧ b < (p : ℤ) ∧ c ∣ p - a := by
  simp only [List.mem_map, List.mem_range]
  constructor
  · rintro ⟨j, hj, rfl⟩
    have h1 := (hcount j).1 hj
    have h2 : (j : ℤ) * c ≤ 0 := mul_nonpos_of_nonneg_of_nonpos (by omega) hc.le
    rw [Int.toNat_of_nonneg (by omega)]
    exact ⟨by omega, h1, ⟨j, by ring⟩⟩
  · rintro ⟨h1, h2, q, hq⟩
    have hq0 : 0 ≤ q := by
      by_contra hneg
      have : 0 < c * q := mul_pos_of_neg_of_neg hc (by omega)
      omega
    have hp : (p : ℤ) = a + q.toNat * c := by
      rw [Int.toNat_of_nonneg hq0]; linarith [mul_comm c q]
    refine ⟨q.toNat, (hcount _).2 (by rw [← hp]; exact h2), ?_⟩
    rw [← hp]
    rfl

theorem run_up_sorted {a c : ℤ} (hc : 0 < c) (ha : 0 ≤ a) (count : ℕ) :
    (runFrom a count c).Pairwise (· < ·) := by
  refine List.Pairwise.map _ (fun j j' hjj => ?_) (List.pairwise_lt_range (n := count))
  have h1 : 0 ≤ (j : ℤ) * c := mul_nonneg (by omega) hc.le
  have h2 : (j : ℤ) * c < (j' : ℤ) * c := by
    have : (j : ℤ) < j' := by exact_mod_cast hjj
    exact mul_lt_mul_of_pos_right this hc
  omega

theorem run_down_sorted {a b c : ℤ} (hc : c < 0) (hb : -1 ≤ b) {count : ℕ}
    (hcount : ∀ j : ℕ, j < count ↔ b < a + j * c) :
    (runFrom a count c).Pairwise (· > ·) := by
  refine List.pairwise_map.2 (List.Pairwise.imp_of_mem (fun {j j'} hj hj' hjj => ?_)
    (List.pairwise_lt_range (n := count)))
  have h1 := (hcount j').1 (List.mem_range.1 hj')
  have h2 : (j' : ℤ) * c < (j : ℤ) * c := by
    have : (j : ℤ) < j' := by exact_mod_cast hjj
    exact mul_lt_mul_of_neg_right this hc
  omega

/-- The positions Python takes for a slice are those it should take. -/
theorem sliceIndices_isSlice {n : ℕ} {start stop step : Option ℤ} {r : ℤ × ℕ × ℤ}
    (h : sliceIndices n start stop step = .ok r) :
    IsSlice n start stop step (runFrom r.1 r.2.1 r.2.2) := by
  unfold sliceIndices at h
  by_cases hc0 : step.getD 1 = 0
  · simp [hc0] at h
  rw [if_neg hc0] at h
  obtain rfl := Except.ok.inj h.symm
  refine ⟨fun e => hc0 (by rw [e]; rfl), ?_⟩
  generalize step.getD 1 = c at hc0
  rcases lt_or_gt_of_ne hc0 with hc | hc
  · right
    simp only [if_pos hc]
    generalize hA : start.elim ((n : ℤ) - 1) _ = a
    generalize hB : stop.elim (-1 : ℤ) _ = b
    have hb : -1 ≤ b := by
      rw [← hB]; cases stop with
      | none => exact le_rfl
      | some z => simp only [Option.elim]; split_ifs <;> omega
    have hcount := fun j => count_down (a := a) (b := b) hc j
    refine ⟨hc, run_down_sorted hc hb hcount, fun p => ?_⟩
    rw [mem_run_down hc hb hcount]
    have hA' : (a = min ((n : ℤ) - 1) ((start.map (sliceBound n)).getD (n - 1))) ∨
        (a = -1 ∧ min ((n : ℤ) - 1) ((start.map (sliceBound n)).getD (n - 1)) < 0) := by
      rw [← hA]; cases start with
      | none => left; simp
      | some z =>
        simp only [Option.elim, Option.map_some, Option.getD_some, sliceBound]
        split_ifs <;> omega
    have hB' : ((∀ z ∈ stop, sliceBound n z < (p : ℤ)) ↔ b < (p : ℤ)) ∨ (n : ℤ) ≤ p := by
      rw [← hB]; cases stop with
      | none => left; simp; omega
      | some z =>
        simp only [Option.elim, Option.mem_def, Option.some.injEq, forall_eq', sliceBound]
        split_ifs <;> omega
    rcases hA' with hA' | ⟨hA', hneg⟩
    · rw [← hA']
      have ha : a ≤ n - 1 := by rw [hA']; exact min_le_left _ _
      constructor
      · rintro ⟨h1, h2, h3⟩
        exact ⟨by omega, h1, (hB'.resolve_right (by omega)).2 h2, h3⟩
      · rintro ⟨h0, h1, h2, h3⟩
        exact ⟨h1, (hB'.resolve_right (by omega)).1 h2, h3⟩
    · constructor
      · rintro ⟨h1, h2, h3⟩; omega
      · rintro ⟨h0, h1, h2, h3⟩; omega
  · left
    simp only [if_neg (not_lt.2 hc.le)]
    generalize hA : start.elim (0 : ℤ) _ = a
    generalize hB : stop.elim (n : ℤ) _ = b
    have ha : 0 ≤ a := by
      rw [← hA]; cases start with
      | none => exact le_rfl
      | some z => simp only [Option.elim]; split_ifs <;> omega
    have hbn : b ≤ n := by
      rw [← hB]; cases stop with
      | none => exact le_rfl
      | some z => simp only [Option.elim]; split_ifs <;> omega
    have hcount := fun j => count_up (a := a) (b := b) hc j
    refine ⟨hc, run_up_sorted hc ha _, fun p => ?_⟩
    rw [mem_run_up hc ha hcount]
    have hA' : (a = max 0 ((start.map (sliceBound n)).getD 0)) ∨
        (a = n ∧ (n : ℤ) ≤ max 0 ((start.map (sliceBound n)).getD 0)) := by
      rw [← hA]; cases start with
      | none => left; simp
      | some z =>
        simp only [Option.elim, Option.map_some, Option.getD_some, sliceBound]
        split_ifs <;> omega
    have hB' : ((∀ z ∈ stop, (p : ℤ) < sliceBound n z) ↔ (p : ℤ) < b) ∨ (n : ℤ) ≤ p := by
      rw [← hB]; cases stop with
      | none =>
        simp only [Option.elim, Option.mem_def, reduceCtorEq, false_implies, implies_true, true_iff]
        omega
      | some z =>
        simp only [Option.elim, Option.mem_def, Option.some.injEq, forall_eq', sliceBound]
        split_ifs <;> omega
    rcases hA' with hA' | ⟨hA', hbig⟩
    · rw [← hA']
      constructor
      · rintro ⟨h1, h2, h3⟩
        exact ⟨by omega, h1, (hB'.resolve_right (by omega)).2 h2, h3⟩
      · rintro ⟨h0, h1, h2, h3⟩
        exact ⟨h1, (hB'.resolve_right (by omega)).1 h2, h3⟩
    · constructor
      · rintro ⟨h1, h2, h3⟩; omega
      · rintro ⟨h0, h1, h2, h3⟩; omega

/-- A slice selects one list of positions. -/
theorem Spec.IsSlice.unique {n : ℕ} {start stop step : Option ℤ} {l l' : List ℕ}
    (h : IsSlice n start stop step l) (h' : IsSlice n start stop step l') : l = l' := by
  rcases h.2 with ⟨hc, hs, hm⟩ | ⟨hc, hs, hm⟩ <;> rcases h'.2 with ⟨hc', hs', hm'⟩ | ⟨hc', hs', hm'⟩
  · exact List.Perm.eq_of_pairwise (fun a b _ _ h1 h2 => absurd h1 (by omega)) hs hs'
      ((List.perm_ext_iff_of_nodup (hs.imp (fun h => by omega)) (hs'.imp (fun h => by omega))).2
        fun p => by rw [hm, hm'])
  · omega
  · omega
  · exact List.Perm.eq_of_pairwise (fun a b _ _ h1 h2 => absurd h1 (by omega)) hs hs'
      ((List.perm_ext_iff_of_nodup (hs.imp (fun h => by omega)) (hs'.imp (fun h => by omega))).2
        fun p => by rw [hm, hm'])

theorem Spec.IsSlice.lt {n : ℕ} {start stop step : Option ℤ} {l : List ℕ}
    (h : IsSlice n start stop step l) : ∀ p ∈ l, p < n := by
  intro p hp
  rcases h.2 with ⟨_, _, hm⟩ | ⟨_, _, hm⟩ <;> exact ((hm p).1 hp).1

/-- Python accepts the slice unless the step is zero. -/
theorem sliceIndices_ok {n : ℕ} {start stop step : Option ℤ} (h : step ≠ some 0) :
    ∃ r, sliceIndices n start stop step = .ok r := by
  unfold sliceIndices
  rw [if_neg]
  · exact ⟨_, rfl⟩
  · cases step with
    | none => simp
    | some z => simpa using h

theorem isSlice_full (n : ℕ) : IsSlice n none none none (List.range n) := by
  refine ⟨by simp, .inl ⟨by simp, List.pairwise_lt_range, fun p => ?_⟩⟩
  simp

theorem sliceIndices_full (n : ℕ) : sliceIndices n none none none = .ok (0, n, 1) := by
  unfold sliceIndices
  simp only [Option.getD_none, one_ne_zero, if_false, Option.elim]
  congr 2
  simp only [show ¬ (1 : ℤ) < 0 by decide, if_false]
  split_ifs with h
  · congr 1; omega
  · congr 1; omega

/-! ### Keys -/

theorem applyKeys_append {es es2 : List Key} {vs ds : List ℕ} {r r2 : List ℕ × ((ℕ → ℕ) → List ℕ)}
    (h : applyKeys es vs = .ok r) (h2 : applyKeys es2 ds = .ok r2) :
    applyKeys (es ++ es2) (vs ++ ds)
      = .ok (r.1 ++ r2.1, fun i => r.2 i ++ r2.2 (fun a => i (a + r.1.length))) := by
  induction es generalizing vs r with
  | nil =>
    cases vs with
    | nil =>
      obtain rfl := Except.ok.inj h
      simpa using h2
    | cons v vs => simp [applyKeys] at h
  | cons k es ih =>
    cases k with
    | newaxis =>
      simp only [applyKeys] at h
      cases e : applyKeys es vs with
      | error _ => rw [e] at h; exact absurd h (by rintro ⟨⟩)
      | ok q =>
        rw [e] at h
        obtain rfl := Except.ok.inj h
        simp only [List.cons_append, applyKeys, ih e]
        rfl
    | ellipsis => simp [applyKeys] at h
    | int z =>
      cases vs with
      | nil => simp [applyKeys] at h
      | cons v vs =>
        simp only [applyKeys] at h
        split_ifs at h with hz
        cases e : applyKeys es vs with
        | error _ => rw [e] at h; exact absurd h (by rintro ⟨⟩)
        | ok q =>
          rw [e] at h
          obtain rfl := Except.ok.inj h
          simp only [List.cons_append, applyKeys, ih e, if_pos hz]
          rfl
    | slice a b c =>
      cases vs with
      | nil => simp [applyKeys] at h
      | cons v vs =>
        simp only [applyKeys] at h
        cases es' : sliceIndices v a b c with
        | error _ => rw [es'] at h; exact absurd h (by rintro ⟨⟩)
        | ok sl =>
          rw [es'] at h
          cases e : applyKeys es vs with
          | error _ => rw [e] at h; exact absurd h (by rintro ⟨⟩)
          | ok q =>
            rw [e] at h
            obtain rfl := Except.ok.inj h
            simp only [List.cons_append, applyKeys, ih e, es']
            rfl
    | list l =>
      cases vs with
      | nil => simp [applyKeys] at h
      | cons v vs =>
        simp only [applyKeys] at h
        split_ifs at h with hz
        cases e : applyKeys es vs with
        | error _ => rw [e] at h; exact absurd h (by rintro ⟨⟩)
        | ok q =>
          rw [e] at h
          obtain rfl := Except.ok.inj h
          simp only [List.cons_append, applyKeys, ih e, if_pos hz]
          rfl
    | mask l =>
      cases vs with
      | nil => simp [applyKeys] at h
      | cons v vs =>
        simp only [applyKeys] at h
        split_ifs at h with hz
        cases e : applyKeys es vs with
        | error _ => rw [e] at h; exact absurd h (by rintro ⟨⟩)
        | ok q =>
          rw [e] at h
          obtain rfl := Except.ok.inj h
          simp only [List.cons_append, applyKeys, ih e, if_pos hz]
          rfl

theorem applyKeys_full (ds : List ℕ) : applyKeys (List.replicate ds.length .full) ds
    = .ok (ds, fun i => (List.range ds.length).map i) := by
  induction ds with
  | nil => rfl
  | cons d ds ih =>
    simp only [List.length_cons, List.replicate_succ, applyKeys, ih, sliceIndices_full]
    show Except.ok (_, _) = _
    congr 2
    funext i
    simp [List.range_succ_eq_map, Function.comp_def]

theorem applyKeys_shape {es : List Key} {vs : List ℕ} {r : List ℕ × ((ℕ → ℕ) → List ℕ)}
    (h : applyKeys es vs = .ok r) :
    (∀ i, (r.2 i).length = vs.length) ∧
      ∀ i j : ℕ → ℕ, (∀ a < r.1.length, i a = j a) → r.2 i = r.2 j := by
  induction es generalizing vs r with
  | nil =>
    cases vs with
    | nil =>
      obtain rfl := Except.ok.inj h
      exact ⟨fun _ => rfl, fun _ _ _ => rfl⟩
    | cons v vs => simp [applyKeys] at h
  | cons k es ih =>
    have step : ∀ {vs : List ℕ} {q}, applyKeys es vs = .ok q → ∀ (n : ℕ) (x : ℕ → ℕ),
        (∀ i : ℕ → ℕ, (x (i 0) :: q.2 (fun a => i (a + 1))).length = vs.length + 1) ∧
        ∀ i j : ℕ → ℕ, (∀ a < (n :: q.1).length, i a = j a) →
          x (i 0) :: q.2 (fun a => i (a + 1)) = x (j 0) :: q.2 (fun a => j (a + 1)) := by
      intro vs q e n x
      obtain ⟨h1, h2⟩ := ih e
      refine ⟨fun i => by simp [h1], fun i j hij => ?_⟩
      rw [hij 0 (by simp), h2 (fun a => i (a + 1)) (fun a => j (a + 1))
        (fun a ha => hij (a + 1) (by simpa using ha))]
    cases k with
    | newaxis =>
      simp only [applyKeys] at h
      cases e : applyKeys es vs with
      | error _ => rw [e] at h; exact absurd h (by rintro ⟨⟩)
      | ok q =>
        rw [e] at h
        obtain rfl := Except.ok.inj h
        obtain ⟨h1, h2⟩ := ih e
        exact ⟨fun i => h1 _, fun i j hij => h2 _ _ (fun a ha => hij (a + 1) (by simpa using ha))⟩
    | ellipsis => simp [applyKeys] at h
    | int z =>
      cases vs with
      | nil => simp [applyKeys] at h
      | cons v vs =>
        simp only [applyKeys] at h
        split_ifs at h with hz
        cases e : applyKeys es vs with
        | error _ => rw [e] at h; exact absurd h (by rintro ⟨⟩)
        | ok q =>
          rw [e] at h
          obtain rfl := Except.ok.inj h
          obtain ⟨h1, h2⟩ := ih e
          exact ⟨fun i => by simp [h1], fun i j hij => congrArg (pyIdx v z :: ·) (h2 i j hij)⟩
    | slice a b c =>
      cases vs with
      | nil => simp [applyKeys] at h
      | cons v vs =>
        simp only [applyKeys] at h
        cases es' : sliceIndices v a b c with
        | error _ => rw [es'] at h; exact absurd h (by rintro ⟨⟩)
        | ok sl =>
          rw [es'] at h
          cases e : applyKeys es vs with
          | error _ => rw [e] at h; exact absurd h (by rintro ⟨⟩)
          | ok q =>
            rw [e] at h
            obtain rfl := Except.ok.inj h
            exact step e sl.2.1 (fun p => (sl.1 + p * sl.2.2).toNat)
    | list l =>
      cases vs with
      | nil => simp [applyKeys] at h
      | cons v vs =>
        simp only [applyKeys] at h
        split_ifs at h with hz
        cases e : applyKeys es vs with
        | error _ => rw [e] at h; exact absurd h (by rintro ⟨⟩)
        | ok q =>
          rw [e] at h
          obtain rfl := Except.ok.inj h
          exact step e l.length (fun p => pyIdx v (l.getD p 0))
    | mask l =>
      cases vs with
      | nil => simp [applyKeys] at h
      | cons v vs =>
        simp only [applyKeys] at h
        split_ifs at h with hz
        cases e : applyKeys es vs with
        | error _ => rw [e] at h; exact absurd h (by rintro ⟨⟩)
        | ok q =>
          rw [e] at h
          obtain rfl := Except.ok.inj h
          exact step e (truePlaces l).length (fun p => (truePlaces l).getD p 0)

theorem expandWith_cons {m : ℕ} {k : Key} {ks : List Key} (hk : k ≠ .ellipsis) :
    expandWith m (k :: ks) = k :: expandWith m ks := by
  unfold expandWith
  have e : (Key.ellipsis ∈ k :: ks) ↔ Key.ellipsis ∈ ks := by
    simp [List.mem_cons, Ne.symm hk]
  simp only [e]
  split_ifs with h
  · simp [hk]
  · rfl

theorem expandWith_ellipsis {m : ℕ} {ks : List Key} (h : Key.ellipsis ∉ ks) :
    expandWith m (.ellipsis :: ks) = List.replicate m .full ++ ks := by
  unfold expandWith
  rw [if_pos (by simp), List.flatMap_cons, if_pos rfl]
  congr 1
  induction ks with
  | nil => rfl
  | cons k ks ih =>
    rw [List.flatMap_cons, if_neg (by rintro rfl; exact h (by simp)), ih (fun h' => h (by simp [h']))]
    rfl

theorem truePlaces_sorted (l : List Bool) : (truePlaces l).Pairwise (· < ·) :=
  List.Pairwise.filter _ List.pairwise_lt_range

theorem mem_truePlaces (l : List Bool) (p : ℕ) : p ∈ truePlaces l ↔ l[p]? = some true := by
  unfold truePlaces
  rw [List.mem_filter, List.mem_range]
  constructor
  · rintro ⟨h1, h2⟩
    rw [List.getElem?_eq_getElem h1]
    rw [List.getD_eq_getElem _ _ h1] at h2
    rw [h2]
  · intro h
    obtain ⟨h1, h2⟩ := List.getElem?_eq_some_iff.1 h
    exact ⟨h1, by rw [List.getD_eq_getElem _ _ h1, h2]⟩

theorem eq_truePlaces {bs : List Bool} {l : List ℕ} (hs : l.Pairwise (· < ·))
    (hm : ∀ p, p ∈ l ↔ bs[p]? = some true) : l = truePlaces bs :=
  List.Perm.eq_of_pairwise (fun a b _ _ h1 h2 => absurd h1 (by omega)) hs (truePlaces_sorted bs)
    ((List.perm_ext_iff_of_nodup (hs.imp (fun h => by omega))
      ((truePlaces_sorted bs).imp (fun h => by omega))).2 fun p => by rw [hm, mem_truePlaces])

theorem map_range_cons (n x : ℕ) (g : ℕ → ℕ) :
    x :: (List.range n).map g = (List.range (n + 1)).map (consIdx x g) := by
  rw [List.range_succ_eq_map, List.map_cons, List.map_map]
  rfl

theorem inBounds_cons {n : ℕ} {vs : List ℕ} {x : ℕ} {g : ℕ → ℕ} (hx : x < n) (hg : InBounds vs g) :
    InBounds (n :: vs) (consIdx x g) := by
  intro a ha
  cases a with
  | zero => simpa [consIdx] using hx
  | succ a => simpa [consIdx] using hg a (by simpa using ha)

theorem inBounds_tail {n : ℕ} {vs : List ℕ} {i : ℕ → ℕ} (h : InBounds (n :: vs) i) :
    i 0 < n ∧ InBounds vs (tailIdx i) :=
  ⟨by simpa using h 0 (by simp), fun a ha => by simpa [tailIdx] using h (a + 1) (by simpa using ha)⟩

theorem wrap_lt {n : ℕ} {z : ℤ} (h : InRange n z) : wrap n z < n := by
  unfold wrap
  obtain ⟨h1, h2⟩ := h
  have hn : (0 : ℤ) < n := by omega
  have := Int.emod_lt_of_pos z hn
  have := Int.emod_nonneg z hn.ne'
  omega

theorem countP_addr {k : Key} (hk : k.addresses = true) (ks : List Key) :
    (k :: ks).countP Key.addresses = ks.countP Key.addresses + 1 := by
  rw [List.countP_cons, if_pos hk]

/-- What a key should select is what it selects. -/
theorem applyKeys_reads {ks : List Key} {vs vs' : List ℕ} {f : (ℕ → ℕ) → ℕ → ℕ}
    (h : Reads ks vs vs' f) :
    ks.countP Key.addresses ≤ vs.length ∧ ks.count .ellipsis ≤ 1 ∧
    (∀ i, InBounds vs' i → InBounds vs (f i)) ∧
    ∃ g, applyKeys (expandWith (vs.length - ks.countP Key.addresses) ks) vs = .ok (vs', g) ∧
      ∀ i, InBounds vs' i → g i = (List.range vs.length).map (f i) := by
  induction h with
  | rest vs =>
    refine ⟨by simp, by simp, fun i hi => hi, _, ?_, fun i _ => rfl⟩
    simpa [expandWith] using applyKeys_full vs
  | @newaxis ks vs vs' f h ih =>
    obtain ⟨h1, h2, h3, g, h4, h5⟩ := ih
    refine ⟨by simpa [Key.addresses] using h1, by simpa using h2,
      fun i hi => h3 _ (inBounds_tail hi).2, _, ?_, fun i hi => h5 _ (inBounds_tail hi).2⟩
    rw [expandWith_cons (by simp)]
    simp only [applyKeys]
    rw [show (Key.newaxis :: ks).countP Key.addresses = ks.countP Key.addresses by
      simp [Key.addresses], h4]
    rfl
  | @int ks vs vs' f n z hz h ih =>
    obtain ⟨h1, h2, h3, g, h4, h5⟩ := ih
    refine ⟨by rw [countP_addr rfl]; simpa using h1, by simpa using h2,
      fun i hi => inBounds_cons (wrap_lt hz) (h3 _ hi), fun i => pyIdx n z :: g i, ?_, fun i hi => ?_⟩
    · rw [expandWith_cons (by simp)]
      simp only [applyKeys]
      rw [if_pos (show -(n : ℤ) ≤ z ∧ z < n from hz), show (n :: vs).length - (Key.int z :: ks).countP Key.addresses
        = vs.length - ks.countP Key.addresses by
          rw [countP_addr rfl]; simp, h4]
      rfl
    · show pyIdx n z :: g i = _
      rw [h5 i hi, map_range_cons, pyIdx_eq_wrap hz]
      rfl
  | @slice ks vs vs' f n a b c l hs h ih =>
    obtain ⟨h1, h2, h3, g, h4, h5⟩ := ih
    obtain ⟨r, hr⟩ := sliceIndices_ok (n := n) (start := a) (stop := b) hs.1
    have hl := hs.unique (sliceIndices_isSlice hr)
    refine ⟨by rw [countP_addr rfl]; simpa using h1, by simpa using h2, fun i hi => ?_,
      fun i => (r.1 + i 0 * r.2.2).toNat :: g (fun a => i (a + 1)), ?_, fun i hi => ?_⟩
    · obtain ⟨hi0, hit⟩ := inBounds_tail hi
      refine inBounds_cons (hs.lt _ ?_) (h3 _ hit)
      rw [List.getD_eq_getElem _ _ hi0]
      exact List.getElem_mem _
    · rw [expandWith_cons (by simp)]
      simp only [applyKeys]
      rw [hr, show (n :: vs).length - (Key.slice a b c :: ks).countP Key.addresses
        = vs.length - ks.countP Key.addresses by
          rw [countP_addr rfl]; simp, h4]
      show Except.ok _ = _
      rw [hl]
      simp [runFrom]
    · obtain ⟨hi0, hit⟩ := inBounds_tail hi
      show (r.1 + i 0 * r.2.2).toNat :: g (tailIdx i) = _
      rw [h5 _ hit, map_range_cons]
      have : l.getD (i 0) 0 = (r.1 + i 0 * r.2.2).toNat := by
        rw [List.getD_eq_getElem _ _ hi0]
        simp [hl]
      simp only [this]
      rfl
  | @list ks vs vs' f n l hz h ih =>
    obtain ⟨h1, h2, h3, g, h4, h5⟩ := ih
    have hin : ∀ p < l.length, InRange n (l.getD p 0) := fun p hp => by
      rw [List.getD_eq_getElem _ _ hp]; exact hz _ (List.getElem_mem _)
    refine ⟨by rw [countP_addr rfl]; simpa using h1, by simpa using h2, fun i hi => ?_,
      fun i => pyIdx n (l.getD (i 0) 0) :: g (fun a => i (a + 1)), ?_, fun i hi => ?_⟩
    · obtain ⟨hi0, hit⟩ := inBounds_tail hi
      exact inBounds_cons (wrap_lt (hin _ hi0)) (h3 _ hit)
    · rw [expandWith_cons (by simp)]
      simp only [applyKeys]
      rw [if_pos (show ∀ z ∈ l, -(n : ℤ) ≤ z ∧ z < n from hz), show (n :: vs).length - (Key.list l :: ks).countP Key.addresses
        = vs.length - ks.countP Key.addresses by
          rw [countP_addr rfl]; simp, h4]
      rfl
    · obtain ⟨hi0, hit⟩ := inBounds_tail hi
      show pyIdx n (l.getD (i 0) 0) :: g (tailIdx i) = _
      rw [h5 _ hit, map_range_cons, pyIdx_eq_wrap (hin _ hi0)]
      rfl
  | @mask ks vs vs' f bs l hs hm h ih =>
    obtain ⟨h1, h2, h3, g, h4, h5⟩ := ih
    obtain rfl := eq_truePlaces hs hm
    refine ⟨by rw [countP_addr rfl]; simpa using h1, by simpa using h2, fun i hi => ?_,
      fun i => (truePlaces bs).getD (i 0) 0 :: g (fun a => i (a + 1)), ?_, fun i hi => ?_⟩
    · obtain ⟨hi0, hit⟩ := inBounds_tail hi
      refine inBounds_cons ?_ (h3 _ hit)
      rw [List.getD_eq_getElem _ _ hi0]
      have := (hm _).1 (List.getElem_mem hi0)
      exact (List.getElem?_eq_some_iff.1 this).1
    · rw [expandWith_cons (by simp)]
      simp only [applyKeys]
      rw [if_pos trivial, show (bs.length :: vs).length - (Key.mask bs :: ks).countP Key.addresses
        = vs.length - ks.countP Key.addresses by
          rw [countP_addr rfl]; simp, h4]
      rfl
    · obtain ⟨hi0, hit⟩ := inBounds_tail hi
      show (truePlaces bs).getD (i 0) 0 :: g (tailIdx i) = _
      rw [h5 _ hit, map_range_cons]
      rfl
  | @ellipsis ks back vs' f front hne hc h ih =>
    obtain ⟨h1, h2, h3, g, h4, h5⟩ := ih
    have hcnt : (Key.ellipsis :: ks).countP Key.addresses = back.length := by
      simpa [Key.addresses] using hc
    have hb : ∀ i, InBounds (front ++ vs') i → InBounds vs' (fun b => i (b + front.length)) := by
      intro i hi a ha
      have := hi (a + front.length) (by simp; omega)
      rwa [List.getD_append_right _ _ _ _ (by omega), Nat.add_sub_cancel] at this
    refine ⟨by rw [hcnt]; simp, by simp [List.count_eq_zero.2 hne], fun i hi a ha => ?_,
      fun i => (List.range front.length).map i ++ g (fun a => i (a + front.length)), ?_,
      fun i hi => ?_⟩
    · simp only
      split_ifs with hlt
      · have := hi a (by simp; omega)
        rw [List.getD_append _ _ _ _ hlt] at this ⊢
        exact this
      · rw [List.getD_append_right _ _ _ _ (by omega)]
        exact h3 _ (hb i hi) _ (by simp at ha; omega)
    · rw [expandWith_ellipsis hne, hcnt, List.length_append, Nat.add_sub_cancel]
      rw [hc, Nat.sub_self] at h4
      have e0 : expandWith 0 ks = ks := by
        unfold expandWith
        rw [if_neg hne]
        simp
      rw [e0] at h4
      exact applyKeys_append (applyKeys_full front) h4
    · show (List.range front.length).map i ++ g _ = _
      rw [h5 _ (hb i hi), List.length_append, List.range_add, List.map_append, List.map_map]
      congr 1
      · refine List.map_congr_left fun a ha => ?_
        simp only [if_pos (List.mem_range.1 ha)]
      · refine List.map_congr_left fun a _ => ?_
        simp only [Function.comp]
        rw [if_neg (by omega), Nat.add_sub_cancel_left]

/-! ### Objects -/

section Objects

variable {K : Type*} {obj : Arr K} {vs ms : List ℕ}

theorem plainKey_index {keys : List Key} (h : PlainKey keys) :
    ¬ (keys.countP Key.advanced > 1 ∨ (keys.countP Key.advanced = 1 ∧ 0 < keys.countP Key.isInt)) := by
  rcases h with h | ⟨h, h'⟩ <;> omega

/-- Cells found through coordinates of the value axes, with the moment axes left as they are. -/
theorem cells_of_keys (h : IsObject obj vs ms) {es : List Key} {vs' : List ℕ}
    {g : (ℕ → ℕ) → List ℕ} {f : (ℕ → ℕ) → ℕ → ℕ} (he : applyKeys es vs = .ok (vs', g))
    (hg : ∀ i, InBounds vs' i → g i = (List.range vs.length).map (f i))
    (hf : ∀ i, InBounds vs' i → InBounds vs (f i)) :
    ∃ r, applyKeys (es ++ List.replicate ms.length .full) obj.shape = .ok r ∧
      CellsFrom ⟨r.1, fun i => obj.get (fun ax => (r.2 i).getD ax 0)⟩ obj vs' vs ms f := by
  have hA := applyKeys_append he (applyKeys_full ms)
  rw [← h.shape] at hA
  obtain ⟨-, hP⟩ := applyKeys_shape hA
  obtain ⟨hL, hP'⟩ := applyKeys_shape he
  refine ⟨_, hA, ⟨?_, rfl, h.count, h.orders⟩, hf, fun i hi m hm => ?_⟩
  · intro i j hij
    show obj.get _ = obj.get _
    congr 1
    funext ax
    exact congrArg (fun l => l.getD ax 0) (hP i j hij)
  · show obj.get _ = _
    refine h.proper _ _ fun ax hax => ?_
    have e : g (atMom vs'.length i m) = g i := hP' _ _ fun a ha => if_pos ha
    simp only
    rw [e, hg i hi]
    unfold atMom
    by_cases hlt : ax < vs.length
    · rw [if_pos hlt, List.getD_append _ _ _ _ (by simpa using hlt)]
      simp [hlt]
    · rw [h.shape, List.length_append] at hax
      rw [if_neg hlt, List.getD_append_right _ _ _ _ (by simpa using hlt)]
      have : ax - vs.length < ms.length := by omega
      simp [this]

theorem getitem_reads (h : IsObject obj vs ms) {ks : List Key} {vs' : List ℕ}
    {f : (ℕ → ℕ) → ℕ → ℕ} (hr : Reads ks vs vs' f) (hp : PlainKey ks) :
    ∃ out, getitem ms.length obj
        (if .ellipsis ∈ ks then ks ++ List.replicate ms.length .full else ks) = .ok out ∧
      CellsFrom out obj vs' vs ms f := by
  obtain ⟨h1, h2, h3, g, h4, h5⟩ := applyKeys_reads hr
  obtain ⟨r, hr1, hr2⟩ := cells_of_keys h h4 h5 h3
  refine ⟨_, ?_, hr2⟩
  have hlen : obj.shape.length = vs.length + ms.length := by rw [h.shape]; simp
  have hidx : index obj (if .ellipsis ∈ ks then ks ++ List.replicate ms.length .full else ks)
      = .ok ⟨r.1, fun i => obj.get (fun ax => (r.2 i).getD ax 0)⟩ := by
    have hadv : ∀ p : Key → Bool, p .full = false →
        (if Key.ellipsis ∈ ks then ks ++ List.replicate ms.length .full else ks).countP p
          = ks.countP p := by
      intro p hpf
      split_ifs
      · simp [List.countP_append, List.countP_replicate, hpf]
      · rfl
    unfold index
    rw [hadv _ rfl, hadv _ rfl, if_neg (plainKey_index hp), if_neg, if_neg]
    · by_cases hE : Key.ellipsis ∈ ks
      · rw [if_pos hE]
        have e1 : (ks ++ List.replicate ms.length Key.full).countP Key.addresses
            = ks.countP Key.addresses + ms.length := by
          simp [List.countP_append, List.countP_replicate, Key.addresses]
        rw [e1, hlen, Nat.add_sub_add_right]
        have e2 : expandWith (vs.length - ks.countP Key.addresses)
              (ks ++ List.replicate ms.length .full)
            = expandWith (vs.length - ks.countP Key.addresses) ks
              ++ List.replicate ms.length .full := by
          unfold expandWith
          rw [if_pos (by simp [hE]), if_pos hE, List.flatMap_append]
          congr 1
          induction ms.length with
          | zero => rfl
          | succ n ih => rw [List.replicate_succ, List.flatMap_cons, ih]; rfl
        rw [e2, hr1]
        rfl
      · rw [if_neg hE, hlen]
        have e2 : expandWith (vs.length + ms.length - ks.countP Key.addresses) ks
            = expandWith (vs.length - ks.countP Key.addresses) ks
              ++ List.replicate ms.length .full := by
          unfold expandWith
          rw [if_neg hE, if_neg hE, List.append_assoc, List.replicate_append_replicate]
          congr 2
          omega
        rw [e2, hr1]
        rfl
    · rw [hlen]
      split_ifs
      · simp [List.countP_append, List.countP_replicate, Key.addresses]; omega
      · omega
    · split_ifs
      · rw [List.count_append, List.count_replicate]
        simpa using h2
      · omega
  unfold getitem
  rw [hidx]
  exact newLike_eq h (momShape_eq hr2.object)

/-- A key applied to all axes: the result is checked for the moment shape only. -/
theorem getitem_all (h : IsObject obj vs ms) {keys : List Key} {ws : List ℕ} {f : (ℕ → ℕ) → ℕ → ℕ}
    (hr : Reads keys obj.shape ws f) (hp : PlainKey keys) :
    (ms <:+ ws → ∃ out, getitem ms.length obj keys = .ok out ∧ out.Proper ∧ out.shape = ws ∧
      ∀ i, InBounds ws i → out.get i = obj.get (f i)) ∧
    (¬ ms <:+ ws → getitem ms.length obj keys = .error .valueError) := by
  obtain ⟨h1, h2, h3, g, h4, h5⟩ := applyKeys_reads hr
  obtain ⟨hL, hP⟩ := applyKeys_shape h4
  have hidx : index obj keys = .ok ⟨ws, fun i => obj.get (fun ax => (g i).getD ax 0)⟩ := by
    unfold index
    rw [if_neg (plainKey_index hp), if_neg (by omega), if_neg (by omega), h4]
    rfl
  have hnl : getitem ms.length obj keys
      = if ms <:+ ws then .ok ⟨ws, fun i => obj.get (fun ax => (g i).getD ax 0)⟩
        else .error .valueError := by
    unfold getitem
    rw [hidx]
    show ObjectOps.newLike _ _ _ = _
    unfold ObjectOps.newLike
    rw [momShape_eq h]
    show Except.bind (ObjectOps.momShape ms.length _) _ = _
    unfold ObjectOps.momShape
    simp only
    by_cases hlen : ws.length < ms.length
    · rw [if_pos hlen, if_neg]
      · rfl
      · intro hs
        have := hs.length_le
        omega
    · rw [if_neg hlen]
      show (if _ then _ else _) = _
      by_cases hs : ms <:+ ws
      · rw [if_neg, if_pos hs]
        exact not_not.2 (List.suffix_iff_eq_drop.1 hs).symm
      · rw [if_pos, if_neg hs]
        intro e
        exact hs (List.suffix_iff_eq_drop.2 e.symm)
  constructor
  · intro hs
    rw [hnl, if_pos hs]
    refine ⟨_, rfl, ?_, rfl, fun i hi => ?_⟩
    · intro i j hij
      show obj.get _ = obj.get _
      congr 1
      funext ax
      exact congrArg (fun l => l.getD ax 0) (hP i j hij)
    · refine h.proper _ _ fun ax hax => ?_
      rw [h5 i hi]
      simp [hax]
  · intro hs
    rw [hnl, if_neg hs]

theorem applyKeys_append_error {es es2 : List Key} {vs ds : List ℕ}
    {r : List ℕ × ((ℕ → ℕ) → List ℕ)} {e : PyErr}
    (h : applyKeys es vs = .ok r) (h2 : applyKeys es2 ds = .error e) :
    applyKeys (es ++ es2) (vs ++ ds) = .error e := by
  induction es generalizing vs r with
  | nil =>
    cases vs with
    | nil => simpa using h2
    | cons v vs => simp [applyKeys] at h
  | cons k es ih =>
    have aux : ∀ {vs' : List ℕ} {F : List ℕ × ((ℕ → ℕ) → List ℕ) → List ℕ × ((ℕ → ℕ) → List ℕ)},
        (applyKeys es vs').map F = .ok r →
        ∀ G : List ℕ × ((ℕ → ℕ) → List ℕ) → List ℕ × ((ℕ → ℕ) → List ℕ),
        (applyKeys (es ++ es2) (vs' ++ ds)).map G = .error e := by
      intro vs' F hF G
      cases e' : applyKeys es vs' with
      | error _ => rw [e'] at hF; exact absurd hF (by rintro ⟨⟩)
      | ok q => rw [ih e']; rfl
    cases k with
    | newaxis => simp only [List.cons_append, applyKeys] at h ⊢; exact aux h _
    | ellipsis => simp [applyKeys] at h
    | int z =>
      cases vs with
      | nil => simp [applyKeys] at h
      | cons v vs =>
        simp only [List.cons_append, applyKeys] at h ⊢
        split_ifs at h with hz
        rw [if_pos hz]
        exact aux h _
    | slice a b c =>
      cases vs with
      | nil => simp [applyKeys] at h
      | cons v vs =>
        simp only [List.cons_append, applyKeys] at h ⊢
        cases es' : sliceIndices v a b c with
        | error _ => rw [es'] at h; exact absurd h (by rintro ⟨⟩)
        | ok sl => rw [es'] at h; exact aux h _
    | list l =>
      cases vs with
      | nil => simp [applyKeys] at h
      | cons v vs =>
        simp only [List.cons_append, applyKeys] at h ⊢
        split_ifs at h with hz
        rw [if_pos hz]
        exact aux h _
    | mask l =>
      cases vs with
      | nil => simp [applyKeys] at h
      | cons v vs =>
        simp only [List.cons_append, applyKeys] at h ⊢
        split_ifs at h with hz
        rw [if_pos hz]
        exact aux h _

/-- Some entry of the key is a slice with step zero. -/
def ZeroStep (keys : List Key) : Prop := ∃ a b, Key.slice a b (some 0) ∈ keys

/-- A key either selects something, or numpy raises an error. -/
theorem applyKeys_total {ks : List Key} {vs : List ℕ} (hc : ks.countP Key.addresses ≤ vs.length)
    (hE : ks.count .ellipsis ≤ 1) :
    (∃ vs' f, Reads ks vs vs' f) ∨
      ∃ e, applyKeys (expandWith (vs.length - ks.countP Key.addresses) ks) vs = .error e ∧
        (e = .indexError ∨ (e = .valueError ∧ ZeroStep ks)) := by
  induction ks generalizing vs with
  | nil => exact .inl ⟨_, _, .rest vs⟩
  | cons k ks ih =>
    have hz : ∀ {e}, (e = PyErr.indexError ∨ (e = .valueError ∧ ZeroStep ks)) →
        (e = .indexError ∨ (e = .valueError ∧ ZeroStep (k :: ks))) := by
      rintro e (h | ⟨h, a, b, hm⟩)
      · exact .inl h
      · exact .inr ⟨h, a, b, by simp [hm]⟩
    cases k with
    | newaxis =>
      have hcnt : (Key.newaxis :: ks).countP Key.addresses = ks.countP Key.addresses := by
        simp [Key.addresses]
      rw [hcnt] at hc ⊢
      rcases ih hc (by simpa using hE) with ⟨vs', f, hr⟩ | ⟨e, he, hk⟩
      · exact .inl ⟨_, _, .newaxis hr⟩
      · refine .inr ⟨e, ?_, hz hk⟩
        rw [expandWith_cons (by simp)]
        simp only [applyKeys, he]
        rfl
    | ellipsis =>
      have hne : Key.ellipsis ∉ ks := by
        intro hm
        have := List.count_pos_iff.2 hm
        simp at hE
        omega
      have hcnt : (Key.ellipsis :: ks).countP Key.addresses = ks.countP Key.addresses := by
        simp [Key.addresses]
      rw [hcnt] at hc ⊢
      set m := vs.length - ks.countP Key.addresses with hm
      have hb : (vs.drop m).length = ks.countP Key.addresses := by simp; omega
      have hf : (vs.take m).length = m := by simp; omega
      rcases ih (vs := vs.drop m) hb.ge (by simp [List.count_eq_zero.2 hne]) with
        ⟨vs', f, hr⟩ | ⟨e, he, hk⟩
      · have := Reads.ellipsis (vs.take m) hne hb.symm hr
        rw [List.take_append_drop] at this
        exact .inl ⟨_, _, this⟩
      · refine .inr ⟨e, ?_, hz hk⟩
        rw [expandWith_ellipsis hne]
        rw [hb, Nat.sub_self] at he
        have e0 : expandWith 0 ks = ks := by
          unfold expandWith
          rw [if_neg hne]
          simp
        rw [e0] at he
        have := applyKeys_append_error (applyKeys_full (vs.take m)) he
        rwa [List.take_append_drop, hf] at this
    | int z =>
      cases vs with
      | nil => rw [countP_addr rfl] at hc; simp at hc
      | cons v vs =>
        have hcnt : (v :: vs).length - (Key.int z :: ks).countP Key.addresses
            = vs.length - ks.countP Key.addresses := by rw [countP_addr rfl]; simp
        rw [hcnt, expandWith_cons (by simp)]
        rw [countP_addr rfl] at hc
        simp only [applyKeys]
        by_cases hzr : -(v : ℤ) ≤ z ∧ z < v
        · rw [if_pos hzr]
          rcases ih (by simpa using hc) (by simpa using hE) with ⟨vs', f, hr⟩ | ⟨e, he, hk⟩
          · exact .inl ⟨_, _, .int hzr hr⟩
          · exact .inr ⟨e, by rw [he]; rfl, hz hk⟩
        · exact .inr ⟨_, by rw [if_neg hzr], .inl rfl⟩
    | slice a b c =>
      cases vs with
      | nil => rw [countP_addr rfl] at hc; simp at hc
      | cons v vs =>
        have hcnt : (v :: vs).length - (Key.slice a b c :: ks).countP Key.addresses
            = vs.length - ks.countP Key.addresses := by rw [countP_addr rfl]; simp
        rw [hcnt, expandWith_cons (by simp)]
        rw [countP_addr rfl] at hc
        simp only [applyKeys]
        by_cases hc0 : c = some 0
        · subst hc0
          refine .inr ⟨.valueError, ?_, .inr ⟨rfl, a, b, by simp⟩⟩
          rfl
        · obtain ⟨r, hr⟩ := sliceIndices_ok (n := v) (start := a) (stop := b) hc0
          rw [hr]
          rcases ih (by simpa using hc) (by simpa using hE) with ⟨vs', f, hr'⟩ | ⟨e, he, hk⟩
          · exact .inl ⟨_, _, .slice (sliceIndices_isSlice hr) hr'⟩
          · exact .inr ⟨e, by rw [he]; rfl, hz hk⟩
    | list l =>
      cases vs with
      | nil => rw [countP_addr rfl] at hc; simp at hc
      | cons v vs =>
        have hcnt : (v :: vs).length - (Key.list l :: ks).countP Key.addresses
            = vs.length - ks.countP Key.addresses := by rw [countP_addr rfl]; simp
        rw [hcnt, expandWith_cons (by simp)]
        rw [countP_addr rfl] at hc
        simp only [applyKeys]
        by_cases hzr : ∀ z ∈ l, -(v : ℤ) ≤ z ∧ z < v
        · rw [if_pos hzr]
          rcases ih (by simpa using hc) (by simpa using hE) with ⟨vs', f, hr⟩ | ⟨e, he, hk⟩
          · exact .inl ⟨_, _, .list hzr hr⟩
          · exact .inr ⟨e, by rw [he]; rfl, hz hk⟩
        · exact .inr ⟨_, by rw [if_neg hzr], .inl rfl⟩
    | mask l =>
      cases vs with
      | nil => rw [countP_addr rfl] at hc; simp at hc
      | cons v vs =>
        have hcnt : (v :: vs).length - (Key.mask l :: ks).countP Key.addresses
            = vs.length - ks.countP Key.addresses := by rw [countP_addr rfl]; simp
        rw [hcnt, expandWith_cons (by simp)]
        rw [countP_addr rfl] at hc
        simp only [applyKeys]
        by_cases hzr : l.length = v
        · rw [if_pos hzr]
          rcases ih (by simpa using hc) (by simpa using hE) with ⟨vs', f, hr⟩ | ⟨e, he, hk⟩
          · subst hzr
            exact .inl ⟨_, _, .mask (truePlaces_sorted l) (mem_truePlaces l) hr⟩
          · exact .inr ⟨e, by rw [he]; rfl, hz hk⟩
        · exact .inr ⟨_, by rw [if_neg hzr], .inl rfl⟩

/-- A key that selects nothing from the array raises an error. -/
theorem getitem_fails {keys : List Key} (hp : PlainKey keys)
    (hn : ¬ ∃ ws f, Reads keys obj.shape ws f) (d : ℕ) :
    getitem d obj keys = .error .indexError ∨
      (getitem d obj keys = .error .valueError ∧ ZeroStep keys) := by
  unfold getitem index
  rw [if_neg (plainKey_index hp)]
  by_cases hE : keys.count .ellipsis > 1
  · rw [if_pos hE]
    exact .inl rfl
  · rw [if_neg hE]
    by_cases hc : keys.countP Key.addresses > obj.shape.length
    · rw [if_pos hc]
      exact .inl rfl
    · rw [if_neg hc]
      rcases applyKeys_total (not_lt.1 hc) (not_lt.1 hE) with ⟨ws, f, hr⟩ | ⟨e, he, hk⟩
      · exact absurd ⟨ws, f, hr⟩ hn
      · rw [he]
        rcases hk with rfl | ⟨rfl, hk⟩
        · exact .inl rfl
        · exact .inr ⟨rfl, hk⟩

end Objects

/-! ### Concatenation -/

section Concat

theorem findPart_eq (sizes : List ℕ) (k j : ℕ) (hk : k < sizes.length) (hj : j < sizes[k]) :
    findPart sizes ((sizes.take k).sum + j) = (k, j) := by
  induction sizes generalizing k with
  | nil => simp at hk
  | cons n ns ih =>
    cases k with
    | zero =>
      have : j < n := by simpa using hj
      simp [findPart, this]
    | succ k =>
      have e := ih k (by simpa using hk) (by simpa using hj)
      rw [List.take_succ_cons, List.sum_cons, findPart, if_neg (by omega),
        show n + (ns.take k).sum + j - n = (ns.take k).sum + j by omega, e]

theorem findPart_lt (sizes : List ℕ) (p : ℕ) (hp : p < sizes.sum) :
    ∃ h : (findPart sizes p).1 < sizes.length, (findPart sizes p).2 < sizes[(findPart sizes p).1] ∧
      p = (sizes.take (findPart sizes p).1).sum + (findPart sizes p).2 := by
  induction sizes generalizing p with
  | nil => simp at hp
  | cons n ns ih =>
    by_cases h : p < n
    · simp only [findPart, if_pos h]
      exact ⟨by simp, by simpa using h, by simp⟩
    · obtain ⟨h1, h2, h3⟩ := ih (p - n) (by simp at hp; omega)
      simp only [findPart, if_neg h]
      refine ⟨by simpa using h1, by simpa using h2, ?_⟩
      simp only [List.take_succ_cons, List.sum_cons]
      omega

variable {K : Type*}

theorem npConcat_ok {arrays : List (Arr K)} {shape : List ℕ} {z : ℤ}
    (hne : arrays ≠ []) (hz : InRange shape.length z)
    (hs : ∀ b ∈ arrays, ∃ n, b.shape = shape.set (wrap shape.length z) n) :
    npConcat arrays z = .ok ⟨shape.set (wrap shape.length z)
        (arrays.map (fun b => b.shape.getD (wrap shape.length z) 0)).sum, fun i =>
      (arrays.getD (findPart (arrays.map (fun b => b.shape.getD (wrap shape.length z) 0))
          (i (wrap shape.length z))).1 (arrays.head hne)).get
        (Function.update i (wrap shape.length z)
          (findPart (arrays.map (fun b => b.shape.getD (wrap shape.length z) 0))
            (i (wrap shape.length z))).2)⟩ := by
  cases arrays with
  | nil => exact absurd rfl hne
  | cons a as =>
    obtain ⟨n, ha⟩ := hs a (by simp)
    have hlen : a.shape.length = shape.length := by rw [ha]; simp
    simp only [npConcat]
    rw [hlen, if_neg, if_neg (not_not.2 (show -(shape.length : ℤ) ≤ z ∧ z < shape.length from hz)),
      pyIdx_eq_wrap hz, if_neg]
    · simp only [List.head_cons]
      congr 2
      conv_lhs => rw [ha, List.set_set]
    · rintro ⟨b, hb, h | h⟩
      · obtain ⟨n', hb'⟩ := hs b hb
        rw [hb', ha, List.eraseIdx_set_eq, List.eraseIdx_set_eq] at h
        exact h rfl
      · obtain ⟨n', hb'⟩ := hs b hb
        rw [hb'] at h
        simp at h
    · obtain ⟨h1, h2⟩ := hz
      omega

theorem startOf_eq (arrays : List (Arr K)) (ax k : ℕ) :
    startOf arrays ax k = ((arrays.map (fun b => b.shape.getD ax 0)).take k).sum := by
  unfold startOf axisSize
  rw [List.map_take]

/-- The arrays put behind one another. -/
theorem npConcat_joins {arrays : List (Arr K)} {shape : List ℕ} {z : ℤ}
    (hne : arrays ≠ []) (hz : InRange shape.length z) (hp : ∀ b ∈ arrays, b.Proper)
    (hs : ∀ b ∈ arrays, ∃ n, b.shape = shape.set (wrap shape.length z) n) :
    ∃ out, npConcat arrays z = .ok out ∧ Joins out arrays shape (wrap shape.length z) := by
  refine ⟨_, npConcat_ok hne hz hs, ?_, ?_, ?_⟩
  · intro i j hij
    have hax : i (wrap shape.length z) = j (wrap shape.length z) :=
      hij _ (by simpa using wrap_lt hz)
    have hlen : ∀ b ∈ arrays, b.shape.length = shape.length := by
      intro b hb
      obtain ⟨n, e⟩ := hs b hb
      rw [e]; simp
    simp only
    rw [hax]
    have hmem : arrays.getD (findPart (arrays.map (fun b => b.shape.getD (wrap shape.length z) 0))
        (j (wrap shape.length z))).1 (arrays.head hne) ∈ arrays := by
      rw [List.getD_eq_getElem?_getD]
      cases e : arrays[(findPart (arrays.map (fun b => b.shape.getD (wrap shape.length z) 0))
        (j (wrap shape.length z))).1]? with
      | none => exact List.head_mem hne
      | some a => exact List.mem_of_getElem? e
    refine hp _ hmem _ _ fun a ha => ?_
    rw [hlen _ hmem] at ha
    by_cases hE : a = wrap shape.length z
    · subst hE; simp
    · rw [Function.update_of_ne hE, Function.update_of_ne hE]
      exact hij a (by simpa using ha)
  · rw [startOf_eq, List.take_of_length_le (by simp)]
  · intro k a hk i hi
    obtain ⟨hk', rfl⟩ := List.getElem?_eq_some_iff.1 hk
    have hax : i (wrap shape.length z) < arrays[k].shape.getD (wrap shape.length z) 0 := by
      refine hi _ ?_
      obtain ⟨n, e⟩ := hs _ (List.getElem_mem hk')
      rw [e]
      simpa using wrap_lt hz
    simp only [Function.update_self, Function.update_idem]
    rw [startOf_eq, findPart_eq _ k _ (by simpa using hk') (by simpa using hax)]
    simp [List.getElem?_eq_getElem hk']

theorem npConcat_rejects {arrays : List (Arr K)} {a : Arr K} {as : List (Arr K)} {z : ℤ}
    (he : arrays = a :: as) (hz : InRange a.shape.length z)
    (hbad : ∃ b ∈ as, ¬ ∃ n, b.shape = a.shape.set (wrap a.shape.length z) n) :
    npConcat arrays z = .error .valueError := by
  subst he
  simp only [npConcat]
  have h0 : a.shape.length ≠ 0 := by
    obtain ⟨h1, h2⟩ := hz
    omega
  rw [if_neg h0, if_neg (not_not.2 (show -(a.shape.length : ℤ) ≤ z ∧ z < a.shape.length from hz)),
    if_pos]
  rw [pyIdx_eq_wrap hz]
  obtain ⟨b, hb, hn⟩ := hbad
  refine ⟨b, by simp [hb], ?_⟩
  by_contra hcon
  push Not at hcon
  obtain ⟨h1, h2⟩ := hcon
  have hlt := wrap_lt hz
  refine hn ⟨b.shape.getD (wrap a.shape.length z) 0, ?_⟩
  generalize wrap a.shape.length z = ax at *
  refine List.ext_getElem (by simpa using h2) fun p hp1 hp2 => ?_
  rw [List.getElem_set]
  split_ifs with hpa
  · subst hpa
    rw [List.getD_eq_getElem _ _ hp1]
  · have e1 := congrArg (fun l : List ℕ => l[if p < ax then p else p - 1]?) h1
    simp only [List.getElem?_eraseIdx] at e1
    have hp3 : p < a.shape.length := by simpa using hp2
    by_cases hlt' : p < ax
    · simp only [if_pos hlt', List.getElem?_eq_getElem hp1, List.getElem?_eq_getElem hp3] at e1
      exact Option.some.inj e1
    · have : ¬ p - 1 < ax := by omega
      have h3 : p - 1 + 1 = p := by omega
      simp only [if_neg hlt', if_neg this, h3, List.getElem?_eq_getElem hp1,
        List.getElem?_eq_getElem hp3] at e1
      exact Option.some.inj e1

theorem flatMap_range_sum {α : Type*} (sizes : List ℕ) (F : ℕ → List α) :
    (List.range sizes.sum).flatMap F = (List.range sizes.length).flatMap (fun k =>
      (List.range (sizes.getD k 0)).flatMap (fun j => F ((sizes.take k).sum + j))) := by
  induction sizes generalizing F with
  | nil => rfl
  | cons n ns ih =>
    rw [List.sum_cons, List.range_add, List.flatMap_append, List.length_cons,
      List.range_succ_eq_map, List.flatMap_cons]
    congr 1
    · simp
    · rw [List.flatMap_map, ih, List.flatMap_map]
      refine List.flatMap_congr fun k _ => ?_
      simp [List.take_succ_cons, Nat.add_assoc]

theorem set_append_left' (vs ms : List ℕ) {ax n : ℕ} (h : ax < vs.length) :
    (vs ++ ms).set ax n = vs.set ax n ++ ms := List.set_append_left _ _ h

/-- The objects put behind one another along a value axis: an object. -/
theorem Spec.Joins.isObject {out : Arr K} {arrays : List (Arr K)} {vs ms : List ℕ} {ax : ℕ}
    (h : Joins out arrays (vs ++ ms) ax) (hax : ax < vs.length) (hc : ms.length = 1 ∨ ms.length = 2)
    (ho : ∀ m ∈ ms, 2 ≤ m) : IsObject out (vs.set ax (startOf arrays ax arrays.length)) ms where
  proper := h.proper
  shape := by rw [h.shape, List.set_append_left _ _ hax]
  count := hc
  orders := ho

/-- The samples behind the cells of objects put behind one another. -/
def joinedSamples {σ : Type*} (arrays : List (Arr K)) (ax : ℕ) (L : ℕ → (ℕ → ℕ) → List σ)
    (i : ℕ → ℕ) : List σ :=
  L (findPart (arrays.map (fun b => b.shape.getD ax 0)) (i ax)).1
    (Function.update i ax (findPart (arrays.map (fun b => b.shape.getD ax 0)) (i ax)).2)

theorem joinedSamples_at {σ : Type*} {arrays : List (Arr K)} {ax : ℕ} (L : ℕ → (ℕ → ℕ) → List σ)
    {k : ℕ} {a : Arr K} (hk : arrays[k]? = some a) (i : ℕ → ℕ) {j : ℕ} (hj : j < axisSize a ax) :
    joinedSamples arrays ax L (Function.update i ax (startOf arrays ax k + j))
      = L k (Function.update i ax j) := by
  obtain ⟨hk', rfl⟩ := List.getElem?_eq_some_iff.1 hk
  unfold joinedSamples
  simp only [Function.update_self, Function.update_idem]
  rw [startOf_eq, findPart_eq _ k _ (by simpa using hk') (by simpa [axisSize] using hj)]

theorem joined_stands {M σ : Type*} {core : Core K M} {H : List σ → M → Prop} {out : Arr K}
    {arrays : List (Arr K)} {vs ms : List ℕ} {ax : ℕ} {L : ℕ → (ℕ → ℕ) → List σ}
    (hne : arrays ≠ []) (h : Joins out arrays (vs ++ ms) ax) (hax : ax < vs.length)
    (hS : ∀ k a, arrays[k]? = some a → Stands core H a (vs.set ax (axisSize a ax)) ms (L k))
    (hH : ∀ (S : List σ) (g g' : List ℕ → K), (∀ c, Within ms c → g c = g' c) →
      H S (core.recd g') → H S (core.recd g)) :
    Stands core H out (vs.set ax (startOf arrays ax arrays.length)) ms (joinedSamples arrays ax L) := by
  obtain ⟨a0, ha0⟩ : ∃ a, arrays[0]? = some a := by
    cases arrays with
    | nil => exact absurd rfl hne
    | cons a as => exact ⟨a, rfl⟩
  have h0 := hS 0 a0 ha0
  refine ⟨h.isObject hax h0.object.count h0.object.orders, h0.nd, fun i hi => ?_⟩
  have hi' : i ax < (arrays.map (fun b => b.shape.getD ax 0)).sum := by
    have := hi ax (by simpa using hax)
    rw [startOf_eq, List.take_of_length_le (by simp)] at this
    simpa [hax] using this
  obtain ⟨p1, p2, p3⟩ := findPart_lt _ _ hi'
  set k := (findPart (arrays.map (fun b => b.shape.getD ax 0)) (i ax)).1 with hk
  set j := (findPart (arrays.map (fun b => b.shape.getD ax 0)) (i ax)).2 with hj
  have hk' : k < arrays.length := by simpa using p1
  have hka : arrays[k]? = some arrays[k] := List.getElem?_eq_getElem hk'
  have hja : j < axisSize arrays[k] ax := by
    rw [List.getElem_map] at p2
    exact p2
  have hSk := hS k _ hka
  have hin : InBounds (vs.set ax (axisSize arrays[k] ax)) (Function.update i ax j) := by
    intro a ha
    by_cases hE : a = ax
    · subst hE
      simpa [hax] using hja
    · have := hi a (by simpa using ha)
      rw [Function.update_of_ne hE]
      simpa [List.getElem?_set, Ne.symm hE] using this
  show H (L k (Function.update i ax j)) _
  refine hH _ _ _ (fun c hc => ?_) (hSk.holds _ hin)
  have hb : InBounds arrays[k].shape (atMom (vs.set ax (axisSize arrays[k] ax)).length
      (Function.update i ax j) c) := by
    rw [hSk.object.shape]
    intro a ha
    unfold atMom
    split_ifs with hlt
    · rw [List.getD_append _ _ _ _ hlt]; exact hin a hlt
    · rw [List.getD_append_right _ _ _ _ (by omega)]
      have hl := hc.length_eq
      have hlt2 : a - (vs.set ax (axisSize arrays[k] ax)).length < ms.length := by
        simp at ha hlt ⊢; omega
      have := hc.get (i := a - (vs.set ax (axisSize arrays[k] ax)).length) (by omega) hlt2
      simp only [List.get_eq_getElem] at this
      rw [List.getD_eq_getElem _ _ (by omega), List.getD_eq_getElem _ _ hlt2]
      exact this
  rw [← h.part k _ hka _ hb]
  congr 1
  funext a
  by_cases hE : a = ax
  · subst hE
    rw [Function.update_self]
    simp only [atMom, List.length_set, hax, if_true, Function.update_self]
    rw [startOf_eq]
    exact p3
  · rw [Function.update_of_ne hE]
    simp only [atMom, List.length_set]
    split_ifs
    · rw [Function.update_of_ne hE]
    · rfl

/-- All samples behind objects put behind one another are those behind the objects. -/
theorem joined_all {σ : Type*} {arrays : List (Arr K)} {vs : List ℕ} {ax : ℕ} (hax : ax < vs.length)
    (L : ℕ → (ℕ → ℕ) → List σ) (i : ℕ → ℕ) :
    allSamplesOver (joinedSamples arrays ax L) (vs.set ax (startOf arrays ax arrays.length)) [ax] i
      = (List.range arrays.length).flatMap (fun k =>
          (samplesAlong (L k) ax ((arrays.map (fun a => axisSize a ax)).getD k 0) i).flatten) := by
  have e : allSamplesOver (joinedSamples arrays ax L) (vs.set ax (startOf arrays ax arrays.length))
      [ax] i = (List.range (arrays.map (fun b => b.shape.getD ax 0)).sum).flatMap
        (fun p => joinedSamples arrays ax L (Function.update i ax p)) := by
    unfold allSamplesOver
    rw [List.map_singleton, allIdx_one, List.flatMap_map]
    congr 2
    rw [startOf_eq, List.take_of_length_le (by simp)]
    simp [hax]
  rw [e, flatMap_range_sum, List.length_map]
  refine List.flatMap_congr fun k hk => ?_
  have hk' := List.mem_range.1 hk
  unfold samplesAlong
  rw [← List.flatMap_def]
  have hg : (arrays.map (fun b => b.shape.getD ax 0)).getD k 0 = axisSize arrays[k] ax := by
    simp [hk', axisSize]
  have hg' : (arrays.map (fun a => axisSize a ax)).getD k 0 = axisSize arrays[k] ax := by
    simp [hk']
  rw [hg, hg']
  refine List.flatMap_congr fun j hj => ?_
  rw [← startOf_eq]
  exact joinedSamples_at L (List.getElem?_eq_getElem hk') i (List.mem_range.1 hj)

end Concat

/-! ### Making the object -/

theorem pyGet_end {vs ms : List ℕ} {j : ℕ} (hj : j < ms.length) :
    Validate.pyGet (vs ++ ms) (-(ms.length : ℤ) + j) = .ok ms[j] := by
  unfold Validate.pyGet
  rw [if_pos (by omega : -(ms.length : ℤ) + j < 0)]
  simp only
  rw [if_neg (by simp; omega)]
  have : (-(ms.length : ℤ) + j + (vs ++ ms).length).toNat = vs.length + j := by simp; omega
  rw [this, List.getElem?_append_right (by omega), Nat.add_sub_cancel_left,
    List.getElem?_eq_getElem hj]

/-- The constructor leaves an array alone whose last axes are to be the moment axes. -/
theorem construct_object {K : Type} {a : Arr K} {vs ms : List ℕ} (h : IsObject a vs ms) :
    Validate.construct (δ := Unit) a .absent (some ms.length) none
      = .ok (a, ⟨ms.length, Select.axesLast ms.length⟩) := by
  have hms := h.orders
  rcases h.count with hc | hc
  · obtain ⟨s, rfl⟩ := List.length_eq_one_iff.1 hc
    have h2 := hms s (by simp)
    have hg : Validate.getMom a.shape [-1] = .ok [(s : ℤ) - 1] := by
      have := pyGet_end (vs := vs) (ms := [s]) (j := 0) (by simp)
      unfold Validate.getMom
      rw [h.shape, List.mapM_cons, List.mapM_nil]
      rw [show (-1 : ℤ) = -(([s] : List ℕ).length : ℤ) + ((0 : ℕ) : ℤ) by simp, this]
      show Validate.momShapeToMom (.seq [(s : ℤ)]) = _
      unfold Validate.momShapeToMom Validate.validateMom
      rw [if_pos (by simp [Validate.isMomTuple, Validate.IntArg.tuple]; omega)]
      rfl
    unfold Validate.construct
    show Except.bind (.ok (⟨1, [-1]⟩ : Validate.PArray)) _ = _
    show (match Validate.getMom a.shape [-1] with | .error _ => _ | .ok _ => _) = _
    rw [hg]
    show Except.bind (Validate.getMom a.shape [-1]) _ = _
    rw [hg]
    show (if _ then _ else _) = _
    rw [if_neg]
    · rfl
    · simp; omega
  · obtain ⟨s, t, rfl⟩ := List.length_eq_two.1 hc
    have h2 := hms s (by simp)
    have h3 := hms t (by simp)
    have hg : Validate.getMom a.shape [-2, -1] = .ok [(s : ℤ) - 1, (t : ℤ) - 1] := by
      have e1 := pyGet_end (vs := vs) (ms := [s, t]) (j := 0) (by simp)
      have e2 := pyGet_end (vs := vs) (ms := [s, t]) (j := 1) (by simp)
      simp only [List.length_cons, List.length_nil, Nat.zero_add, Nat.reduceAdd, Nat.cast_ofNat,
        Nat.cast_zero, add_zero, Nat.cast_one, Int.reduceNeg, Int.reduceAdd, List.getElem_cons_zero,
        List.getElem_cons_succ] at e1 e2
      unfold Validate.getMom
      rw [h.shape, List.mapM_cons, List.mapM_cons, List.mapM_nil, e1, e2]
      show Validate.momShapeToMom (.seq [(s : ℤ), (t : ℤ)]) = _
      unfold Validate.momShapeToMom Validate.validateMom
      rw [if_pos (by simp [Validate.isMomTuple, Validate.IntArg.tuple]; omega)]
      rfl
    unfold Validate.construct
    show Except.bind (.ok (⟨2, [-2, -1]⟩ : Validate.PArray)) _ = _
    show (match Validate.getMom a.shape [-2, -1] with | .error _ => _ | .ok _ => _) = _
    rw [hg]
    show Except.bind (Validate.getMom a.shape [-2, -1]) _ = _
    rw [hg]
    show (if _ then _ else _) = _
    rw [if_neg]
    · rfl
    · simp; omega

end Cmomy
