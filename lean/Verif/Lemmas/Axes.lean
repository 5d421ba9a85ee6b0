import Verif.Model.Axes
import Verif.Spec.Axes
import Mathlib.Data.List.Nodup
import Mathlib.Data.List.Perm.Basic
import Mathlib.Data.List.InsertIdx
import Mathlib.Tactic.Linarith

/-!
# Inserting at increasing positions, normalising axis numbers
-/

namespace Cmomy.Axes

open Spec

section Insert

/-- Strictly increasing numbers below `N`: the first one leaves room for the others. -/
theorem head_room {p : ℕ × ℕ} {ps : List (ℕ × ℕ)} {N : ℕ}
    (hs : (p :: ps).Pairwise (fun a b => a.1 < b.1)) (hN : ∀ q ∈ p :: ps, q.1 < N) :
    p.1 + ps.length < N := by
  induction ps generalizing p with
  | nil => simpa using hN p (by simp)
  | cons q qs ih =>
    have h1 := (List.pairwise_cons.1 hs)
    have := ih h1.2 (fun r hr => hN r (List.mem_cons_of_mem _ hr))
    have h2 := h1.1 q (by simp)
    simp only [List.length_cons]; omega

theorem fold_insert (ps : List (ℕ × ℕ)) (L : List ℕ)
    (hs : ps.Pairwise (fun a b => a.1 < b.1)) (hN : ∀ q ∈ ps, q.1 < L.length + ps.length) :
    (ps.foldl (fun o p => pyInsert o p.1 p.2) L).Perm (L ++ ps.map Prod.snd) ∧
    (∀ q ∈ ps, (ps.foldl (fun o p => pyInsert o p.1 p.2) L)[q.1]? = some q.2) ∧
    (∀ i, (∀ q ∈ ps, i < q.1) → (ps.foldl (fun o p => pyInsert o p.1 p.2) L)[i]? = L[i]?) ∧
    (∀ f : ℕ → Bool, (∀ q ∈ ps, f q.2 = false) →
      (ps.foldl (fun o p => pyInsert o p.1 p.2) L).filter f = L.filter f) := by
  induction ps generalizing L with
  | nil => simp
  | cons p ps ih =>
    have h1 := List.pairwise_cons.1 hs
    have hroom := head_room hs hN
    simp only [List.length_cons] at hroom hN
    have hp : p.1 ≤ L.length := by omega
    have hlen : (pyInsert L p.1 p.2).length = L.length + 1 := by
      unfold pyInsert
      rw [List.length_insertIdx_of_le_length (by omega)]
    obtain ⟨i1, i2, i3, i4⟩ := ih (pyInsert L p.1 p.2) h1.2 (by
      intro q hq; have := hN q (List.mem_cons_of_mem _ hq); omega)
    have hperm : (pyInsert L p.1 p.2).Perm (p.2 :: L) := by
      unfold pyInsert
      exact List.perm_insertIdx _ _ (by omega)
    have hget : (pyInsert L p.1 p.2)[p.1]? = some p.2 := by
      unfold pyInsert
      rw [Nat.min_eq_left hp, List.getElem?_insertIdx_self, if_pos (by omega)]
    have hlt : ∀ i < p.1, (pyInsert L p.1 p.2)[i]? = L[i]? := by
      intro i hi
      unfold pyInsert
      rw [Nat.min_eq_left hp, List.getElem?_insertIdx_of_lt hi]
    simp only [List.foldl_cons, List.map_cons, List.mem_cons, forall_eq_or_imp]
    refine ⟨?_, ⟨?_, i2⟩, ?_, ?_⟩
    · refine i1.trans ?_
      refine (hperm.append_right _).trans ?_
      simpa using List.perm_middle.symm
    · rw [i3 p.1 (fun q hq => h1.1 q hq)]; exact hget
    · rintro i ⟨hi, _⟩
      rw [i3 i (fun q hq => lt_trans hi (h1.1 q hq)), hlt i hi]
    · rintro f ⟨hf, hfs⟩
      rw [i4 f hfs]
      unfold pyInsert
      rw [Nat.min_eq_left hp]
      clear i1 i2 i3 i4 ih hs hN h1 hroom hlen hperm hget hlt hfs
      generalize p.1 = d at hp
      induction L generalizing d with
      | nil =>
        have : d = 0 := by simpa using hp
        subst this; simp [hf]
      | cons a L ihL =>
        cases d with
        | zero => simp [hf]
        | succ d =>
          rw [List.insertIdx_succ_cons, List.filter_cons, List.filter_cons,
            ihL d (by simpa using hp)]

theorem pairLe_total : Std.Total pairLe := ⟨fun a b => by unfold pairLe; omega⟩
theorem pairLe_trans : IsTrans (ℕ × ℕ) pairLe := ⟨fun a b c => by unfold pairLe; omega⟩

theorem sorted_strict {l : List (ℕ × ℕ)} (hd : (l.map Prod.fst).Nodup) :
    (l.insertionSort pairLe).Pairwise (fun a b => a.1 < b.1) := by
  have := pairLe_total
  have := pairLe_trans
  have h1 : (l.insertionSort pairLe).Pairwise pairLe := List.pairwise_insertionSort _ _
  have h2 : ((l.insertionSort pairLe).map Prod.fst).Nodup :=
    ((List.perm_insertionSort pairLe l).map _).nodup_iff.2 hd
  have h3 : (l.insertionSort pairLe).Pairwise (fun a b => a.1 ≠ b.1) := by
    simpa [List.Nodup, List.pairwise_map] using h2
  refine (h1.and h3).imp ?_
  rintro a b ⟨h, hne⟩
  unfold pairLe at h
  omega

theorem filter_range_perm {n : ℕ} {s : List ℕ} (hs : s.Nodup) (hn : ∀ a ∈ s, a < n) :
    ((List.range n).filter (fun a => a ∉ s) ++ s).Perm (List.range n) := by
  refine (List.perm_ext_iff_of_nodup ?_ List.nodup_range).2 ?_
  · refine List.Nodup.append (List.nodup_range.filter _) hs ?_
    intro a ha hb
    simp at ha; exact ha.2 hb
  · intro a
    simp only [List.mem_append, List.mem_filter, List.mem_range, decide_not, Bool.not_eq_true',
      decide_eq_false_iff_not]
    constructor
    · rintro (⟨h, _⟩ | h)
      · exact h
      · exact hn a h
    · intro h
      by_cases ha : a ∈ s
      · exact .inr ha
      · exact .inl ⟨h, ha⟩

/-- The core loop performs the move. -/
theorem moveaxisCore_spec {n : ℕ} {s d : List ℕ} (hlen : s.length = d.length) (hs : s.Nodup)
    (hd : d.Nodup) (hsn : ∀ a ∈ s, a < n) (hdn : ∀ a ∈ d, a < n) :
    ∃ o, moveaxisCore n s d = .ok o ∧ IsAxisMove n (s.zip d) o := by
  refine ⟨_, by unfold moveaxisCore; rw [if_neg (by simpa using hlen)], ?_⟩
  set ps := (d.zip s).insertionSort pairLe with hps
  have hperm : ps.Perm (d.zip s) := List.perm_insertionSort _ _
  have hfst : (d.zip s).map Prod.fst = d := List.map_fst_zip (by omega)
  have hsnd : (d.zip s).map Prod.snd = s := List.map_snd_zip (by omega)
  have hstrict : ps.Pairwise (fun a b => a.1 < b.1) := sorted_strict (by rw [hfst]; exact hd)
  set L := (List.range n).filter (fun a => a ∉ s) with hL
  have hLs := filter_range_perm hs hsn
  have hn : L.length + ps.length = n := by
    have := hLs.length_eq
    rw [List.length_append, List.length_range] at this
    rw [hperm.length_eq, List.length_zip, ← hlen, Nat.min_self]
    exact this
  have hsnd' : (ps.map Prod.snd).Perm s := by
    have := hperm.map Prod.snd
    rwa [hsnd] at this
  obtain ⟨h1, h2, -, h4⟩ := fold_insert ps L hstrict (by
    intro q hq
    rw [hn]
    exact hdn _ (by rw [← hfst]; exact List.mem_map_of_mem (hperm.mem_iff.1 hq)))
  refine ⟨?_, ?_, ?_⟩
  · exact h1.trans ((hsnd'.append_left L).trans hLs)
  · intro m hm
    refine h2 (m.2, m.1) (hperm.mem_iff.2 ?_)
    rw [List.mem_iff_getElem] at hm ⊢
    obtain ⟨i, hi, e⟩ := hm
    refine ⟨i, by simpa [and_comm] using hi, ?_⟩
    rw [← e]; simp
  · have hz : (s.zip d).map Prod.fst = s := List.map_fst_zip (by omega)
    rw [hz, h4 _ (by
      intro q hq
      have : q.2 ∈ s := by
        rw [← hsnd]; exact List.mem_map_of_mem (hperm.mem_iff.1 hq)
      simp [this]), hL, List.filter_filter]
    exact (List.pairwise_lt_range).filter _

/-- Lists agreeing outside the kept elements and with the same kept elements. -/
theorem eq_of_filter_eq (q : ℕ → Bool) :
    ∀ (a b : List ℕ), a.length = b.length →
      (∀ i (ha : i < a.length) (hb : i < b.length), q a[i] = q b[i]) →
      (∀ i (ha : i < a.length) (hb : i < b.length), q a[i] = false → a[i] = b[i]) →
      a.filter q = b.filter q → a = b
  | [], [], _, _, _, _ => rfl
  | [], _ :: _, h, _, _, _ => by simp at h
  | _ :: _, [], h, _, _, _ => by simp at h
  | x :: a, y :: b, h, h1, h2, h3 => by
    have hq : q x = q y := h1 0 (by simp) (by simp)
    have hrec := eq_of_filter_eq q a b (by simpa using h)
      (fun i ha hb => h1 (i + 1) (by simpa using ha) (by simpa using hb))
      (fun i ha hb => h2 (i + 1) (by simpa using ha) (by simpa using hb))
    cases hx : q x with
    | true =>
      rw [List.filter_cons_of_pos hx, List.filter_cons_of_pos (hq ▸ hx)] at h3
      obtain ⟨e1, e2⟩ := List.cons.inj h3
      rw [e1, hrec e2]
    | false =>
      rw [List.filter_cons_of_neg (by simp [hx]), List.filter_cons_of_neg (by simp [← hq, hx])] at h3
      rw [hrec h3, show x = y from h2 0 (by simp) (by simp) hx]

/-- There is only one such order. -/
theorem isAxisMove_unique {n : ℕ} {s d : List ℕ} (hlen : s.length = d.length)
    {o o' : List ℕ}
    (h : IsAxisMove n (s.zip d) o) (h' : IsAxisMove n (s.zip d) o') : o = o' := by
  have hz : (s.zip d).map Prod.fst = s := List.map_fst_zip (by omega)
  have key : ∀ {o : List ℕ}, IsAxisMove n (s.zip d) o → ∀ i (hi : i < o.length),
      ∀ m ∈ s.zip d, o[i] = m.1 → i = m.2 := by
    intro o h i hi m hm e
    have hnd : o.Nodup := h.perm.nodup_iff.2 List.nodup_range
    have hp := h.placed m hm
    have hlt : m.2 < o.length := by
      rw [List.getElem?_eq_some_iff] at hp; exact hp.1
    have : o[m.2] = m.1 := by
      rw [List.getElem?_eq_some_iff] at hp; exact hp.2
    exact (hnd.getElem_inj_iff).1 (e.trans this.symm)
  have mem : ∀ {o : List ℕ}, IsAxisMove n (s.zip d) o → ∀ i (hi : i < o.length),
      o[i] ∈ s → ∃ m ∈ s.zip d, i = m.2 ∧ o[i] = m.1 := by
    intro o h i hi ha
    rw [← hz] at ha
    obtain ⟨m, hm, e⟩ := List.mem_map.1 ha
    exact ⟨m, hm, key h i hi m hm e.symm, e.symm⟩
  have hl : o.length = o'.length := by rw [h.perm.length_eq, h'.perm.length_eq]
  refine eq_of_filter_eq (fun a => a ∉ s) o o' hl ?_ ?_ ?_
  · intro i ha hb
    have : o[i] ∈ s ↔ o'[i] ∈ s := by
      constructor
      · intro hi
        obtain ⟨m, hm, e1, e2⟩ := mem h i ha hi
        have := h'.placed m hm
        rw [← e1, List.getElem?_eq_getElem hb, Option.some.injEq] at this
        rw [this, ← hz]; exact List.mem_map_of_mem hm
      · intro hi
        obtain ⟨m, hm, e1, e2⟩ := mem h' i hb hi
        have := h.placed m hm
        rw [← e1, List.getElem?_eq_getElem ha, Option.some.injEq] at this
        rw [this, ← hz]; exact List.mem_map_of_mem hm
    simp [this]
  · intro i ha hb hq
    have hi : o[i] ∈ s := by simpa using hq
    obtain ⟨m, hm, e1, e2⟩ := mem h i ha hi
    have := h'.placed m hm
    rw [← e1, List.getElem?_eq_getElem hb, Option.some.injEq] at this
    rw [e2, this]
  · have r := h.rest
    have r' := h'.rest
    rw [hz] at r r'
    refine List.Perm.eq_of_pairwise ?_ r r' ((h.perm.trans h'.perm.symm).filter _)
    intro a b _ _ h1 h2
    omega

/-- Kept elements keep their relative order. -/
theorem idxOf_lt_of_filter {o : List ℕ} {q : ℕ → Bool}
    (hf : (o.filter q).Pairwise (· < ·)) {a b : ℕ} (ha : a ∈ o) (hb : b ∈ o) (qa : q a = true)
    (qb : q b = true) (hab : a < b) : o.idxOf a < o.idxOf b := by
  rw [List.pairwise_filter, List.pairwise_iff_getElem] at hf
  by_contra hc
  have h1 := List.idxOf_lt_length_iff.2 ha
  have h2 := List.idxOf_lt_length_iff.2 hb
  have hne : o.idxOf a ≠ o.idxOf b := by
    intro e
    have := List.getElem_idxOf h1
    have h4 := List.getElem_idxOf h2
    simp only [e] at this
    omega
  have := hf (o.idxOf b) (o.idxOf a) h2 h1 (by omega)
  rw [List.getElem_idxOf, List.getElem_idxOf] at this
  have := this qb qa
  omega

/-- The inverse permutation of a move is the move back. -/
theorem isAxisMove_inverse {n : ℕ} {s d : List ℕ} (hlen : s.length = d.length) {o : List ℕ}
    (h : IsAxisMove n (s.zip d) o) :
    IsAxisMove n (d.zip s) ((List.range n).map o.idxOf) := by
  have hnd : o.Nodup := h.perm.nodup_iff.2 List.nodup_range
  have hl : o.length = n := by rw [h.perm.length_eq, List.length_range]
  have hmem : ∀ a, a ∈ o ↔ a < n := by
    intro a; rw [h.perm.mem_iff, List.mem_range]
  have hz : (s.zip d).map Prod.fst = s := List.map_fst_zip (by omega)
  have hz' : (d.zip s).map Prod.fst = d := List.map_fst_zip (by omega)
  have swap : ∀ m : ℕ × ℕ, m ∈ d.zip s ↔ (m.2, m.1) ∈ s.zip d := by
    intro m
    simp only [List.mem_iff_getElem, List.getElem_zip, List.length_zip]
    constructor
    · rintro ⟨i, hi, e⟩; exact ⟨i, by omega, by rw [← e]⟩
    · rintro ⟨i, hi, e⟩
      refine ⟨i, by omega, ?_⟩
      rw [Prod.ext_iff] at e ⊢; exact ⟨e.2, e.1⟩
  have hplaced : ∀ m ∈ s.zip d, o.idxOf m.1 = m.2 := by
    intro m hm
    have hp := h.placed m hm
    rw [List.getElem?_eq_some_iff] at hp
    obtain ⟨hi, e⟩ := hp
    rw [← e]; exact hnd.idxOf_getElem _ _
  refine ⟨?_, ?_, ?_⟩
  · refine (List.perm_ext_iff_of_nodup ?_ List.nodup_range).2 ?_
    · refine List.Nodup.map_on ?_ List.nodup_range
      intro a ha b hb e
      have h1 := List.idxOf_lt_length_iff.2 ((hmem a).2 (List.mem_range.1 ha))
      have h2 := List.idxOf_lt_length_iff.2 ((hmem b).2 (List.mem_range.1 hb))
      have e1 := List.getElem_idxOf h1
      have e2 := List.getElem_idxOf h2
      simp only [e] at e1
      exact e1.symm.trans e2
    · intro a
      simp only [List.mem_map, List.mem_range]
      constructor
      · rintro ⟨b, hb, rfl⟩
        have := List.idxOf_lt_length_iff.2 ((hmem b).2 hb)
        omega
      · intro ha
        exact ⟨o[a], (hmem _).1 (List.getElem_mem _), hnd.idxOf_getElem _ _⟩
  · intro m hm
    have hm' := (swap m).1 hm
    have hp := h.placed _ hm'
    have hlt : m.2 < n := (hmem _).1 (List.mem_of_getElem? hp)
    rw [List.getElem?_map, List.getElem?_range hlt]
    simp [hplaced _ hm']
  · rw [hz', List.pairwise_filter, List.pairwise_map]
    have := List.pairwise_lt_range (n := n)
    refine (List.Pairwise.and_mem.1 this).imp ?_
    rintro a b ⟨ha, hb, hab⟩ qa qb
    have h1 : ∀ c, c < n → o.idxOf c ∉ d → c ∉ s := by
      intro c _ hc hcs
      rw [← hz] at hcs
      obtain ⟨m, hm, rfl⟩ := List.mem_map.1 hcs
      rw [hplaced m hm] at hc
      exact hc (List.of_mem_zip (a := m.1) (b := m.2) hm).2
    refine idxOf_lt_of_filter (q := fun a => a ∉ s) (by have := h.rest; rwa [hz] at this)
      ((hmem a).2 (List.mem_range.1 ha)) ((hmem b).2 (List.mem_range.1 hb)) ?_ ?_ hab
    · simpa using h1 a (List.mem_range.1 ha) (by simpa using qa)
    · simpa using h1 b (List.mem_range.1 hb) (by simpa using qb)

end Insert

section Normalize

theorem npNormalize_int (z : ℤ) (n : ℕ) (r : ℕ) :
    npNormalize z n = .ok r ↔ InRange n z ∧ r = wrap n z := by
  unfold npNormalize InRange wrap
  by_cases h : z < -(n : ℤ) ∨ (n : ℤ) ≤ z
  · rw [if_pos h]; simp; omega
  · rw [if_neg h]
    by_cases h0 : z < 0
    · rw [if_pos h0]
      have : z % (n : ℤ) = z + n := by
        rw [← Int.add_emod_right, Int.emod_eq_of_lt (by omega) (by omega)]
      rw [this, Except.ok.injEq]
      constructor
      · rintro rfl; exact ⟨⟨by omega, by omega⟩, rfl⟩
      · rintro ⟨_, rfl⟩; rfl
    · rw [if_neg h0, Int.emod_eq_of_lt (by omega) (by omega), Except.ok.injEq]
      constructor
      · rintro rfl; exact ⟨⟨by omega, by omega⟩, rfl⟩
      · rintro ⟨_, rfl⟩; rfl

theorem npNormalize_error (z n : ℤ) (e : PyErr) :
    npNormalize z n = .error e ↔ e = .axisError ∧ ¬ (-n ≤ z ∧ z < n) := by
  unfold npNormalize
  by_cases h : z < -n ∨ n ≤ z
  · rw [if_pos h, Except.error.injEq]
    constructor
    · rintro rfl; exact ⟨rfl, by omega⟩
    · rintro ⟨rfl, _⟩; rfl
  · rw [if_neg h]
    by_cases h0 : z < 0
    · rw [if_pos h0]; simp; omega
    · rw [if_neg h0]; simp; omega

theorem wrap_lt {n : ℕ} {z : ℤ} (h : InRange n z) : wrap n z < n := by
  have hn : (0 : ℤ) < n := by unfold InRange at h; omega
  have := Int.emod_lt_of_pos z hn
  have := Int.emod_nonneg z (by omega : (n : ℤ) ≠ 0)
  unfold wrap; omega

theorem mapM_ok_iff {α β : Type} (f : α → Py β) (l : List α) (r : List β) :
    l.mapM f = .ok r ↔ l.map f = r.map .ok := by
  induction l generalizing r with
  | nil =>
    rw [List.mapM_nil]
    show Except.ok [] = Except.ok r ↔ _
    cases r <;> simp
  | cons a l ih =>
    rw [List.mapM_cons]
    cases ha : f a with
    | error e =>
      constructor
      · intro h; cases h
      · intro h; cases r with
        | nil => simp at h
        | cons b r => simp [ha] at h
    | ok b =>
      cases hl : l.mapM f with
      | error e =>
        constructor
        · intro h; cases h
        · intro h; cases r with
          | nil => simp at h
          | cons b' r =>
            simp only [List.map_cons, List.cons.injEq] at h
            have := (ih r).2 h.2
            rw [hl] at this; cases this
      | ok bs =>
        show Except.ok (b :: bs) = Except.ok r ↔ _
        cases r with
        | nil => simp
        | cons b' r =>
          have := ih r
          rw [hl, Except.ok.injEq] at this
          simp only [List.map_cons, List.cons.injEq, ha, Except.ok.injEq, this]

theorem normalizeAxes_ok_iff (as : List AxisArg) (n : ℕ) (m : Option ℕ) (dup : Bool)
    (r : List ℕ) : normalizeAxes as n m dup = .ok r ↔
      as.map (fun a => normalizeAxisIndex a n m) = r.map .ok ∧ (dup = true ∨ r.Nodup) := by
  unfold normalizeAxes
  rw [← mapM_ok_iff]
  cases h : as.mapM (fun a => normalizeAxisIndex a n m) with
  | error e =>
    constructor
    · intro h; cases h
    · rintro ⟨h, _⟩; cases h
  | ok out =>
    show (if (!dup && !decide out.Nodup) = true then Except.error PyErr.valueError
      else Except.ok out) = Except.ok r ↔ _
    by_cases hc : (!dup && !decide out.Nodup) = true
    · rw [if_pos hc]
      simp only [Bool.and_eq_true, Bool.not_eq_true', decide_eq_false_iff_not] at hc
      constructor
      · intro h; cases h
      · rintro ⟨h, h2⟩
        rw [Except.ok.injEq] at h
        subst h
        rcases h2 with h2 | h2
        · rw [hc.1] at h2; cases h2
        · exact absurd h2 hc.2
    · rw [if_neg hc]
      simp only [Bool.and_eq_true, Bool.not_eq_true', decide_eq_false_iff_not, not_and,
        not_not] at hc
      rw [Except.ok.injEq]
      constructor
      · rintro rfl
        refine ⟨rfl, ?_⟩
        cases dup
        · exact .inr (hc rfl)
        · exact .inl rfl
      · exact fun h => h.1

theorem normalizeAxes_int_ok_iff (zs : List ℤ) (n : ℕ) (m : Option ℕ) (dup : Bool)
    (r : List ℕ) : normalizeAxes (zs.map .int) n m dup = .ok r ↔
      (∀ z ∈ zs, InRange n z) ∧ r = zs.map (wrap n) ∧ (dup = true ∨ r.Nodup) := by
  rw [normalizeAxes_ok_iff, List.map_map, ← and_assoc]
  refine and_congr ?_ Iff.rfl
  induction zs generalizing r with
  | nil => cases r <;> simp
  | cons z zs ih =>
    cases r with
    | nil => simp
    | cons a r =>
      have hz : normalizeAxisIndex (.int z) n m = .ok a ↔ _ := npNormalize_int z n a
      simp only [List.map_cons, List.cons.injEq, List.mem_cons, forall_eq_or_imp, ih,
        Function.comp_apply, hz]
      tauto

end Normalize

end Cmomy.Axes
