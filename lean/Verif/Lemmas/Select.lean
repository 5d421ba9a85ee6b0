import Verif.Model.Select
import Verif.Spec.Select
import Verif.Lemmas.NdArray

/-!
# Selecting and assigning moments
-/

namespace Cmomy.Select

open Spec Nd Axes

theorem within_nil {m : List ℕ} : Within [] m ↔ m = [] := by
  unfold Within; simp

theorem within_one {s : ℕ} {m : List ℕ} : Within [s] m ↔ ∃ a, m = [a] ∧ a < s := by
  unfold Within
  constructor
  · intro h
    cases h with
    | cons h1 h2 => cases h2; exact ⟨_, rfl, h1⟩
  · rintro ⟨a, rfl, h⟩
    exact .cons h .nil

theorem within_two {s t : ℕ} {m : List ℕ} :
    Within [s, t] m ↔ ∃ a b, m = [a, b] ∧ a < s ∧ b < t := by
  unfold Within
  constructor
  · intro h
    cases h with
    | cons h1 h2 => cases h2 with
      | cons h3 h4 => cases h4; exact ⟨_, _, rfl, h1, h3⟩
  · rintro ⟨a, b, rfl, h, h'⟩
    exact .cons h (.cons h' .nil)

/-- The index tuple covers exactly the pairs of the table `sel`. -/
structure SubOk (sub : Sub) (sizes : List ℕ) (sel : List (List ℕ × List ℕ)) : Prop where
  unlocate : ∀ m, Within sizes m → ∀ c, sub.unlocate m = some c ↔ (c, m) ∈ sel
  locate : ∀ c m, (c, m) ∈ sel ↔ Within sub.shape c ∧ sub.locate c = m
  bounds : ∀ p ∈ sel, Within sizes p.2

/-- The index tuple for a name, applied to moment axes of given sizes. -/
def subFor (name : String) (squeeze : Bool) (sizes : List ℕ) : Py Sub :=
  (momentIndexer name sizes.length squeeze).bind fun idx => subOf idx sizes

theorem sub_point1 {a s : ℕ} (h : a < s) :
    SubOk ⟨[], fun _ => [a], fun m => if m = [a] then some [] else none⟩ [s] [([], [a])] where
  unlocate m _ c := by
    by_cases e : m = [a] <;> simp [e, eq_comm]
  locate c m := by
    simp only [List.mem_singleton, Prod.mk.injEq, within_nil]
    constructor
    · rintro ⟨rfl, rfl⟩; exact ⟨rfl, rfl⟩
    · rintro ⟨rfl, rfl⟩; exact ⟨rfl, rfl⟩
  bounds p hp := by
    rw [List.mem_singleton] at hp; subst hp
    exact within_one.2 ⟨a, rfl, h⟩

theorem sub_point2 {a b s t : ℕ} (h : a < s) (h' : b < t) :
    SubOk ⟨[], fun _ => [a, b], fun m => if m = [a, b] then some [] else none⟩ [s, t]
      [([], [a, b])] where
  unlocate m _ c := by
    by_cases e : m = [a, b] <;> simp [e, eq_comm]
  locate c m := by
    simp only [List.mem_singleton, Prod.mk.injEq, within_nil]
    constructor
    · rintro ⟨rfl, rfl⟩; exact ⟨rfl, rfl⟩
    · rintro ⟨rfl, rfl⟩; exact ⟨rfl, rfl⟩
  bounds p hp := by
    rw [List.mem_singleton] at hp; subst hp
    exact within_two.2 ⟨a, b, rfl, h, h'⟩

theorem sub_list1 {a s : ℕ} (h : a < s) :
    SubOk ⟨[[a].length], fun c => [[a].getD (c.getD 0 0) 0], fun m =>
        if m.getD 0 0 ∈ [a] then some [[a].idxOf (m.getD 0 0)] else none⟩ [s] [([0], [a])] where
  unlocate m hm c := by
    obtain ⟨b, rfl, _⟩ := within_one.1 hm
    by_cases e : b = a
    · subst e; simp [eq_comm]
    · simp [e]
  locate c m := by
    simp only [List.mem_singleton, Prod.mk.injEq, List.length_singleton, within_one]
    constructor
    · rintro ⟨rfl, rfl⟩; exact ⟨⟨0, rfl, by omega⟩, rfl⟩
    · rintro ⟨⟨k, rfl, hk⟩, rfl⟩
      have : k = 0 := by omega
      subst this; simp
  bounds p hp := by
    rw [List.mem_singleton] at hp; subst hp
    exact within_one.2 ⟨a, rfl, h⟩

theorem sub_list2 {a a' b b' s t : ℕ} (h : a < s) (h' : b < s) (g : a' < t) (g' : b' < t)
    (hne : (a, a') ≠ (b, b')) :
    SubOk ⟨[[a, b].length], fun c => [[a, b].getD (c.getD 0 0) 0, [a', b'].getD (c.getD 0 0) 0],
      fun m => if (m.getD 0 0, m.getD 1 0) ∈ [a, b].zip [a', b'] then
          some [([a, b].zip [a', b']).idxOf (m.getD 0 0, m.getD 1 0)]
        else none⟩ [s, t] [([0], [a, a']), ([1], [b, b'])] where
  unlocate m hm c := by
    obtain ⟨x, y, rfl, _, _⟩ := within_two.1 hm
    simp only [List.getD_cons_zero, List.getD_cons_succ, List.zip_cons_cons, List.zip_nil_left,
      List.mem_cons, List.not_mem_nil, or_false]
    by_cases e : (x, y) = (a, a')
    · rw [if_pos (.inl e), e]
      obtain ⟨rfl, rfl⟩ := Prod.mk.injEq .. ▸ e
      have : ¬ (x = b ∧ y = b') := fun h => hne (by rw [h.1, h.2])
      simp [List.idxOf_cons_self, eq_comm]
      intro _ h1 h2; exact absurd ⟨h1.symm, h2.symm⟩ this
    · by_cases e' : (x, y) = (b, b')
      · rw [if_pos (.inr e'), List.idxOf_cons_ne _ (Ne.symm e), e', List.idxOf_cons_self]
        obtain ⟨rfl, rfl⟩ := Prod.mk.injEq .. ▸ e'
        have : ¬ (x = a ∧ y = a') := fun h => e (by rw [h.1, h.2])
        simp [eq_comm]
        intro _ h1 h2; exact absurd ⟨h1.symm, h2.symm⟩ this
      · rw [if_neg (by tauto)]
        have h1 : ¬ (x = a ∧ y = a') := fun h => e (by rw [h.1, h.2])
        have h2 : ¬ (x = b ∧ y = b') := fun h => e' (by rw [h.1, h.2])
        simp [h1, h2]
  locate c m := by
    simp only [List.mem_cons, Prod.mk.injEq, List.not_mem_nil, or_false, List.length_cons,
      List.length_nil, within_one]
    constructor
    · rintro (⟨rfl, rfl⟩ | ⟨rfl, rfl⟩)
      · exact ⟨⟨0, rfl, by omega⟩, rfl⟩
      · exact ⟨⟨1, rfl, by omega⟩, rfl⟩
    · rintro ⟨⟨k, rfl, hk⟩, rfl⟩
      have : k = 0 ∨ k = 1 := by omega
      rcases this with rfl | rfl
      · left; simp
      · right; simp
  bounds p hp := by
    simp only [List.mem_cons, List.not_mem_nil, or_false] at hp
    rcases hp with rfl | rfl
    · exact within_two.2 ⟨_, _, rfl, h, g⟩
    · exact within_two.2 ⟨_, _, rfl, h', g'⟩

theorem sub_row {a s t : ℕ} (h : a < s) :
    SubOk ⟨[t], fun c => [a, c.getD 0 0], fun m =>
        if m.getD 0 0 = a then some [m.getD 1 0] else none⟩ [s, t]
      ((List.range t).map (fun l => ([l], [a, l]))) where
  unlocate m hm c := by
    obtain ⟨x, y, rfl, _, hy⟩ := within_two.1 hm
    simp only [List.getD_cons_zero, List.getD_cons_succ, List.mem_map, List.mem_range,
      Prod.mk.injEq]
    by_cases e : x = a
    · rw [if_pos e]
      constructor
      · intro h; exact ⟨y, hy, Option.some.inj h, by rw [e]⟩
      · rintro ⟨l, _, rfl, h⟩
        simp at h; simp [h.2]
    · rw [if_neg e]
      constructor
      · intro h; cases h
      · rintro ⟨l, _, rfl, h⟩
        simp at h; exact absurd h.1.symm e
  locate c m := by
    simp only [List.mem_map, List.mem_range, Prod.mk.injEq, within_one]
    constructor
    · rintro ⟨l, hl, rfl, rfl⟩; exact ⟨⟨l, rfl, hl⟩, rfl⟩
    · rintro ⟨⟨l, rfl, hl⟩, rfl⟩; exact ⟨l, hl, rfl, rfl⟩
  bounds p hp := by
    obtain ⟨l, hl, rfl⟩ := List.mem_map.1 hp
    exact within_two.2 ⟨_, _, rfl, h, List.mem_range.1 hl⟩

theorem sub_col {b s t : ℕ} (h : b < t) :
    SubOk ⟨[s], fun c => [c.getD 0 0, b], fun m =>
        if m.getD 1 0 = b then some [m.getD 0 0] else none⟩ [s, t]
      ((List.range s).map (fun k => ([k], [k, b]))) where
  unlocate m hm c := by
    obtain ⟨x, y, rfl, hx, _⟩ := within_two.1 hm
    simp only [List.getD_cons_zero, List.getD_cons_succ, List.mem_map, List.mem_range,
      Prod.mk.injEq]
    by_cases e : y = b
    · rw [if_pos e]
      constructor
      · intro h; exact ⟨x, hx, Option.some.inj h, by rw [e]⟩
      · rintro ⟨l, _, rfl, h⟩
        simp at h; simp [h.1]
    · rw [if_neg e]
      constructor
      · intro h; cases h
      · rintro ⟨l, _, rfl, h⟩
        simp at h; exact absurd h.2.symm e
  locate c m := by
    simp only [List.mem_map, List.mem_range, Prod.mk.injEq, within_one]
    constructor
    · rintro ⟨l, hl, rfl, rfl⟩; exact ⟨⟨l, rfl, hl⟩, rfl⟩
    · rintro ⟨⟨l, rfl, hl⟩, rfl⟩; exact ⟨l, hl, rfl, rfl⟩
  bounds p hp := by
    obtain ⟨l, hl, rfl⟩ := List.mem_map.1 hp
    exact within_two.2 ⟨_, _, rfl, List.mem_range.1 hl, h⟩

theorem sub_all1 {s : ℕ} : SubOk ⟨[s], id, some⟩ [s] ((List.range s).map (fun k => ([k], [k]))) where
  unlocate m hm c := by
    obtain ⟨x, rfl, hx⟩ := within_one.1 hm
    simp only [List.mem_map, List.mem_range, Prod.mk.injEq]
    constructor
    · intro h; exact ⟨x, hx, Option.some.inj h, rfl⟩
    · rintro ⟨l, _, rfl, h⟩; rw [h]
  locate c m := by
    simp only [List.mem_map, List.mem_range, Prod.mk.injEq, within_one]
    constructor
    · rintro ⟨l, hl, rfl, rfl⟩; exact ⟨⟨l, rfl, hl⟩, rfl⟩
    · rintro ⟨⟨l, rfl, hl⟩, rfl⟩; exact ⟨l, hl, rfl, rfl⟩
  bounds p hp := by
    obtain ⟨l, hl, rfl⟩ := List.mem_map.1 hp
    exact within_one.2 ⟨_, rfl, List.mem_range.1 hl⟩

theorem sub_all2 {s t : ℕ} : SubOk ⟨[s, t], id, some⟩ [s, t]
    ((List.range s).flatMap (fun k => (List.range t).map (fun l => ([k, l], [k, l])))) where
  unlocate m hm c := by
    obtain ⟨x, y, rfl, hx, hy⟩ := within_two.1 hm
    simp only [List.mem_flatMap, List.mem_map, List.mem_range, Prod.mk.injEq]
    constructor
    · intro h; exact ⟨x, hx, y, hy, Option.some.inj h, rfl⟩
    · rintro ⟨k, _, l, _, rfl, h⟩; rw [h]
  locate c m := by
    simp only [List.mem_flatMap, List.mem_map, List.mem_range, Prod.mk.injEq, within_two]
    constructor
    · rintro ⟨k, hk, l, hl, rfl, rfl⟩; exact ⟨⟨k, l, rfl, hk, hl⟩, rfl⟩
    · rintro ⟨⟨k, l, rfl, hk, hl⟩, rfl⟩; exact ⟨k, hk, l, hl, rfl, rfl⟩
  bounds p hp := by
    simp only [List.mem_flatMap, List.mem_map, List.mem_range] at hp
    obtain ⟨k, hk, l, hl, rfl⟩ := hp
    exact within_two.2 ⟨_, _, rfl, hk, hl⟩

theorem subFor_one (name : String) (sq : Bool) (s : ℕ) :
    (Selectable name sq [s] → ∃ sub, subFor name sq [s] = .ok sub ∧ sub.shape = selShape name sq [s] ∧
      SubOk sub [s] (selection name sq [s])) ∧
    (name ∉ knownNames 1 → subFor name sq [s] = .error .valueError) ∧
    (name ∈ knownNames 1 → ¬ Selectable name sq [s] → subFor name sq [s] = .error .indexError) := by
  have hp : ∀ a, (∀ p ∈ [(([] : List ℕ), [a])], Within [s] p.2) ↔ a < s := by
    intro a; simp [within_one]
  have hp0 : ∀ a, (∀ p ∈ [([0], [a])], Within [s] p.2) ↔ a < s := by
    intro a; simp [within_one]
  have point : ∀ a, [] = selShape name sq [s] → subFor name sq [s] = subOf [.int a] [s] → selection name sq [s] = [([], [a])] →
      (Selectable name sq [s] → ∃ sub, subFor name sq [s] = .ok sub ∧ sub.shape = selShape name sq [s] ∧
        SubOk sub [s] (selection name sq [s])) ∧
      (name ∈ knownNames 1 → ¬ Selectable name sq [s] → subFor name sq [s] = .error .indexError) := by
    intro a e0 e1 e2
    rw [e1]
    unfold Selectable
    rw [e2, hp]
    by_cases h : a < s
    · exact ⟨fun _ => ⟨_, by simp only [subOf, if_pos h], e0, sub_point1 h⟩, fun hk hn =>
        absurd ⟨hk, h⟩ hn⟩
    · exact ⟨fun hh => absurd hh.2 h, fun _ _ => by simp only [subOf, if_neg h]⟩
  have list : ∀ a, [1] = selShape name sq [s] → subFor name sq [s] = subOf [.list [a]] [s] →
      selection name sq [s] = [([0], [a])] →
      (Selectable name sq [s] → ∃ sub, subFor name sq [s] = .ok sub ∧ sub.shape = selShape name sq [s] ∧
        SubOk sub [s] (selection name sq [s])) ∧
      (name ∈ knownNames 1 → ¬ Selectable name sq [s] → subFor name sq [s] = .error .indexError) := by
    intro a e0 e1 e2
    rw [e1]
    unfold Selectable
    rw [e2, hp0]
    by_cases h : a < s
    · exact ⟨fun _ => ⟨_, by simp only [subOf]; rw [if_pos (by simpa using h)], e0, sub_list1 h⟩,
        fun hk hn => absurd ⟨hk, h⟩ hn⟩
    · exact ⟨fun hh => absurd hh.2 h, fun _ _ => by
        simp only [subOf]; rw [if_neg (by simpa using h)]⟩
  have fin : ∀ {P Q : Prop}, name ∈ knownNames 1 → (P ∧ Q) →
      P ∧ (name ∉ knownNames 1 → subFor name sq [s] = .error .valueError) ∧ Q :=
    fun hk h => ⟨h.1, fun hn => absurd hk hn, h.2⟩
  by_cases h1 : name = "all"
  · subst h1
    refine fin (by decide) ⟨fun _ => ⟨_, rfl, rfl, sub_all1⟩, fun hk hn => absurd ⟨hk, ?_⟩ hn⟩
    exact sub_all1.bounds
  by_cases h2 : name = "ave"
  · subst h2
    cases sq
    · exact fin (by decide) (list 1 rfl rfl rfl)
    · exact fin (by decide) (point 1 rfl rfl rfl)
  by_cases h3 : name = "var"
  · subst h3
    cases sq
    · exact fin (by decide) (list 2 rfl rfl rfl)
    · exact fin (by decide) (point 2 rfl rfl rfl)
  by_cases h4 : name = "weight"
  · subst h4; exact fin (by decide) (point 0 rfl rfl rfl)
  by_cases h5 : name = "cov"
  · subst h5; exact fin (by decide) (point 2 rfl rfl rfl)
  by_cases h6 : name = "xave"
  · subst h6; exact fin (by decide) (point 1 rfl rfl rfl)
  by_cases h7 : name = "xvar"
  · subst h7; exact fin (by decide) (point 2 rfl rfl rfl)
  have hk : name ∉ knownNames 1 := by
    simp [knownNames, h1, h2, h3, h4, h5, h6, h7]
  refine ⟨fun h => absurd h.1 hk, fun _ => ?_, fun h => absurd h hk⟩
  have hb : ∀ x : String, name ≠ x → (name == x) = false := fun x h => by simpa using h
  unfold subFor momentIndexer
  rw [if_neg h1, if_neg h2, if_neg h3]
  simp [momentIndexer1, List.lookup, hb _ h4, hb _ h5, hb _ h6, hb _ h7]
  rfl

theorem subFor_two (name : String) (sq : Bool) {s t : ℕ} (hs : 0 < s) (ht : 0 < t) :
    (Selectable name sq [s, t] → ∃ sub, subFor name sq [s, t] = .ok sub ∧ sub.shape = selShape name sq [s, t] ∧
      SubOk sub [s, t] (selection name sq [s, t])) ∧
    (name ∉ knownNames 2 → subFor name sq [s, t] = .error .valueError) ∧
    (name ∈ knownNames 2 → ¬ Selectable name sq [s, t] →
      subFor name sq [s, t] = .error .indexError) := by
  have fin : ∀ {P Q : Prop}, name ∈ knownNames 2 → (P ∧ Q) →
      P ∧ (name ∉ knownNames 2 → subFor name sq [s, t] = .error .valueError) ∧ Q :=
    fun hk h => ⟨h.1, fun hn => absurd hk hn, h.2⟩
  have point : ∀ a b, [] = selShape name sq [s, t] → subFor name sq [s, t] = subOf [.int a, .int b] [s, t] →
      selection name sq [s, t] = [([], [a, b])] →
      (Selectable name sq [s, t] → ∃ sub, subFor name sq [s, t] = .ok sub ∧ sub.shape = selShape name sq [s, t] ∧
        SubOk sub [s, t] (selection name sq [s, t])) ∧
      (name ∈ knownNames 2 → ¬ Selectable name sq [s, t] →
        subFor name sq [s, t] = .error .indexError) := by
    intro a b e0 e1 e2
    rw [e1]
    unfold Selectable
    rw [e2, show (∀ p ∈ [(([] : List ℕ), [a, b])], Within [s, t] p.2) ↔ a < s ∧ b < t by
      simp [within_two]]
    by_cases h : a < s ∧ b < t
    · exact ⟨fun _ => ⟨_, by simp only [subOf, if_pos h], e0, sub_point2 h.1 h.2⟩, fun hk hn =>
        absurd ⟨hk, h⟩ hn⟩
    · exact ⟨fun hh => absurd hh.2 h, fun _ _ => by simp only [subOf, if_neg h]⟩
  have list : ∀ a b a' b', [2] = selShape name sq [s, t] → (a, a') ≠ (b, b') →
      subFor name sq [s, t] = subOf [.list [a, b], .list [a', b']] [s, t] →
      selection name sq [s, t] = [([0], [a, a']), ([1], [b, b'])] →
      (Selectable name sq [s, t] → ∃ sub, subFor name sq [s, t] = .ok sub ∧ sub.shape = selShape name sq [s, t] ∧
        SubOk sub [s, t] (selection name sq [s, t])) ∧
      (name ∈ knownNames 2 → ¬ Selectable name sq [s, t] →
        subFor name sq [s, t] = .error .indexError) := by
    intro a b a' b' e0 hne e1 e2
    rw [e1]
    unfold Selectable
    rw [e2, show (∀ p ∈ [([0], [a, a']), ([1], [b, b'])], Within [s, t] p.2) ↔
      (a < s ∧ a' < t) ∧ b < s ∧ b' < t by simp [within_two]]
    by_cases h : (a < s ∧ a' < t) ∧ b < s ∧ b' < t
    · exact ⟨fun _ => ⟨_, by simp only [subOf]; rw [if_pos (by simp; tauto)], e0,
        sub_list2 h.1.1 h.2.1 h.1.2 h.2.2 hne⟩,
        fun hk hn => absurd ⟨hk, h⟩ hn⟩
    · exact ⟨fun hh => absurd hh.2 h, fun _ _ => by
        simp only [subOf]; rw [if_neg (by simp; omega)]⟩
  have row : ∀ a, [t] = selShape name sq [s, t] → subFor name sq [s, t] = subOf [.int a, .full] [s, t] →
      selection name sq [s, t] = (List.range t).map (fun l => ([l], [a, l])) →
      (Selectable name sq [s, t] → ∃ sub, subFor name sq [s, t] = .ok sub ∧ sub.shape = selShape name sq [s, t] ∧
        SubOk sub [s, t] (selection name sq [s, t])) ∧
      (name ∈ knownNames 2 → ¬ Selectable name sq [s, t] →
        subFor name sq [s, t] = .error .indexError) := by
    intro a e0 e1 e2
    rw [e1]
    unfold Selectable
    rw [e2, show (∀ p ∈ (List.range t).map (fun l => ([l], [a, l])), Within [s, t] p.2) ↔ a < s by
      constructor
      · intro h
        have := h ([0], [a, 0]) (List.mem_map.2 ⟨0, List.mem_range.2 ht, rfl⟩)
        obtain ⟨x, y, e, hx, _⟩ := within_two.1 this
        simp at e; omega
      · exact fun h => (sub_row h).bounds]
    by_cases h : a < s
    · exact ⟨fun _ => ⟨_, by simp only [subOf, if_pos h], e0, sub_row h⟩, fun hk hn =>
        absurd ⟨hk, h⟩ hn⟩
    · exact ⟨fun hh => absurd hh.2 h, fun _ _ => by simp only [subOf, if_neg h]⟩
  have col : ∀ b, [s] = selShape name sq [s, t] → subFor name sq [s, t] = subOf [.full, .int b] [s, t] →
      selection name sq [s, t] = (List.range s).map (fun k => ([k], [k, b])) →
      (Selectable name sq [s, t] → ∃ sub, subFor name sq [s, t] = .ok sub ∧ sub.shape = selShape name sq [s, t] ∧
        SubOk sub [s, t] (selection name sq [s, t])) ∧
      (name ∈ knownNames 2 → ¬ Selectable name sq [s, t] →
        subFor name sq [s, t] = .error .indexError) := by
    intro a e0 e1 e2
    rw [e1]
    unfold Selectable
    rw [e2, show (∀ p ∈ (List.range s).map (fun k => ([k], [k, a])), Within [s, t] p.2) ↔ a < t by
      constructor
      · intro h
        have := h ([0], [0, a]) (List.mem_map.2 ⟨0, List.mem_range.2 hs, rfl⟩)
        obtain ⟨x, y, e, _, hx⟩ := within_two.1 this
        simp at e; omega
      · exact fun h => (sub_col h).bounds]
    by_cases h : a < t
    · exact ⟨fun _ => ⟨_, by simp only [subOf, if_pos h], e0, sub_col h⟩, fun hk hn =>
        absurd ⟨hk, h⟩ hn⟩
    · exact ⟨fun hh => absurd hh.2 h, fun _ _ => by simp only [subOf, if_neg h]⟩
  by_cases h1 : name = "all"
  · subst h1
    refine fin (by decide) ⟨fun _ => ⟨_, rfl, rfl, sub_all2⟩, fun hk hn => absurd ⟨hk, ?_⟩ hn⟩
    exact sub_all2.bounds
  by_cases h2 : name = "ave"
  · subst h2; exact fin (by decide) (list 1 0 0 1 rfl (by decide) rfl rfl)
  by_cases h3 : name = "var"
  · subst h3; exact fin (by decide) (list 2 0 0 2 rfl (by decide) rfl rfl)
  by_cases h4 : name = "weight"
  · subst h4; exact fin (by decide) (point 0 0 rfl rfl rfl)
  by_cases h5 : name = "cov"
  · subst h5; exact fin (by decide) (point 1 1 rfl rfl rfl)
  by_cases h6 : name = "xave"
  · subst h6; exact fin (by decide) (point 1 0 rfl rfl rfl)
  by_cases h7 : name = "xvar"
  · subst h7; exact fin (by decide) (point 2 0 rfl rfl rfl)
  by_cases h8 : name = "yave"
  · subst h8; exact fin (by decide) (point 0 1 rfl rfl rfl)
  by_cases h9 : name = "yvar"
  · subst h9; exact fin (by decide) (point 0 2 rfl rfl rfl)
  by_cases h10 : name = "xmom_0"
  · subst h10; exact fin (by decide) (row 0 rfl rfl rfl)
  by_cases h11 : name = "xmom_1"
  · subst h11; exact fin (by decide) (row 1 rfl rfl rfl)
  by_cases h12 : name = "ymom_0"
  · subst h12; exact fin (by decide) (col 0 rfl rfl rfl)
  by_cases h13 : name = "ymom_1"
  · subst h13; exact fin (by decide) (col 1 rfl rfl rfl)
  have hk : name ∉ knownNames 2 := by
    simp [knownNames, h1, h2, h3, h4, h5, h6, h7, h8, h9, h10, h11, h12, h13]
  refine ⟨fun h => absurd h.1 hk, fun _ => ?_, fun h => absurd h hk⟩
  have hb : ∀ x : String, name ≠ x → (name == x) = false := fun x h => by simpa using h
  unfold subFor momentIndexer
  rw [if_neg h1, if_neg h2, if_neg h3]
  simp [momentIndexer2, List.lookup, hb _ h4, hb _ h5, hb _ h6, hb _ h7, hb _ h8, hb _ h9,
    hb _ h10, hb _ h11, hb _ h12, hb _ h13]
  rfl

theorem subFor_spec (name : String) (sq : Bool) {sizes : List ℕ}
    (hl : sizes.length = 1 ∨ sizes.length = 2) (hs : ∀ s ∈ sizes, 0 < s) :
    (Selectable name sq sizes → ∃ sub, subFor name sq sizes = .ok sub ∧ sub.shape = selShape name sq sizes ∧
      SubOk sub sizes (selection name sq sizes)) ∧
    (name ∉ knownNames sizes.length → subFor name sq sizes = .error .valueError) ∧
    (name ∈ knownNames sizes.length → ¬ Selectable name sq sizes →
      subFor name sq sizes = .error .indexError) := by
  rcases sizes with _ | ⟨s, _ | ⟨t, _ | ⟨u, l⟩⟩⟩
  · simp at hl
  · exact subFor_one name sq s
  · exact subFor_two name sq (hs s (by simp)) (hs t (by simp))
  · simp at hl

section Arrays

variable {K : Type*}

theorem arr_ext {a b : Arr K} (h1 : a.shape = b.shape) (h2 : ∀ i, a.get i = b.get i) : a = b := by
  cases a; cases b
  simp only at h1 h2
  subst h1
  congr
  exact funext h2

theorem transpose_id {a : Arr K} (hp : a.Proper) {l : List ℕ} (hl : l = List.range a.shape.length) :
    a.transpose l = a := by
  subst hl
  refine arr_ext ?_ fun i => ?_
  · refine List.ext_getElem (by simp [Arr.transpose]) fun p h1 h2 => ?_
    simp [Arr.transpose, List.getD, h2]
  · refine hp _ _ fun ax hax => ?_
    have := idxOf_getD (List.nodup_range (n := a.shape.length)) (p := ax) (by simpa using hax)
    rw [List.getD_eq_getElem _ _ (by simpa using hax), List.getElem_range] at this
    rw [this]

theorem transpose_transpose {a : Arr K} (hp : a.Proper) {o o' : List ℕ}
    (ho : o.Perm (List.range a.shape.length)) (ho' : o'.length = a.shape.length)
    (hinv : ∀ i < a.shape.length, ∃ j, o'[i]? = some j ∧ o[j]? = some i) (hn' : o'.Nodup) :
    (a.transpose o).transpose o' = a := by
  have hlen : o.length = a.shape.length := by rw [ho.length_eq, List.length_range]
  have hon : o.Nodup := ho.nodup_iff.2 List.nodup_range
  refine arr_ext ?_ fun i => ?_
  · refine List.ext_getElem (by simp [Arr.transpose, ho']) fun p h1 h2 => ?_
    obtain ⟨j, e1, e2⟩ := hinv p h2
    obtain ⟨hp', e1⟩ := List.getElem?_eq_some_iff.1 e1
    obtain ⟨hj, e2⟩ := List.getElem?_eq_some_iff.1 e2
    simp only [Arr.transpose, List.getElem_map, e1]
    rw [List.getD_eq_getElem _ _ (by simpa using hj), List.getElem_map, e2,
      List.getD_eq_getElem _ _ h2]
  · refine hp _ _ fun ax hax => ?_
    obtain ⟨j, e1, e2⟩ := hinv ax hax
    obtain ⟨hp', e1⟩ := List.getElem?_eq_some_iff.1 e1
    obtain ⟨hj, e2⟩ := List.getElem?_eq_some_iff.1 e2
    have : o.idxOf ax = j := by rw [← e2]; exact hon.idxOf_getElem _ _
    rw [this]
    have : o'.idxOf j = ax := by rw [← e1]; exact hn'.idxOf_getElem _ _
    show i (o'.idxOf j) = i ax
    rw [this]

/-- Layout of the array with the moment axes moved to the end. -/
def lastLayout (n : ℕ) (mom : List ℕ) : List ℕ := keptAxes n mom ++ mom

theorem wrap_axesLast (n d : ℕ) (h : d ≤ n) :
    (axesLast d).map (wrap n) = (List.range d).map (fun j => n - d + j) := by
  unfold axesLast
  rw [List.map_map]
  refine List.map_congr_left fun j hj => ?_
  have := List.mem_range.1 hj
  simp only [Function.comp, wrap]
  rw [← Int.add_emod_right, Int.emod_eq_of_lt (by omega) (by omega)]
  omega

theorem axesLast_range (n d : ℕ) (h : d ≤ n) : ∀ z ∈ axesLast d, InRange n z := by
  intro z hz
  obtain ⟨j, hj, rfl⟩ := List.mem_map.1 hz
  have := List.mem_range.1 hj
  unfold InRange; omega

theorem keptAxes_last (n d : ℕ) (h : d ≤ n) :
    lastLayout n ((axesLast d).map (wrap n)) = List.range n := by
  rw [wrap_axesLast n d h]
  unfold lastLayout keptAxes
  have : (List.range n).filter (fun a => a ∉ (List.range d).map (fun j => n - d + j))
      = List.range (n - d) := by
    have hsplit : List.range n = List.range (n - d) ++ (List.range d).map (fun j => n - d + j) := by
      rw [← List.range_add]; congr 1; omega
    rw [hsplit, List.filter_append]
    rw [List.filter_eq_self.2, List.filter_eq_nil_iff.2, List.append_nil]
    · intro a ha; simpa using ha
    · intro a ha
      have := List.mem_range.1 ha
      simp only [List.mem_map, List.mem_range, decide_not, Bool.not_eq_true', decide_eq_false_iff_not]
      rintro ⟨j, _, e⟩; omega
  rw [this, ← List.range_add]
  congr 1; omega

theorem length_le_of_nodup {n : ℕ} {mom : List ℤ} (hr : ∀ z ∈ mom, InRange n z)
    (hd : (mom.map (wrap n)).Nodup) : mom.length ≤ n := by
  have := keptAxes_length hd (by
    intro a ha
    obtain ⟨z, hz, rfl⟩ := List.mem_map.1 ha
    exact wrap_lt (hr z hz))
  rw [List.length_map] at this
  omega

/-- Moving the moment axes to the end, and back. -/
theorem move_orders {n : ℕ} {mom : List ℤ} (hr : ∀ z ∈ mom, InRange n z)
    (hd : (mom.map (wrap n)).Nodup) :
    moveaxisOrder n (mom.map .int) ((axesLast mom.length).map .int)
      = .ok (lastLayout n (mom.map (wrap n))) ∧
    ∃ o', moveaxisOrder n ((axesLast mom.length).map .int) (mom.map .int) = .ok o' ∧
      o'.Perm (List.range n) ∧
      ∀ i < n, ∃ j, o'[i]? = some j ∧ (lastLayout n (mom.map (wrap n)))[j]? = some i := by
  have hle := length_le_of_nodup hr hd
  have hlt : ∀ a ∈ mom.map (wrap n), a < n := by
    intro a ha
    obtain ⟨z, hz, rfl⟩ := List.mem_map.1 ha
    exact wrap_lt (hr z hz)
  have hl := keptAxes_length hd hlt
  rw [List.length_map] at hl
  have hdl : ((axesLast mom.length).map (wrap n)).Nodup := by
    rw [wrap_axesLast n _ hle]
    exact List.nodup_range.map_on (by intro a _ b _ h; omega)
  have h1 : moveaxisOrder n (mom.map .int) ((axesLast mom.length).map .int)
      = .ok (lastLayout n (mom.map (wrap n))) := by
    refine (C37_moveaxis_order n _ _ _).2 ⟨by simp [axesLast], hr, axesLast_range n _ hle, hd, hdl, ?_⟩
    rw [wrap_axesLast n _ hle]
    refine ⟨keptAxes_perm hd hlt, ?_, ?_⟩
    · intro m hm
      obtain ⟨j, hj, e⟩ := List.mem_iff_getElem.1 hm
      rw [List.getElem_zip, List.getElem_map, List.getElem_map, List.getElem_range] at e
      rw [← e]
      simp only [List.length_zip, List.length_map, List.length_range, Nat.min_self] at hj
      simp only
      unfold lastLayout
      rw [List.getElem?_append_right (by omega), show n - mom.length + j
        - (keptAxes n (mom.map (wrap n))).length = j by omega,
        List.getElem?_eq_getElem (by simpa using hj), List.getElem_map]
    · rw [List.map_fst_zip (by simp)]
      unfold lastLayout
      rw [List.filter_append]
      have h0 : (mom.map (wrap n)).filter (fun a => decide (a ∉ mom.map (wrap n))) = [] := by
        rw [List.filter_eq_nil_iff]; intro a ha; simpa using ha
      rw [h0, List.append_nil]
      exact (List.pairwise_lt_range.filter _).filter _
  refine ⟨h1, ?_⟩
  obtain ⟨o', h2⟩ := C37_defined n (axesLast mom.length) mom (by simp [axesLast])
    (axesLast_range n _ hle) hr hdl hd
  refine ⟨o', h2, ((C37_moveaxis_order _ _ _ _).1 h2).2.2.2.2.2.perm, fun i hi =>
    C37_move_back n _ _ _ _ h1 h2 i hi⟩

/-- Back and forth in one package. -/
theorem moves {a : Arr K} {mom : List ℤ}
    (hr : ∀ z ∈ mom, InRange a.shape.length z) (hd : (mom.map (wrap a.shape.length)).Nodup) :
    ∃ o', o'.Perm (List.range a.shape.length) ∧
      (∀ i < a.shape.length, ∃ j, o'[i]? = some j ∧
        (lastLayout a.shape.length (mom.map (wrap a.shape.length)))[j]? = some i) ∧
      (mom ≠ axesLast mom.length →
        moveaxis a mom (axesLast mom.length)
          = .ok (a.transpose (lastLayout a.shape.length (mom.map (wrap a.shape.length)))) ∧
        ∀ b : Arr K, b.shape.length = a.shape.length →
          moveaxis b (axesLast mom.length) mom = .ok (b.transpose o')) ∧
      (mom = axesLast mom.length →
        lastLayout a.shape.length (mom.map (wrap a.shape.length)) = List.range a.shape.length ∧
        o' = List.range a.shape.length) := by
  obtain ⟨h1, o', h2, h3, h4⟩ := move_orders hr hd
  refine ⟨o', h3, h4, fun _ => ⟨?_, ?_⟩, fun e => ?_⟩
  · unfold moveaxis; rw [h1]; rfl
  · intro b hb; unfold moveaxis; rw [hb, h2]; rfl
  · have hL : lastLayout a.shape.length (mom.map (wrap a.shape.length))
        = List.range a.shape.length := by
      rw [e]; exact keptAxes_last _ _ (length_le_of_nodup hr hd)
    refine ⟨hL, ?_⟩
    refine List.ext_getElem? fun i => ?_
    by_cases hi : i < a.shape.length
    · obtain ⟨j, e1, e2⟩ := h4 i hi
      rw [hL] at e2
      obtain ⟨hj, e2⟩ := List.getElem?_eq_some_iff.1 e2
      rw [List.getElem_range] at e2
      rw [e1, List.getElem?_range hi, e2]
    · rw [List.getElem?_eq_none (by rw [h3.length_eq, List.length_range]; omega),
        List.getElem?_eq_none (by rw [List.length_range]; omega)]

theorem broadcasts_iff (vs shape : List ℕ) : Broadcasts vs shape ↔
    ∀ ax < vs.length, vs.getD ax 0 = 1 ∨
      (vs.length ≤ ax + shape.length ∧
        vs.getD ax 0 = shape.getD (ax + shape.length - vs.length) 0) := by
  unfold Broadcasts
  constructor
  · intro h ax hax
    have e : vs.reverse[vs.length - 1 - ax]? = some (vs.getD ax 0) := by
      rw [List.getElem?_reverse (by omega), List.getD_eq_getElem _ _ hax,
        show vs.length - 1 - (vs.length - 1 - ax) = ax by omega, List.getElem?_eq_getElem hax]
    refine (h _ _ e).imp_right fun h' => ?_
    have hlt : vs.length - 1 - ax < shape.length := by
      by_contra hc
      rw [List.getElem?_eq_none (by simpa using hc)] at h'
      cases h'
    refine ⟨by omega, ?_⟩
    rw [List.getElem?_reverse hlt, show shape.length - 1 - (vs.length - 1 - ax)
      = ax + shape.length - vs.length by omega] at h'
    obtain ⟨hh, e'⟩ := List.getElem?_eq_some_iff.1 h'
    rw [List.getD_eq_getElem shape _ hh, e']
  · intro h k a e
    have hk : k < vs.length := by
      by_contra hc
      rw [List.getElem?_eq_none (by simpa using hc)] at e
      cases e
    rw [List.getElem?_reverse hk] at e
    obtain ⟨hh, e'⟩ := List.getElem?_eq_some_iff.1 e
    have := h (vs.length - 1 - k) (by omega)
    rw [List.getD_eq_getElem _ _ hh, e'] at this
    refine this.imp_right fun ⟨h1, h2⟩ => ?_
    have hlt : k < shape.length := by omega
    rw [List.getElem?_reverse hlt, h2, List.getD_eq_getElem _ _ (by omega),
      List.getElem?_eq_getElem (by omega)]
    congr 2
    omega

theorem broadcastTo_ok {v : Arr K} {shape : List ℕ} (h : Broadcasts v.shape shape) :
    ∃ b, broadcastTo v shape = .ok b ∧ b.shape = shape ∧ ∀ i, b.get i = stretch v shape.length i := by
  refine ⟨_, by unfold broadcastTo; rw [if_pos ((broadcasts_iff _ _).1 h)], rfl, fun i => rfl⟩

theorem broadcastTo_error {v : Arr K} {shape : List ℕ} (h : ¬ Broadcasts v.shape shape) :
    broadcastTo v shape = .error .valueError := by
  unfold broadcastTo; rw [if_neg (fun h' => h ((broadcasts_iff _ _).2 h'))]

/-- A stretched value looks only at coordinates of existing axes. -/
theorem stretch_congr {v : Arr K} (hv : v.Proper) {shape : List ℕ} (h : Broadcasts v.shape shape)
    {i j : ℕ → ℕ} (hij : ∀ ax < shape.length, i ax = j ax) :
    stretch v shape.length i = stretch v shape.length j := by
  unfold stretch
  refine hv _ _ fun ax hax => ?_
  rcases (broadcasts_iff _ _).1 h ax hax with h' | ⟨h', _⟩
  · rw [if_pos h', if_pos h']
  · by_cases e : v.shape.getD ax 0 = 1
    · rw [if_pos e, if_pos e]
    · rw [if_neg e, if_neg e]
      exact hij _ (by omega)

/-- Outcome of one assignment. -/
theorem setItem_spec (w : Arr K) {d : ℕ} (hd : d = 1 ∨ d = 2) (hdn : d ≤ w.shape.length)
    (hs : ∀ s ∈ w.shape.drop (w.shape.length - d), 0 < s) (name : String) (sq : Bool)
    (v : Arr K) :
    (Selectable name sq (w.shape.drop (w.shape.length - d)) →
      ∃ sub, sub.shape = selShape name sq (w.shape.drop (w.shape.length - d)) ∧
        SubOk sub (w.shape.drop (w.shape.length - d))
          (selection name sq (w.shape.drop (w.shape.length - d))) ∧
        (Broadcasts v.shape (w.shape.take (w.shape.length - d) ++ sub.shape) →
          ∃ b, b.shape = w.shape.take (w.shape.length - d) ++ sub.shape ∧
            (∀ i, b.get i = stretch v b.shape.length i) ∧
            setItem w d name sq v = .ok (putItem w d sub b)) ∧
        (¬ Broadcasts v.shape (w.shape.take (w.shape.length - d) ++ sub.shape) →
          setItem w d name sq v = .error .valueError)) ∧
    (name ∉ knownNames d → setItem w d name sq v = .error .valueError) ∧
    (name ∈ knownNames d → ¬ Selectable name sq (w.shape.drop (w.shape.length - d)) →
      setItem w d name sq v = .error .indexError) := by
  have hlen : (w.shape.drop (w.shape.length - d)).length = d := by
    rw [List.length_drop]; omega
  obtain ⟨h1, h2, h3⟩ := subFor_spec name sq (sizes := w.shape.drop (w.shape.length - d))
    (by rw [hlen]; exact hd) hs
  rw [hlen] at h2 h3
  have key : setItem w d name sq v
      = (subFor name sq (w.shape.drop (w.shape.length - d))).bind fun sub =>
        (broadcastTo v (w.shape.take (w.shape.length - d) ++ sub.shape)).map fun b =>
          putItem w d sub b := by
    unfold setItem subFor
    rw [hlen]
    cases momentIndexer name d sq <;> rfl
  refine ⟨fun h => ?_, fun h => ?_, fun h h' => ?_⟩
  · obtain ⟨sub, e, e', ok⟩ := h1 h
    refine ⟨sub, e', ok, fun hb => ?_, fun hb => ?_⟩
    · obtain ⟨b, eb, eb', eb''⟩ := broadcastTo_ok hb
      refine ⟨b, eb', ?_, ?_⟩
      · intro i; rw [eb', eb'']
      · rw [key, e]
        show (broadcastTo v (w.shape.take (w.shape.length - d) ++ sub.shape)).map _ = _
        rw [eb]; rfl
    · rw [key, e]
      show (broadcastTo v (w.shape.take (w.shape.length - d) ++ sub.shape)).map _ = _
      rw [broadcastTo_error hb]; rfl
  · rw [key, h2 h]; rfl
  · rw [key, h3 h h']; rfl

theorem putItem_proper {w : Arr K} (hw : w.Proper) {d : ℕ} (hdn : d ≤ w.shape.length) (sub : Sub)
    {b v : Arr K} (hv : v.Proper)
    (hbr : Broadcasts v.shape b.shape)
    (hb : ∀ i, b.get i = stretch v b.shape.length i) : (putItem w d sub b).Proper := by
  intro i j hij
  have hij : ∀ ax < w.shape.length, i ax = j ax := hij
  have hc : coords (w.shape.length - d) d i = coords (w.shape.length - d) d j := by
    unfold coords
    refine List.map_congr_left fun t ht => hij _ ?_
    have := List.mem_range.1 ht
    omega
  show (match sub.unlocate (coords (w.shape.length - d) d i) with
    | some c => b.get (setFrom (w.shape.length - d) c i)
    | none => w.get i) = (match sub.unlocate (coords (w.shape.length - d) d j) with
    | some c => b.get (setFrom (w.shape.length - d) c j)
    | none => w.get j)
  rw [hc]
  cases sub.unlocate (coords (w.shape.length - d) d j) with
  | none => exact hw _ _ hij
  | some c =>
    simp only
    rw [hb, hb]
    refine stretch_congr hv hbr fun ax _ => ?_
    unfold setFrom
    by_cases h : w.shape.length - d ≤ ax
    · rw [if_pos h, if_pos h]
    · rw [if_neg h, if_neg h]
      exact hij _ (by omega)

theorem setItem_ok_props {w w' : Arr K} (hw : w.Proper) {d : ℕ} (hd : d = 1 ∨ d = 2)
    (hdn : d ≤ w.shape.length)
    (hs : ∀ s ∈ w.shape.drop (w.shape.length - d), 0 < s) {name : String} {sq : Bool} {v : Arr K}
    (hv : v.Proper) (h : setItem w d name sq v = .ok w') : w'.Proper ∧ w'.shape = w.shape := by
  obtain ⟨h1, h2, h3⟩ := setItem_spec w hd hdn hs name sq v
  by_cases hk : name ∈ knownNames d
  · by_cases hsel : Selectable name sq (w.shape.drop (w.shape.length - d))
    · obtain ⟨sub, _, _, hok, herr⟩ := h1 hsel
      by_cases hb : Broadcasts v.shape (w.shape.take (w.shape.length - d) ++ sub.shape)
      · obtain ⟨b, eb, eb', e⟩ := hok hb
        rw [e] at h
        have := Except.ok.inj h
        subst this
        exact ⟨putItem_proper hw hdn sub hv (by rw [eb]; exact hb) eb', rfl⟩
      · rw [herr hb] at h; cases h
    · rw [h3 hk hsel] at h; cases h
  · rw [h2 hk] at h; cases h

theorem assignLoop_props {d : ℕ} (hd : d = 1 ∨ d = 2) (sq : Bool) (l : List (String × Arr K)) :
    ∀ {w : Arr K}, w.Proper → d ≤ w.shape.length →
    (∀ s ∈ w.shape.drop (w.shape.length - d), 0 < s) → (∀ p ∈ l, p.2.Proper) →
    (assignLoop d sq l w).1.Proper ∧ (assignLoop d sq l w).1.shape = w.shape := by
  induction l with
  | nil => intro w hw _ _ _; exact ⟨hw, rfl⟩
  | cons p l ih =>
    intro w hw hdn hs hl
    obtain ⟨name, v⟩ := p
    unfold assignLoop
    cases e : setItem w d name sq v with
    | error e => exact ⟨hw, rfl⟩
    | ok w' =>
      obtain ⟨h1, h2⟩ := setItem_ok_props hw hd hdn hs (hl (name, v) (by simp)) e
      have := ih h1 (by rw [h2]; exact hdn) (by rw [h2]; exact hs)
        (fun p hp => hl p (List.mem_cons_of_mem _ hp))
      exact ⟨this.1, this.2.trans h2⟩

theorem assignLoop_append {d : ℕ} (sq : Bool) (l l' : List (String × Arr K)) :
    ∀ {w : Arr K}, (assignLoop d sq l w).2 = none →
    assignLoop d sq (l ++ l') w = assignLoop d sq l' (assignLoop d sq l w).1 := by
  induction l with
  | nil => intro w _; rfl
  | cons p l ih =>
    intro w h
    obtain ⟨name, v⟩ := p
    simp only [List.cons_append, assignLoop] at h ⊢
    cases e : setItem w d name sq v with
    | error e' => rw [e] at h; cases h
    | ok w' => rw [e] at h; exact ih h

theorem assignLoop_error {d : ℕ} (sq : Bool) (l l' : List (String × Arr K)) {e : PyErr} :
    ∀ {w : Arr K}, (assignLoop d sq l w).2 = some e →
    assignLoop d sq (l ++ l') w = assignLoop d sq l w := by
  induction l with
  | nil => intro w h; cases h
  | cons p l ih =>
    intro w h
    obtain ⟨name, v⟩ := p
    simp only [List.cons_append, assignLoop] at h ⊢
    cases e : setItem w d name sq v with
    | error e' => rfl
    | ok w' => rw [e] at h; exact ih h

/-- What `assign_moment` returns, with the loop run on the array whose moment axes are last. -/
def wrapUp (data : Arr K) (o' : List ℕ) (copy : Bool) (r : Arr K × Option PyErr) :
    Arr K × Py (Arr K) :=
  (if copy then data else r.1.transpose o', match r.2 with
    | some e => .error e
    | none => .ok (r.1.transpose o'))

theorem lastShape (data : Arr K) (mom : List ℤ) :
    (data.transpose (lastLayout data.shape.length (mom.map (wrap data.shape.length)))).shape
      = (keptAxes data.shape.length (mom.map (wrap data.shape.length))).map (axisSize data)
        ++ (mom.map (wrap data.shape.length)).map (axisSize data) := by
  unfold Arr.transpose lastLayout
  rw [← List.map_append]; rfl

theorem mom_lt {data : Arr K} {mom : List ℤ} (g : GoodMoments data mom) :
    ∀ a ∈ mom.map (wrap data.shape.length), a < data.shape.length := by
  intro a ha
  obtain ⟨z, hz, rfl⟩ := List.mem_map.1 ha
  exact wrap_lt (g.range z hz)

theorem kept_length {data : Arr K} {mom : List ℤ} (g : GoodMoments data mom) :
    (keptAxes data.shape.length (mom.map (wrap data.shape.length))).length + mom.length
      = data.shape.length := by
  have := keptAxes_length g.distinct (mom_lt g)
  rwa [List.length_map] at this

theorem lastShape_length {data : Arr K} {mom : List ℤ} (g : GoodMoments data mom) :
    (data.transpose (lastLayout data.shape.length (mom.map (wrap data.shape.length)))).shape.length
      = data.shape.length := by
  rw [lastShape data mom]
  simp only [List.length_append, List.length_map]
  exact kept_length g

theorem lastShape_drop {data : Arr K} {mom : List ℤ} (g : GoodMoments data mom) :
    (data.transpose (lastLayout data.shape.length (mom.map (wrap data.shape.length)))).shape.drop
      (data.shape.length - mom.length) = (mom.map (wrap data.shape.length)).map (axisSize data) := by
  have := kept_length g
  rw [lastShape data mom, show data.shape.length - mom.length
    = ((keptAxes data.shape.length (mom.map (wrap data.shape.length))).map (axisSize data)).length by
      rw [List.length_map]; omega]
  exact List.drop_left

theorem lastShape_take {data : Arr K} {mom : List ℤ} (g : GoodMoments data mom) :
    (data.transpose (lastLayout data.shape.length (mom.map (wrap data.shape.length)))).shape.take
      (data.shape.length - mom.length)
        = (keptAxes data.shape.length (mom.map (wrap data.shape.length))).map (axisSize data) := by
  have := kept_length g
  rw [lastShape data mom, show data.shape.length - mom.length
    = ((keptAxes data.shape.length (mom.map (wrap data.shape.length))).map (axisSize data)).length by
      rw [List.length_map]; omega]
  exact List.take_left

theorem lastLayout_perm {data : Arr K} {mom : List ℤ} (g : GoodMoments data mom) :
    (lastLayout data.shape.length (mom.map (wrap data.shape.length))).Perm
      (List.range data.shape.length) := keptAxes_perm g.distinct (mom_lt g)

theorem assign_uniform {data : Arr K} {mom : List ℤ} (g : GoodMoments data mom) :
    ∃ o', o'.Perm (List.range data.shape.length) ∧
      (∀ i < data.shape.length, ∃ j, o'[i]? = some j ∧
        (lastLayout data.shape.length (mom.map (wrap data.shape.length)))[j]? = some i) ∧
      ∀ values : List (String × Arr K), (∀ p ∈ values, p.2.Proper) → ∀ sq copy,
        assignMoment data mom values sq copy
          = wrapUp data o' copy (assignLoop mom.length sq values
              (data.transpose (lastLayout data.shape.length (mom.map (wrap data.shape.length))))) := by
  obtain ⟨o', h1, h2, h3, h4⟩ := moves g.range g.distinct
  refine ⟨o', h1, h2, fun values hv sq copy => ?_⟩
  have hwp := transpose_proper g.proper (lastLayout_perm g)
  have hlen := lastShape_length g
  have hle := length_le_of_nodup g.range g.distinct
  have hprops := assignLoop_props g.count sq values hwp (by rw [hlen]; exact hle)
    (by
      rw [hlen, lastShape_drop g]
      intro s hs
      obtain ⟨a, ha, rfl⟩ := List.mem_map.1 hs
      exact g.positive a ha) hv
  unfold assignMoment wrapUp
  by_cases e : mom = axesLast mom.length
  · obtain ⟨e1, e2⟩ := h4 e
    rw [e1, transpose_id g.proper rfl] at hprops ⊢
    simp only [ne_eq, e.symm, not_true_eq_false, if_false]
    rw [transpose_id hprops.1 (by rw [hprops.2, e2])]
    cases copy <;> rfl
  · obtain ⟨e1, e2⟩ := h3 e
    simp only [ne_eq, e, not_false_eq_true, if_true, e1]
    rw [e2 _ (by rw [hprops.2, hlen])]
    cases copy <;> rfl

theorem select_uniform {data : Arr K} {mom : List ℤ} (g : GoodMoments data mom) (name : String)
    (sq : Bool) :
    selectMoment data mom name sq
      = (subFor name sq ((mom.map (wrap data.shape.length)).map (axisSize data))).map fun sub =>
          getItem (data.transpose (lastLayout data.shape.length (mom.map (wrap data.shape.length))))
            mom.length sub := by
  obtain ⟨o', h1, h2, h3, h4⟩ := moves g.range g.distinct
  have hlen := lastShape_length g
  have hle := length_le_of_nodup g.range g.distinct
  have key : (if mom ≠ axesLast mom.length then moveaxis data mom (axesLast mom.length)
      else .ok data) = .ok (data.transpose (lastLayout data.shape.length
        (mom.map (wrap data.shape.length)))) := by
    by_cases e : mom = axesLast mom.length
    · rw [if_neg (by simpa using e), (h4 e).1, transpose_id g.proper rfl]
    · rw [if_pos e, (h3 e).1]
  unfold selectMoment
  rw [key]
  show (if _ then _ else _) = _
  rw [if_neg (by rw [hlen]; omega), hlen, lastShape_drop g]
  unfold subFor
  rw [List.length_map, List.length_map]
  cases momentIndexer name mom.length sq <;> rfl

theorem getD_map_append_left {kept c : List ℕ} (i : ℕ → ℕ) {q : ℕ} (hq : q < kept.length) :
    (kept.map i ++ c).getD q 0 = i (kept.getD q 0) := by
  rw [List.getD_append _ _ _ _ (by simpa using hq), List.getD_eq_getElem _ _ (by simpa using hq),
    List.getElem_map, List.getD_eq_getElem _ _ hq]

theorem within_length {sizes m : List ℕ} (h : Within sizes m) : m.length = sizes.length :=
  List.Forall₂.length_eq h

theorem coords_atCoords (l c : List ℕ) : coords l.length c.length (atCoords (l ++ c)) = c := by
  refine List.ext_getElem (by simp [coords]) fun t h1 h2 => ?_
  simp only [coords, List.getElem_map, List.getElem_range, atCoords]
  rw [List.getD_append_right _ _ _ _ (by omega), Nat.add_sub_cancel_left,
    List.getD_eq_getElem _ _ h2]

/-- What a selection shows. -/
theorem select_spec {data : Arr K} {mom : List ℤ} (g : GoodMoments data mom) {name : String}
    {sq : Bool}
    (hsel : Selectable name sq ((mom.map (wrap data.shape.length)).map (axisSize data))) :
    ∃ out, selectMoment data mom name sq = .ok out ∧
      out.shape = (keptAxes data.shape.length (mom.map (wrap data.shape.length))).map (axisSize data)
        ++ selShape name sq ((mom.map (wrap data.shape.length)).map (axisSize data)) ∧
      ∀ p ∈ selection name sq ((mom.map (wrap data.shape.length)).map (axisSize data)), ∀ i,
        Within (selShape name sq ((mom.map (wrap data.shape.length)).map (axisSize data))) p.1 ∧
        out.get (atCoords ((keptAxes data.shape.length (mom.map (wrap data.shape.length))).map i
            ++ p.1))
          = data.get (withMoment (mom.map (wrap data.shape.length)) p.2 i) := by
  have hk := kept_length g
  obtain ⟨h1, _, _⟩ := subFor_spec name sq
    (sizes := (mom.map (wrap data.shape.length)).map (axisSize data))
    (by simpa using g.count) (by
      intro s hs
      obtain ⟨a, ha, rfl⟩ := List.mem_map.1 hs
      exact g.positive a ha)
  obtain ⟨sub, e, esh, ok⟩ := h1 hsel
  refine ⟨getItem (data.transpose (lastLayout data.shape.length
    (mom.map (wrap data.shape.length)))) mom.length sub, ?_, ?_, ?_⟩
  · rw [select_uniform g, e]; rfl
  · show _ ++ _ = _
    rw [lastShape_length g, lastShape_take g, esh]
  · rintro ⟨c, m⟩ hp i
    obtain ⟨hw, hloc⟩ := (ok.locate c m).1 hp
    refine ⟨by rw [← esh]; exact hw, ?_⟩
    set n := data.shape.length with hn
    set ms := mom.map (wrap n) with hms
    have hmsl : ms.length = mom.length := by rw [hms, List.length_map]
    have hp' : n - mom.length = (keptAxes n ms).length := by omega
    show data.get (fun ax => setFrom
      ((data.transpose (lastLayout n ms)).shape.length - mom.length)
      (sub.locate (coords ((data.transpose (lastLayout n ms)).shape.length - mom.length)
        sub.shape.length (atCoords ((keptAxes n ms).map i ++ c))))
      (atCoords ((keptAxes n ms).map i ++ c)) ((lastLayout n ms).idxOf ax)) = _
    rw [show (data.transpose (lastLayout n ms)).shape.length = n from lastShape_length g, hp']
    have hc : coords (keptAxes n ms).length sub.shape.length
        (atCoords ((keptAxes n ms).map i ++ c)) = c := by
      have := coords_atCoords ((keptAxes n ms).map i) c
      rwa [List.length_map, within_length hw] at this
    rw [hc, hloc]
    refine g.proper _ _ fun ax hax => ?_
    have hax : ax < n := hax
    unfold setFrom withMoment lastLayout
    by_cases hin : ax ∈ ms
    · rw [if_pos hin, idxOf_append_right hin, if_pos (by omega), Nat.add_sub_cancel]
    · have hlt := idxOf_kept_lt (n := n) hax hin
      rw [if_neg hin, idxOf_append_left hax hin, if_neg (by omega)]
      unfold atCoords
      rw [getD_map_append_left _ hlt, getD_idxOf (mem_keptAxes.2 ⟨hax, hin⟩)]

/-- What one assignment does. -/
theorem assign_spec {data : Arr K} {mom : List ℤ} (g : GoodMoments data mom) {name : String}
    {sq : Bool}
    (hsel : Selectable name sq ((mom.map (wrap data.shape.length)).map (axisSize data)))
    {v : Arr K} (hv : v.Proper)
    (hb : Broadcasts v.shape
      ((keptAxes data.shape.length (mom.map (wrap data.shape.length))).map (axisSize data)
        ++ selShape name sq ((mom.map (wrap data.shape.length)).map (axisSize data))))
    (copy : Bool) :
    ∃ out, assignMoment data mom [(name, v)] sq copy = (if copy then data else out, .ok out) ∧
      out.shape = data.shape ∧ out.Proper ∧
      ∀ i, Within ((mom.map (wrap data.shape.length)).map (axisSize data))
          ((mom.map (wrap data.shape.length)).map i) →
        (∀ c, (c, (mom.map (wrap data.shape.length)).map i)
            ∈ selection name sq ((mom.map (wrap data.shape.length)).map (axisSize data)) →
          out.get i = stretch v
            ((keptAxes data.shape.length (mom.map (wrap data.shape.length))).map (axisSize data)
              ++ selShape name sq ((mom.map (wrap data.shape.length)).map (axisSize data))).length
            (atCoords ((keptAxes data.shape.length (mom.map (wrap data.shape.length))).map i
              ++ c))) ∧
        ((∀ c, (c, (mom.map (wrap data.shape.length)).map i)
            ∉ selection name sq ((mom.map (wrap data.shape.length)).map (axisSize data))) →
          out.get i = data.get i) := by
  have hk := kept_length g
  obtain ⟨o', ho, hinv, huni⟩ := assign_uniform g
  set n := data.shape.length with hn
  set ms := mom.map (wrap n) with hms
  set w := data.transpose (lastLayout n ms) with hw
  have hlen : w.shape.length = n := lastShape_length g
  have hle : mom.length ≤ n := length_le_of_nodup g.range g.distinct
  have hdrop : w.shape.drop (w.shape.length - mom.length) = ms.map (axisSize data) := by
    rw [hlen]; exact lastShape_drop g
  have htake : w.shape.take (w.shape.length - mom.length) = (keptAxes n ms).map (axisSize data) := by
    rw [hlen]; exact lastShape_take g
  have hwp : w.Proper := transpose_proper g.proper (lastLayout_perm g)
  obtain ⟨h1, _, _⟩ := setItem_spec w g.count (by omega) (by
      rw [hdrop]
      intro s hs
      obtain ⟨a, ha, rfl⟩ := List.mem_map.1 hs
      exact g.positive a ha) name sq v
  rw [hdrop, htake] at h1
  obtain ⟨sub, esh, ok, hok, _⟩ := h1 hsel
  rw [esh] at hok
  obtain ⟨b, eb, eb', eset⟩ := hok hb
  have hbp : (putItem w mom.length sub b).Proper :=
    putItem_proper hwp (by omega) sub hv (by rw [eb]; exact hb) eb'
  have hon : o'.Nodup := ho.nodup_iff.2 List.nodup_range
  have hLn : (lastLayout n ms).length = n := by
    rw [(lastLayout_perm g).length_eq, List.length_range]
  have hLnd : (lastLayout n ms).Nodup := (lastLayout_perm g).nodup_iff.2 List.nodup_range
  have hpos : ∀ q < n, o'.idxOf q = (lastLayout n ms).getD q 0 := by
    intro q hq
    have hq' : q < (lastLayout n ms).length := by omega
    have hmem : (lastLayout n ms)[q] < n := by
      have := (lastLayout_perm g).mem_iff.1 (List.getElem_mem hq')
      exact List.mem_range.1 this
    obtain ⟨j, e1, e2⟩ := hinv _ hmem
    obtain ⟨hj, e2⟩ := List.getElem?_eq_some_iff.1 e2
    have : j = q := (List.Nodup.getElem_inj_iff hLnd).1 e2
    subst this
    obtain ⟨hh, e1⟩ := List.getElem?_eq_some_iff.1 e1
    rw [List.getD_eq_getElem _ _ hq']
    conv_lhs => rw [← e1]
    exact hon.idxOf_getElem _ _
  refine ⟨(putItem w mom.length sub b).transpose o', ?_, ?_, ?_, ?_⟩
  · rw [huni _ (by simpa using hv)]
    unfold wrapUp
    simp only [assignLoop, eset]
  · have hshape : ∀ p < n, w.shape.getD ((o').getD p 0) 0 = data.shape.getD p 0 := by
      intro p hp
      obtain ⟨j, e1, e2⟩ := hinv p hp
      obtain ⟨hp', e1⟩ := List.getElem?_eq_some_iff.1 e1
      obtain ⟨hj, e2⟩ := List.getElem?_eq_some_iff.1 e2
      rw [List.getD_eq_getElem o' _ hp', e1, hw]
      unfold Arr.transpose
      rw [List.getD_eq_getElem _ _ (by simpa using hj), List.getElem_map, e2]
    show o'.map (fun ax => w.shape.getD ax 0) = data.shape
    have hol : o'.length = n := by rw [ho.length_eq, List.length_range]
    refine List.ext_getElem (by rw [List.length_map, hol]) fun p h1 h2 => ?_
    have := hshape p h2
    rw [List.getD_eq_getElem o' _ (by omega)] at this
    rw [List.getElem_map, this, List.getD_eq_getElem _ _ h2]
  · exact transpose_proper hbp (by
      show o'.Perm (List.range w.shape.length)
      rw [hlen]; exact ho)
  · intro i hi
    have hj : ((putItem w mom.length sub b).transpose o').get i
        = (putItem w mom.length sub b).get (fun q => i ((lastLayout n ms).getD q 0)) := by
      refine hbp _ _ fun q hq => ?_
      rw [hpos q (by rw [← hlen]; exact hq)]
    have hp' : n - mom.length = (keptAxes n ms).length := by omega
    have hco : coords (w.shape.length - mom.length) mom.length
        (fun q => i ((lastLayout n ms).getD q 0)) = ms.map i := by
      rw [hlen, hp']
      refine List.ext_getElem (by simp [coords, hms]) fun t h1 h2 => ?_
      have ht : t < ms.length := by simpa using h2
      simp only [coords, List.getElem_map, List.getElem_range]
      unfold lastLayout
      rw [List.getD_append_right _ _ _ _ (by omega), Nat.add_sub_cancel_left,
        List.getD_eq_getElem _ _ ht]
    have hput : (putItem w mom.length sub b).get (fun q => i ((lastLayout n ms).getD q 0))
        = (match sub.unlocate (ms.map i) with
          | some c => b.get (setFrom (w.shape.length - mom.length) c
            (fun q => i ((lastLayout n ms).getD q 0)))
          | none => w.get (fun q => i ((lastLayout n ms).getD q 0))) := by
      rw [← hco]; rfl
    rw [hj, hput]
    refine ⟨fun c hc => ?_, fun hc => ?_⟩
    · rw [(ok.unlocate _ hi c).2 hc]
      simp only
      obtain ⟨hwc, _⟩ := (ok.locate _ _).1 hc
      rw [eb', eb]
      refine stretch_congr hv hb fun q hq => ?_
      rw [hlen, hp']
      unfold setFrom atCoords
      by_cases h : (keptAxes n ms).length ≤ q
      · rw [if_pos h, List.getD_append_right _ _ _ _ (by simpa using h), List.length_map]
      · rw [if_neg h, getD_map_append_left _ (by omega)]
        show i ((keptAxes n ms ++ ms).getD q 0) = _
        rw [List.getD_append _ _ _ _ (by omega)]
    · have : sub.unlocate (ms.map i) = none := by
        cases hu : sub.unlocate (ms.map i) with
        | none => rfl
        | some c => exact absurd ((ok.unlocate _ hi c).1 hu) (hc c)
      rw [this]
      simp only
      refine g.proper _ _ fun ax hax => ?_
      show i ((lastLayout n ms).getD ((lastLayout n ms).idxOf ax) 0) = i ax
      rw [getD_idxOf ((lastLayout_perm g).mem_iff.2 (List.mem_range.2 hax))]

theorem good_of_shape {data a : Arr K} {mom : List ℤ} (g : GoodMoments data mom) (hp : a.Proper)
    (hs : a.shape = data.shape) : GoodMoments a mom where
  proper := hp
  count := g.count
  range := by rw [hs]; exact g.range
  distinct := by rw [hs]; exact g.distinct
  positive := by
    unfold axisSize
    rw [hs]; exact g.positive

theorem assign_result {data : Arr K} {mom : List ℤ} (g : GoodMoments data mom)
    {l : List (String × Arr K)} (hl : ∀ p ∈ l, p.2.Proper) {sq copy : Bool} {a : Arr K}
    (h : (assignMoment data mom l sq copy).2 = .ok a) : a.Proper ∧ a.shape = data.shape ∧
      assignMoment data mom l sq copy = (if copy then data else a, .ok a) := by
  obtain ⟨o', ho, hinv, huni⟩ := assign_uniform g
  have hlen := lastShape_length g
  have hle := length_le_of_nodup g.range g.distinct
  have hprops := assignLoop_props g.count sq l (transpose_proper g.proper (lastLayout_perm g))
    (by rw [hlen]; exact hle)
    (by
      rw [hlen, lastShape_drop g]
      intro s hs
      obtain ⟨a, ha, rfl⟩ := List.mem_map.1 hs
      exact g.positive a ha) hl
  rw [huni l hl] at h ⊢
  unfold wrapUp at h ⊢
  cases e : (assignLoop mom.length sq l (data.transpose (lastLayout data.shape.length
      (mom.map (wrap data.shape.length))))).2 with
  | some e' => rw [e] at h; cases h
  | none =>
    rw [e] at h
    have := Except.ok.inj h
    subst this
    refine ⟨transpose_proper hprops.1 (by rw [hprops.2, hlen]; exact ho), ?_, rfl⟩
    have hback : (data.transpose (lastLayout data.shape.length
        (mom.map (wrap data.shape.length)))).transpose o' = data :=
      transpose_transpose g.proper (lastLayout_perm g)
        (by rw [ho.length_eq, List.length_range]) hinv (ho.nodup_iff.2 List.nodup_range)
    conv_rhs => rw [← hback]
    show o'.map _ = o'.map _
    rw [hprops.2]

/-- After some assignments went well, the following ones continue from their result. -/
theorem assign_append {data : Arr K} {mom : List ℤ} (g : GoodMoments data mom)
    {l l' : List (String × Arr K)} (hl : ∀ p ∈ l, p.2.Proper) (hl' : ∀ p ∈ l', p.2.Proper)
    {sq copy : Bool} {a : Arr K} (h : (assignMoment data mom l sq copy).2 = .ok a) :
    assignMoment data mom (l ++ l') sq copy
      = (if copy then data else (assignMoment a mom l' sq false).1,
          (assignMoment a mom l' sq false).2) := by
  obtain ⟨hap, hash, _⟩ := assign_result g hl h
  have ga := good_of_shape g hap hash
  obtain ⟨o', ho, hinv, huni⟩ := assign_uniform g
  obtain ⟨o'', ho', hinv', huni'⟩ := assign_uniform ga
  rw [hash] at ho' hinv' huni'
  have hLnd : (lastLayout data.shape.length (mom.map (wrap data.shape.length))).Nodup :=
    (lastLayout_perm g).nodup_iff.2 List.nodup_range
  have hoo : o'' = o' := by
    refine List.ext_getElem? fun i => ?_
    by_cases hi : i < data.shape.length
    · obtain ⟨j, e1, e2⟩ := hinv i hi
      obtain ⟨j', e1', e2'⟩ := hinv' i hi
      obtain ⟨hj, e2⟩ := List.getElem?_eq_some_iff.1 e2
      obtain ⟨hj', e2'⟩ := List.getElem?_eq_some_iff.1 e2'
      have : j = j' := (List.Nodup.getElem_inj_iff hLnd).1 (e2.trans e2'.symm)
      rw [e1, e1', this]
    · rw [List.getElem?_eq_none (by rw [ho'.length_eq, List.length_range]; omega),
        List.getElem?_eq_none (by rw [ho.length_eq, List.length_range]; omega)]
  subst hoo
  have hlen := lastShape_length g
  have hle := length_le_of_nodup g.range g.distinct
  have hprops := assignLoop_props g.count sq l (transpose_proper g.proper (lastLayout_perm g))
    (by rw [hlen]; exact hle)
    (by
      rw [hlen, lastShape_drop g]
      intro s hs
      obtain ⟨a, ha, rfl⟩ := List.mem_map.1 hs
      exact g.positive a ha) hl
  rw [huni l hl] at h
  rw [huni _ (by
    intro p hp
    rcases List.mem_append.1 hp with hp | hp
    · exact hl p hp
    · exact hl' p hp), huni' l' hl']
  unfold wrapUp at h
  cases e : (assignLoop mom.length sq l (data.transpose (lastLayout data.shape.length
      (mom.map (wrap data.shape.length))))).2 with
  | some e' => rw [e] at h; cases h
  | none =>
    rw [e] at h
    have := Except.ok.inj h
    subst this
    rw [assignLoop_append sq l l' e]
    set r := assignLoop mom.length sq l (data.transpose (lastLayout data.shape.length
      (mom.map (wrap data.shape.length)))) with hr
    have hrlen : r.1.shape.length = data.shape.length := by rw [hprops.2, hlen]
    have hback : (r.1.transpose o'').transpose (lastLayout data.shape.length
        (mom.map (wrap data.shape.length))) = r.1 := by
      refine transpose_transpose hprops.1 (by rw [hrlen]; exact ho)
        (by rw [hrlen, (lastLayout_perm g).length_eq, List.length_range]) ?_ hLnd
      intro q hq
      rw [hrlen] at hq
      have hq' : q < (lastLayout data.shape.length (mom.map (wrap data.shape.length))).length := by
        rw [(lastLayout_perm g).length_eq, List.length_range]; exact hq
      refine ⟨_, List.getElem?_eq_getElem hq', ?_⟩
      have hmem := List.mem_range.1 ((lastLayout_perm g).mem_iff.1 (List.getElem_mem hq'))
      obtain ⟨j, e1, e2⟩ := hinv _ hmem
      obtain ⟨hj, e2⟩ := List.getElem?_eq_some_iff.1 e2
      have : j = q := (List.Nodup.getElem_inj_iff hLnd).1 e2
      rw [e1, this]
    rw [hback]
    unfold wrapUp
    cases copy <;> rfl

/-- The first assignment fails. -/
theorem assign_first_error {data : Arr K} {mom : List ℤ} (g : GoodMoments data mom)
    {l : List (String × Arr K)} {name : String} {v : Arr K} (hv : v.Proper)
    (hl : ∀ p ∈ l, p.2.Proper) {sq copy : Bool} {e : PyErr}
    (h : setItem (data.transpose (lastLayout data.shape.length
      (mom.map (wrap data.shape.length)))) mom.length name sq v = .error e) :
    assignMoment data mom ((name, v) :: l) sq copy = (data, .error e) := by
  obtain ⟨o', ho, hinv, huni⟩ := assign_uniform g
  rw [huni _ (by
    intro p hp
    rcases List.mem_cons.1 hp with rfl | hp
    · exact hv
    · exact hl p hp)]
  unfold wrapUp
  simp only [assignLoop, h]
  rw [transpose_transpose g.proper (lastLayout_perm g)
    (by rw [ho.length_eq, List.length_range]) hinv (ho.nodup_iff.2 List.nodup_range)]
  cases copy <;> rfl

theorem within_of_inBounds {data : Arr K} {mom : List ℤ} (g : GoodMoments data mom) {i : ℕ → ℕ}
    (hi : InBounds data.shape i) :
    Within ((mom.map (wrap data.shape.length)).map (axisSize data))
      ((mom.map (wrap data.shape.length)).map i) := by
  unfold Within
  rw [List.forall₂_map_left_iff, List.forall₂_map_right_iff, List.forall₂_same]
  intro a ha
  exact hi a (mom_lt g a ha)

end Arrays

theorem select_proper {a s : Arr K} {mom : List ℤ} (g : GoodMoments a mom) {name : String}
    {sq : Bool} (e1 : selectMoment a mom name sq = .ok s) : s.Proper := by
  rw [select_uniform g] at e1
  cases hsub : subFor name sq (momSizes a mom) with
  | error e => rw [hsub] at e1; cases e1
  | ok sub =>
    rw [hsub] at e1
    have := Except.ok.inj e1
    subst this
    have hwp := transpose_proper g.proper (lastLayout_perm g)
    intro i j hij
    have hl : ((a.transpose (lastLayout a.shape.length
      (mom.map (wrap a.shape.length)))).shape.take ((a.transpose (lastLayout a.shape.length
      (mom.map (wrap a.shape.length)))).shape.length - mom.length)).length
        = (a.transpose (lastLayout a.shape.length
      (mom.map (wrap a.shape.length)))).shape.length - mom.length := by
      rw [List.length_take]; omega
    have hij : ∀ ax < (a.transpose (lastLayout a.shape.length
      (mom.map (wrap a.shape.length)))).shape.length - mom.length + sub.shape.length,
        i ax = j ax := by
      intro ax hax
      refine hij ax ?_
      show ax < (List.take _ _ ++ sub.shape).length
      rw [List.length_append, hl]; exact hax
    show Arr.get _ _ = Arr.get _ _
    refine hwp _ _ fun ax hax => ?_
    have hco : coords ((a.transpose (lastLayout a.shape.length
      (mom.map (wrap a.shape.length)))).shape.length - mom.length) sub.shape.length i
        = coords ((a.transpose (lastLayout a.shape.length
      (mom.map (wrap a.shape.length)))).shape.length - mom.length) sub.shape.length j := by
      unfold coords
      refine List.map_congr_left fun t ht => hij _ ?_
      have := List.mem_range.1 ht
      omega
    rw [hco]
    unfold setFrom
    by_cases hle : (a.transpose (lastLayout a.shape.length
      (mom.map (wrap a.shape.length)))).shape.length - mom.length ≤ ax
    · rw [if_pos hle, if_pos hle]
    · rw [if_neg hle, if_neg hle]
      exact hij _ (by omega)

end Cmomy.Select
