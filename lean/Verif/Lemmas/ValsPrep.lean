import Verif.Lemmas.ValsOps

/-!
# Preparation of value and weight arrays

`prepareValues` gives arrays that are `Ready`, in the order of axes `frontAxes`.
-/

set_option linter.unusedSectionVars false

namespace Cmomy.Nd

open Axes Spec

section Order

/-- Axis `c` moved to the end. -/
def lastOrder (n c : ℕ) : List ℕ := keptAxes n [c] ++ [c]

theorem lastOrder_length {n c : ℕ} (h : c < n) : (lastOrder n c).length = n := by
  simp only [lastOrder, List.length_append, keptAxes_single_length h, List.length_singleton]
  omega

theorem lastOrder_getD {n c p : ℕ} (h : c < n) (hp : p < n) :
    (lastOrder n c).getD p 0 = if p + 1 = n then c else if p < c then p else p + 1 := by
  have hl := keptAxes_single_length h
  unfold lastOrder
  split_ifs with h1 h2
  · rw [List.getD_append_right _ _ _ _ (by omega), hl, show p - (n - 1) = 0 by omega]; rfl
  · rw [List.getD_append _ _ _ _ (by omega), keptAxes_single_getD h (by omega), if_pos h2]
  · rw [List.getD_append _ _ _ _ (by omega), keptAxes_single_getD h (by omega), if_neg h2]

theorem lastOrder_perm {n c : ℕ} (h : c < n) : (lastOrder n c).Perm (List.range n) := by
  have := keptAxes_perm (n := n) (s := [c]) (by simp) (by simpa using h)
  exact this

theorem lastOrder_nodup {n c : ℕ} (h : c < n) : (lastOrder n c).Nodup :=
  (lastOrder_perm h).nodup_iff.2 List.nodup_range

theorem lastOrder_idxOf {n c q : ℕ} (h : c < n) (hq : q < n) :
    (lastOrder n c).idxOf q = if q = c then n - 1 else if q < c then q else q - 1 := by
  set p := if q = c then n - 1 else if q < c then q else q - 1 with hp
  have hpn : p < n := by rw [hp]; split_ifs <;> omega
  have : (lastOrder n c).getD p 0 = q := by
    rw [lastOrder_getD h hpn, hp]
    split_ifs <;> omega
  rw [← this, idxOf_getD (lastOrder_nodup h) (by rwa [lastOrder_length h])]

theorem lastOrder_last {n : ℕ} (h : 0 < n) : lastOrder n (n - 1) = List.range n := by
  refine List.ext_getElem (by simp [lastOrder_length (show n - 1 < n by omega)]) fun q h1 h2 => ?_
  have hq : q < n := by simpa using h2
  rw [← List.getD_eq_getElem _ 0, lastOrder_getD (by omega) hq, List.getElem_range]
  split_ifs <;> omega

theorem moveToLast {n : ℕ} {z : ℤ} (h : InRange n z) :
    moveaxisOrder n [.int z] [.int (-1)] = .ok (lastOrder n (wrap n z)) := by
  have hw := wrap_lt h
  have hr : InRange n (-1) := by unfold InRange; omega
  have := wrap_neg hr (by omega)
  rw [moveaxisOrder_single h hr, show wrap n (-1) = (keptAxes n [wrap n z]).length by
    rw [keptAxes_single_length hw]; omega, List.insertIdx_length_self]
  rfl

end Order

section Prep

variable {K V M : Type*} [Field K] [DecidableEq K]

/-- What becomes of the shape of an array whose axis at distance `d` from the end is moved to the
end. -/
def movedShape (d : ℕ) (s : List ℕ) : List ℕ :=
  (lastOrder s.length (s.length - d)).map (fun p => s.getD p 0)

/-- What becomes of an array. -/
def movedArr (d : ℕ) (a : Arr K) : Arr K := a.transpose (lastOrder a.shape.length (a.shape.length - d))

theorem movedShape_length {d : ℕ} {s : List ℕ} (h1 : 1 ≤ d) (hd : d ≤ s.length) :
    (movedShape d s).length = s.length := by
  simp only [movedShape, List.length_map]
  exact lastOrder_length (by omega)

theorem movedShape_getD {d p : ℕ} {s : List ℕ} (h1 : 1 ≤ d) (hd : d ≤ s.length) (hp : p < s.length) :
    (movedShape d s).getD p 0 = s.getD (if p + 1 = s.length then s.length - d
      else if p < s.length - d then p else p + 1) 0 := by
  have hl : p < (lastOrder s.length (s.length - d)).length := by
    rw [lastOrder_length (by omega)]; exact hp
  rw [movedShape, List.getD_eq_getElem _ _ (by simpa using hl), List.getElem_map,
    ← List.getD_eq_getElem _ 0 hl, lastOrder_getD (by omega) hp]

theorem _root_.Cmomy.Spec.IsBroadcast.moved {d : ℕ} {shapes : List (List ℕ)} {full : List ℕ}
    (h : IsBroadcast shapes full) (h1 : 1 ≤ d) (hd : ∀ s ∈ shapes, d ≤ s.length)
    (hne : shapes ≠ []) : IsBroadcast (shapes.map (movedShape d)) (movedShape d full) := by
  have hdf : d ≤ full.length := by
    obtain ⟨s, hs⟩ := List.exists_mem_of_ne_nil _ hne
    exact (hd s hs).trans (h.rank s hs)
  have hlf := movedShape_length h1 hdf
  refine ⟨?_, ?_, ?_⟩
  · intro t ht
    obtain ⟨s, hs, rfl⟩ := List.mem_map.1 ht
    rw [movedShape_length h1 (hd s hs), hlf]
    exact h.rank s hs
  · intro t ht p hp
    obtain ⟨s, hs, rfl⟩ := List.mem_map.1 ht
    have hds := hd s hs
    have hr := h.rank s hs
    rw [movedShape_length h1 hds] at hp
    rw [movedShape_getD h1 hds hp, movedShape_length h1 hds, hlf, movedShape_getD h1 hdf (by omega)]
    have := h.fits s hs (if p + 1 = s.length then s.length - d
      else if p < s.length - d then p else p + 1) (by split_ifs <;> omega)
    rwa [show (if p + (full.length - s.length) + 1 = full.length then full.length - d
      else if p + (full.length - s.length) < full.length - d then p + (full.length - s.length)
      else p + (full.length - s.length) + 1)
        = (if p + 1 = s.length then s.length - d else if p < s.length - d then p else p + 1)
          + (full.length - s.length) by split_ifs <;> omega]
  · intro q hq
    rw [hlf] at hq
    obtain ⟨s, hs, h2, h3⟩ := h.attained (if q + 1 = full.length then full.length - d
      else if q < full.length - d then q else q + 1) (by split_ifs <;> omega)
    have hds := hd s hs
    have hr := h.rank s hs
    have hle : full.length ≤ q + s.length := by split_ifs at h2 <;> omega
    refine ⟨_, List.mem_map_of_mem hs, by rw [hlf, movedShape_length h1 hds]; exact hle, ?_⟩
    rw [movedShape_length h1 hds, hlf, movedShape_getD h1 hds (by omega), movedShape_getD h1 hdf hq,
      ← h3]
    congr 1
    split_ifs <;> omega

/-- What the preparation makes of a value array. -/
def prepOne (move : Bool) (d n : ℕ) (a : Arr K) : Arr K :=
  if a.shape.length = 0 then ⟨[n], fun _ => a.get (fun _ => 0)⟩
  else if a.shape.length = 1 then a
  else if move then movedArr d a else a

theorem pyGet_ok {l : List ℕ} {z : ℤ} (h : InRange l.length z) :
    Validate.pyGet l z = .ok (l.getD (wrap l.length z) 0) := by
  have hw := wrap_lt h
  unfold Validate.pyGet
  simp only
  by_cases hz : z < 0
  · have := wrap_neg h hz
    rw [if_pos hz, if_neg (by omega), show (z + (l.length : ℤ)).toNat = wrap l.length z by omega,
      List.getElem?_eq_getElem hw, List.getD_eq_getElem _ _ hw]
  · have := wrap_nonneg h (by omega)
    rw [if_neg hz, if_neg hz, show z.toNat = wrap l.length z by omega,
      List.getElem?_eq_getElem hw, List.getD_eq_getElem _ _ hw]

theorem movedArr_last {d : ℕ} {a : Arr K} (h1 : 1 ≤ d) (hd : d ≤ a.shape.length) :
    axisSize (movedArr d a) ((movedArr d a).shape.length - 1)
      = axisSize a (a.shape.length - d) := by
  show (movedShape d a.shape).getD ((movedShape d a.shape).length - 1) 0 = a.shape.getD _ 0
  rw [movedShape_length h1 hd, movedShape_getD h1 hd (by omega), if_pos (by omega)]

theorem prepareSecondary_ok {a : Arr K} {d n : ℕ} (h1 : 1 ≤ d) (h : Usable a d n) (ate : Bool) :
    prepareSecondary a (-(d : ℤ)) n ate
      = .ok (prepOne (ate && decide (d ≠ 1)) d n a) := by
  obtain ⟨hp, h⟩ := h
  unfold prepareSecondary prepOne
  rcases h with h0 | ⟨hl, hs⟩ | ⟨hl, hd, hs⟩
  · rw [if_pos h0, if_pos h0]
  · have hl0 : ¬ a.shape.length = 0 := by omega
    rw [if_neg hl0, if_neg hl0, if_pos hl, if_pos hl]
    simp only [Except.bind]
    have hr : InRange a.shape.length (-1) := by unfold InRange; omega
    have hw := wrap_neg hr (by omega)
    rw [pyGet_ok hr, show wrap a.shape.length (-1) = 0 by omega]
    simp only
    rw [if_neg (show ¬ a.shape.getD 0 0 ≠ n from not_not.2 hs)]
  · have hl0 : ¬ a.shape.length = 0 := by omega
    have hl1 : ¬ a.shape.length = 1 := by omega
    rw [if_neg hl0, if_neg hl0, if_neg hl1, if_neg hl1]
    have hr : InRange a.shape.length (-(d : ℤ)) := by unfold InRange; omega
    have hw := wrap_neg hr (by omega)
    have hw' : wrap a.shape.length (-(d : ℤ)) = a.shape.length - d := by omega
    by_cases hm : ate = true ∧ d ≠ 1
    · rw [if_pos (show ate = true ∧ -(d : ℤ) ≠ -1 from ⟨hm.1, by omega⟩),
        if_pos (show (ate && decide (d ≠ 1)) = true by simp [hm.1, hm.2])]
      unfold Arr.moveaxisInt
      simp only [List.map_cons, List.map_nil]
      rw [moveToLast hr, hw']
      simp only [Except.map, Except.bind]
      have hlen : (movedArr d a).shape.length = a.shape.length := movedShape_length h1 hd
      have hr' : InRange (movedArr d a).shape.length (-1) := by unfold InRange; omega
      have hw2 := wrap_neg hr' (by omega)
      have hg := pyGet_ok hr'
      rw [show wrap (movedArr d a).shape.length (-1) = (movedArr d a).shape.length - 1 by omega] at hg
      change Validate.pyGet (a.transpose (lastOrder a.shape.length (a.shape.length - d))).shape (-1)
        = _ at hg
      rw [hg]
      simp only
      rw [if_neg (show ¬ (movedArr d a).shape.getD ((movedArr d a).shape.length - 1) 0 ≠ n from
        not_not.2 ((movedArr_last h1 hd).trans hs))]
      rfl
    · rw [if_neg (show ¬ (ate = true ∧ -(d : ℤ) ≠ -1) by
        rintro ⟨h1, h2⟩
        exact hm ⟨h1, fun h => h2 (by omega)⟩),
        if_neg (show ¬ (ate && decide (d ≠ 1)) = true by simpa using hm)]
      simp only [Except.bind]
      rw [pyGet_ok hr, hw']
      simp only
      rw [if_neg (show ¬ a.shape.getD (a.shape.length - d) 0 ≠ n from not_not.2 hs)]

/-- The order in which the axes of the common shape are handed on. -/
def frontAxes (n ax : ℕ) (axesToEnd : Bool) : List ℕ :=
  if axesToEnd then lastOrder n ax else List.range n

theorem rowsLayout_eq (n ax nd : ℕ) (axesToEnd : Bool) :
    rowsLayout n ax nd axesToEnd = frontAxes n ax axesToEnd ++ (List.range nd).map (n + ·) := by
  unfold rowsLayout frontAxes lastOrder
  cases axesToEnd
  · rw [if_neg (by simp), if_neg (by simp), List.range_add]
  · rw [if_pos rfl, if_pos rfl]; simp

/-- What a preparation has to achieve. -/
structure Prep (x : Arr K) (others : List (Arr K)) (z : ℤ) (full : List ℕ) (ate : Bool)
    (g : Arr K → Arr K) (full' : List ℕ) (d' : ℕ) : Prop where
  eq : ∀ nar, others.length + 1 = nar →
    prepareValues x others nar (.int z) ate = .ok (-(d' : ℤ), g x, others.map g)
  ready : Ready (g x) (others.map g) full' d' (sampleCount x z)
  len : full'.length = full.length
  sizes : ∀ p < full.length, full'.getD p 0
    = full.getD ((frontAxes full.length (full.length - fromEnd x z) ate).getD p 0) 0
  ax : (frontAxes full.length (full.length - fromEnd x z) ate).getD (full.length - d') 0
    = full.length - fromEnd x z
  op : ∀ a ∈ x :: others, ∀ i' i : ℕ → ℕ, (∀ p < full.length,
      i' p = i ((frontAxes full.length (full.length - fromEnd x z) ate).getD p 0)) →
    ∀ s, operandAt (g a) full.length (full.length - d') i' s
      = operandAt a full.length (full.length - fromEnd x z) i s

theorem operandAt_congr {a : Arr K} (hp : a.Proper) {n ax : ℕ} (hn : a.shape.length ≤ n)
    {i j : ℕ → ℕ} (h : ∀ p < n, i p = j p) (s : ℕ) :
    operandAt a n ax i s = operandAt a n ax j s := by
  unfold operandAt
  split_ifs
  · rfl
  · rfl
  · refine hp _ _ fun p hp' => ?_
    split_ifs
    · rfl
    · rfl
    · exact h _ (by omega)

theorem operandAt_scalar {a : Arr K} {n : ℕ} (h : a.shape.length = 0) (N ax N' ax' : ℕ) (i j : ℕ → ℕ)
    (s : ℕ) : operandAt (⟨[n], fun _ => a.get (fun _ => 0)⟩ : Arr K) N ax i s
      = operandAt a N' ax' j s := by
  unfold operandAt
  rw [if_neg (by simp), if_pos (by simp), if_pos h]

theorem operandAt_one {a : Arr K} (h : a.shape.length = 1) (N ax N' ax' : ℕ) (i j : ℕ → ℕ)
    (s : ℕ) : operandAt a N ax i s = operandAt a N' ax' j s := by
  unfold operandAt
  rw [if_neg (by omega), if_pos h, if_neg (by omega), if_pos h]

theorem operandAt_moved {a : Arr K} (hp : a.Proper) {N d : ℕ} (h1 : 1 ≤ d) (h2 : 2 ≤ a.shape.length)
    (hd : d ≤ a.shape.length) (hN : a.shape.length ≤ N) {i' i : ℕ → ℕ}
    (h : ∀ p < N, i' p = i ((lastOrder N (N - d)).getD p 0)) (s : ℕ) :
    operandAt (movedArr d a) N (N - 1) i' s = operandAt a N (N - d) i s := by
  have hl : (movedArr d a).shape.length = a.shape.length := movedShape_length h1 hd
  unfold operandAt
  rw [if_neg (by omega), if_neg (by omega), if_neg (by omega), if_neg (by omega)]
  refine hp _ _ fun q hq => ?_
  have hidx := lastOrder_idxOf (n := a.shape.length) (c := a.shape.length - d) (q := q) (by omega) hq
  simp only [hl]
  set P := (lastOrder a.shape.length (a.shape.length - d)).idxOf q with hP
  have hPl : P < a.shape.length := by rw [hidx]; split_ifs <;> omega
  by_cases hqc : q = a.shape.length - d
  · rw [if_pos hqc] at hidx
    rw [if_pos (show P + (N - a.shape.length) = N - 1 by omega),
      if_pos (show q + (N - a.shape.length) = N - d by omega)]
  · rw [if_neg hqc] at hidx
    rw [if_neg (show ¬ P + (N - a.shape.length) = N - 1 by split_ifs at hidx <;> omega),
      if_neg (show ¬ q + (N - a.shape.length) = N - d by omega)]
    have hsz : axisSize (movedArr d a) P = axisSize a q := by
      show (movedShape d a.shape).getD P 0 = a.shape.getD q 0
      rw [movedShape_getD h1 hd hPl]
      congr 1
      split_ifs at hidx ⊢ <;> omega
    rw [hsz]
    by_cases h0 : axisSize a q = 1
    · rw [if_pos h0, if_pos h0]
    · rw [if_neg h0, if_neg h0, h _ (by omega), lastOrder_getD (by omega) (by omega)]
      congr 1
      split_ifs at hidx ⊢ <;> omega

theorem fromEnd_facts {x : Arr K} {z : ℤ} (h : InRange x.shape.length z) :
    1 ≤ fromEnd x z ∧ fromEnd x z ≤ x.shape.length ∧
      wrap x.shape.length z = x.shape.length - fromEnd x z := by
  have := wrap_lt h
  unfold fromEnd
  omega

theorem _root_.Cmomy.Spec.GoodValues.d_le {x : Arr K} {others : List (Arr K)} {z : ℤ} {full : List ℕ}
    (g : GoodValues x others z full) :
    1 ≤ fromEnd x z ∧ fromEnd x z ≤ x.shape.length ∧ fromEnd x z ≤ full.length := by
  obtain ⟨h1, h2, _⟩ := fromEnd_facts g.range
  exact ⟨h1, h2, h2.trans (g.common.rank _ (by simp [wideShapes]))⟩

theorem prepareValues_eq {x : Arr K} {others : List (Arr K)} {z : ℤ}
    (hz : InRange x.shape.length z)
    (hu : ∀ a ∈ others, Usable a (fromEnd x z) (sampleCount x z))
    (ate : Bool) (nar : ℕ) (hn : others.length + 1 = nar) :
    prepareValues x others nar (.int z) ate
      = .ok (if ate then -1 else -(fromEnd x z : ℤ),
          if ate && decide (fromEnd x z ≠ 1) then movedArr (fromEnd x z) x else x,
          others.map (prepOne (ate && decide (fromEnd x z ≠ 1)) (fromEnd x z) (sampleCount x z))) := by
  obtain ⟨h1, h2, h3⟩ := fromEnd_facts hz
  unfold prepareValues
  rw [if_neg (not_not.2 hn), normalizeAxisIndex_int hz]
  simp only [Except.bind]
  have hneg : positiveToNegative (wrap x.shape.length z : ℤ) (x.shape.length : ℤ)
      = -(fromEnd x z : ℤ) := by
    unfold positiveToNegative
    rw [if_neg (by omega)]
    omega
  rw [hneg]
  have hos : others.mapM (fun a => prepareSecondary a (-(fromEnd x z : ℤ))
      (x.shape.getD (wrap x.shape.length z) 0) ate)
      = .ok (others.map (prepOne (ate && decide (fromEnd x z ≠ 1)) (fromEnd x z)
          (sampleCount x z))) :=
    mapM_ok_of_forall _ _ _ fun a ha => prepareSecondary_ok h1 (hu a ha) ate
  rw [hos]
  by_cases hm : ate = true ∧ fromEnd x z ≠ 1
  · rw [if_pos ⟨hm.1, by omega⟩, if_pos (show (ate && decide (fromEnd x z ≠ 1)) = true by simp [hm.1, hm.2])]
    unfold Arr.moveaxisInt
    simp only [List.map_cons, List.map_nil]
    have hr : InRange x.shape.length (-(fromEnd x z : ℤ)) := by unfold InRange; omega
    have hw := wrap_neg hr (by omega)
    rw [moveToLast hr, show wrap x.shape.length (-(fromEnd x z : ℤ)) = x.shape.length - fromEnd x z by
      omega]
    rfl
  · rw [if_neg (by
      rintro ⟨h1, h2⟩
      exact hm ⟨h1, fun h => h2 (by omega)⟩),
      if_neg (show ¬ (ate && decide (fromEnd x z ≠ 1)) = true by simpa using hm)]

theorem wide_prep (move : Bool) {d n : ℕ} (x : Arr K) (others : List (Arr K)) (h1 : 1 ≤ d)
    (hd : ∀ a ∈ others, 2 ≤ a.shape.length → d ≤ a.shape.length) :
    (((others.map (prepOne move d n)).filter (fun a => 1 < a.shape.length)).map Arr.shape)
      = ((others.filter (fun a => 1 < a.shape.length)).map Arr.shape).map
        (fun s => if move then movedShape d s else s) := by
  induction others with
  | nil => rfl
  | cons a l ih =>
    have ih' := ih (fun b hb => hd b (by simp [hb]))
    by_cases h : 1 < a.shape.length
    · have hl : 1 < (prepOne move d n a).shape.length ∧ (prepOne move d n a).shape
          = if move then movedShape d a.shape else a.shape := by
        unfold prepOne
        rw [if_neg (by omega), if_neg (by omega)]
        cases move
        · exact ⟨by simpa using h, rfl⟩
        · refine ⟨?_, rfl⟩
          show 1 < (movedShape d a.shape).length
          rw [movedShape_length h1 (hd a (by simp) (by omega))]; exact h
      rw [List.map_cons, List.filter_cons_of_pos (by simpa using hl.1),
        List.filter_cons_of_pos (by simpa using h), List.map_cons, List.map_cons, List.map_cons, ih',
        hl.2]
    · have hl : ¬ 1 < (prepOne move d n a).shape.length := by
        unfold prepOne
        split_ifs
        · simp
        · omega
        · omega
        · omega
      rw [List.map_cons, List.filter_cons_of_neg (by simpa using hl),
        List.filter_cons_of_neg (by simpa using h), ih']

theorem prepOne_x {move : Bool} {d n : ℕ} {x : Arr K} (h0 : 1 ≤ x.shape.length)
    (hm : move = true → 2 ≤ x.shape.length) :
    prepOne move d n x = if move then movedArr d x else x := by
  unfold prepOne
  rw [if_neg (by omega)]
  split_ifs with h1 h2
  · exact absurd (hm h2) (by omega)
  · rfl
  · rfl
  · rfl

theorem movedArr_proper {a : Arr K} (hp : a.Proper) {d : ℕ} (h1 : 1 ≤ d) (hd : d ≤ a.shape.length) :
    (movedArr d a).Proper :=
  transpose_proper hp (lastOrder_perm (by omega))

/-- Whether anything is moved. -/
def prepMove (x : Arr K) (z : ℤ) (ate : Bool) : Bool := ate && decide (fromEnd x z ≠ 1)

/-- Every good call is prepared properly. -/
theorem _root_.Cmomy.Spec.GoodValues.prepares {x : Arr K} {others : List (Arr K)} {z : ℤ}
    {full : List ℕ} (g : GoodValues x others z full) (ate : Bool) :
    Prep x others z full ate (prepOne (prepMove x z ate) (fromEnd x z) (sampleCount x z))
      (if prepMove x z ate then movedShape (fromEnd x z) full else full)
      (if prepMove x z ate then 1 else fromEnd x z) := by
  obtain ⟨h1, h2, hf⟩ := g.d_le
  obtain ⟨_, _, hw⟩ := fromEnd_facts g.range
  set d := fromEnd x z with hd
  set n := sampleCount x z with hn
  set move := prepMove x z ate with hmv'
  have hmv : move = (ate && decide (d ≠ 1)) := rfl
  have hmx : move = true → 2 ≤ x.shape.length := by
    intro h
    simp only [hmv, Bool.and_eq_true, decide_eq_true_eq] at h
    omega
  have hx := prepOne_x (d := d) (n := n) (x := x) (by omega) hmx
  have hok : ∀ a ∈ x :: others, a.Proper ∧ (a.shape.length = 0 ∨ (a.shape.length = 1 ∧ axisSize a 0 = n) ∨
      (2 ≤ a.shape.length ∧ d ≤ a.shape.length ∧ axisSize a (a.shape.length - d) = n)) := by
    intro a ha
    rcases List.mem_cons.1 ha with rfl | ha
    · refine ⟨g.proper, .inr ?_⟩
      have hc : axisSize a (a.shape.length - d) = n := by rw [hn, sampleCount, hw]
      by_cases h : a.shape.length = 1
      · exact .inl ⟨h, by rw [← hc]; congr 1; omega⟩
      · exact .inr ⟨by omega, h2, hc⟩
    · exact g.usable a ha
  have hx0 : 1 ≤ x.shape.length := by omega
  have hwide : ∀ s ∈ wideShapes x others, d ≤ s.length := by
    intro s hs
    rcases List.mem_cons.1 hs with rfl | hs
    · exact h2
    · obtain ⟨a, ha, rfl⟩ := List.mem_map.1 hs
      obtain ⟨ha, hl⟩ := List.mem_filter.1 ha
      have hl' : 1 < a.shape.length := by simpa using hl
      rcases (g.usable a ha).2 with h | ⟨h, _⟩ | ⟨_, h, _⟩ <;> omega
  have hrank : ∀ a ∈ x :: others, a.shape.length ≤ full.length := by
    intro a ha
    by_cases h : 2 ≤ a.shape.length
    · exact g.common.rank _ (mem_wideShapes ha h)
    · have := g.common.rank x.shape (by simp [wideShapes])
      omega
  by_cases hm : move = true
  · have hm' : ate = true ∧ d ≠ 1 := by simpa [hmv] using hm
    rw [if_pos hm, if_pos hm]
    refine ⟨?_, ⟨le_rfl, ?_, ?_, ?_⟩, ?_, ?_, ?_, ?_⟩
    · intro nar hnar
      rw [prepareValues_eq g.range g.usable ate nar hnar, hx, if_pos hm'.1]
      rfl
    · rw [hx, if_pos hm]
      show 1 ≤ (movedShape d x.shape).length
      rw [movedShape_length h1 h2]; exact hx0
    · intro a ha
      rw [← List.map_cons (f := prepOne move d n)] at ha
      obtain ⟨b, hb, rfl⟩ := List.mem_map.1 ha
      obtain ⟨hp, h⟩ := hok b hb
      unfold prepOne
      rcases h with h | ⟨h, hs⟩ | ⟨h, hd', hs⟩
      · rw [if_pos h]
        exact ⟨fun i j _ => rfl, .inl ⟨rfl, rfl⟩⟩
      · rw [if_neg (by omega), if_pos h]
        exact ⟨hp, .inl ⟨h, hs⟩⟩
      · rw [if_neg (by omega), if_neg (by omega), if_pos hm]
        have hl : (movedArr d b).shape.length = b.shape.length := movedShape_length h1 hd'
        exact ⟨movedArr_proper hp h1 hd', .inr ⟨by omega, by omega, (movedArr_last h1 hd').trans hs⟩⟩
    · have : wideShapes (prepOne move d n x) (others.map (prepOne move d n))
          = (wideShapes x others).map (movedShape d) := by
        unfold wideShapes
        rw [wide_prep move x others h1 (fun a ha h => by
          rcases (g.usable a ha).2 with h | ⟨h, _⟩ | ⟨_, h, _⟩ <;> omega), hx, if_pos hm, List.map_cons]
        congr 1
        simp [hm]
      rw [this]
      exact IsBroadcast.moved g.common h1 hwide (by simp [wideShapes])
    · exact movedShape_length h1 hf
    · intro p hp
      rw [movedShape_getD h1 hf hp, frontAxes, if_pos hm'.1, lastOrder_getD (by omega) hp]
    · rw [frontAxes, if_pos hm'.1, lastOrder_getD (by omega) (by omega), if_pos (by omega)]
    · intro a ha i' i hi s
      rw [frontAxes, if_pos hm'.1] at hi
      obtain ⟨hp, h⟩ := hok a ha
      unfold prepOne
      rcases h with h | ⟨h, hs⟩ | ⟨h, hd', hs⟩
      · rw [if_pos h]; exact operandAt_scalar h _ _ _ _ _ _ _
      · rw [if_neg (by omega), if_pos h]; exact operandAt_one h _ _ _ _ _ _ _
      · rw [if_neg (by omega), if_neg (by omega), if_pos hm]
        exact operandAt_moved hp h1 h hd' (hrank a ha) hi s
  · have hfr : frontAxes full.length (full.length - d) ate = List.range full.length := by
      unfold frontAxes
      by_cases ha : ate = true
      · have : d = 1 := by
          by_contra hne
          exact hm (by simp [hmv, ha, hne])
        rw [if_pos ha, this, lastOrder_last (by omega)]
      · rw [if_neg ha]
    rw [if_neg hm, if_neg hm]
    refine ⟨?_, ⟨h1, ?_, ?_, ?_⟩, rfl, ?_, ?_, ?_⟩
    · intro nar hnar
      rw [prepareValues_eq g.range g.usable ate nar hnar, hx]
      simp only [← hd, ← hn, ← hmv]
      congr 2
      split_ifs with ha
      · have : d = 1 := by
          by_contra hne
          exact hm (by simp [hmv, ha, hne])
        rw [this]; rfl
      · rfl
    · rw [hx, if_neg hm]; exact h2
    · intro a ha
      rw [← List.map_cons (f := prepOne move d n)] at ha
      obtain ⟨b, hb, rfl⟩ := List.mem_map.1 ha
      obtain ⟨hp, h⟩ := hok b hb
      unfold prepOne
      rcases h with h | ⟨h, hs⟩ | ⟨h, hd', hs⟩
      · rw [if_pos h]
        exact ⟨fun i j _ => rfl, .inl ⟨rfl, rfl⟩⟩
      · rw [if_neg (by omega), if_pos h]
        exact ⟨hp, .inl ⟨h, hs⟩⟩
      · rw [if_neg (by omega), if_neg (by omega), if_neg hm]
        exact ⟨hp, .inr ⟨h, hd', hs⟩⟩
    · have : wideShapes (prepOne move d n x) (others.map (prepOne move d n))
          = wideShapes x others := by
        unfold wideShapes
        rw [wide_prep move x others h1 (fun a ha h => by
          rcases (g.usable a ha).2 with h | ⟨h, _⟩ | ⟨_, h, _⟩ <;> omega), hx, if_neg hm]
        congr 1
        simp [hm]
      rw [this]
      exact g.common
    · intro p hp
      rw [hfr, List.getD_eq_getElem (List.range _) _ (by simpa using hp), List.getElem_range]
    · rw [hfr, List.getD_eq_getElem (List.range _) _ (by simp; omega), List.getElem_range]
    · intro a ha i' i hi s
      rw [hfr] at hi
      have hi' : ∀ p < full.length, i' p = i p := by
        intro p hp
        rw [hi p hp, List.getD_eq_getElem _ _ (by simpa using hp)]
        simp
      obtain ⟨hp, h⟩ := hok a ha
      unfold prepOne
      split_ifs with h0 h3
      · exact operandAt_scalar h0 _ _ _ _ _ _ _
      · exact operandAt_congr hp (hrank a ha) hi' s
      · exact operandAt_congr hp (hrank a ha) hi' s

theorem _root_.Cmomy.Spec.GoodValues.prep {x : Arr K} {others : List (Arr K)} {z : ℤ}
    {full : List ℕ} (g : GoodValues x others z full) (ate : Bool) :
    ∃ h full' d', Prep x others z full ate h full' d' :=
  ⟨_, _, _, g.prepares ate⟩

/-- The shape of a prepared array. -/
theorem prepOne_sizes {a : Arr K} {d n : ℕ} {move : Bool} (h1 : 1 ≤ d) (hu : Usable a d n) :
    ((prepOne move d n a).shape.length = 1 ∧ axisSize (prepOne move d n a) 0 = n) ∨
    (2 ≤ (prepOne move d n a).shape.length ∧
      (if move then 1 else d) ≤ (prepOne move d n a).shape.length ∧
      axisSize (prepOne move d n a) ((prepOne move d n a).shape.length - if move then 1 else d)
        = n) := by
  unfold prepOne
  rcases hu.2 with h | ⟨h, hs⟩ | ⟨h, hd', hs⟩
  · rw [if_pos h]
    exact .inl ⟨rfl, rfl⟩
  · rw [if_neg (by omega), if_pos h]
    exact .inl ⟨h, hs⟩
  · rw [if_neg (by omega), if_neg (by omega)]
    right
    cases move
    · simp only [Bool.false_eq_true, if_false]
      exact ⟨h, hd', hs⟩
    · simp only [if_true]
      have hl : (movedArr d a).shape.length = a.shape.length := movedShape_length h1 hd'
      exact ⟨by omega, by omega, (movedArr_last h1 hd').trans hs⟩

end Prep

end Cmomy.Nd
