import Verif.Lemmas.AxisOps
import Verif.Spec.ValsOps

/-!
# Broadcasting of values and weights
-/

set_option linter.unusedSectionVars false

namespace Cmomy.Nd

open Axes Spec

section Kept

theorem keptAxes_single {n c : ℕ} (h : c < n) :
    keptAxes n [c] = (List.range (n - 1)).map (fun q => if q < c then q else q + 1) := by
  refine List.Perm.eq_of_pairwise (le := (· < ·)) ?_ ?_ ?_ ?_
  · intro a b _ _ h1 h2; omega
  · exact List.pairwise_lt_range.filter _
  · rw [List.pairwise_map]
    refine List.pairwise_lt_range.imp ?_
    intro a b hab
    split_ifs <;> omega
  · refine (List.perm_ext_iff_of_nodup (List.nodup_range.filter _) ?_).2 ?_
    · refine List.nodup_range.map ?_
      intro a b hab
      simp only at hab
      split_ifs at hab <;> omega
    · intro a
      simp only [List.mem_filter, List.mem_range, List.mem_singleton, decide_not,
        Bool.not_eq_eq_eq_not, Bool.not_true, decide_eq_false_iff_not, List.mem_map]
      constructor
      · rintro ⟨h1, h2⟩
        by_cases hc : a < c
        · exact ⟨a, by omega, by rw [if_pos hc]⟩
        · exact ⟨a - 1, by omega, by rw [if_neg (by omega)]; omega⟩
      · rintro ⟨q, hq, rfl⟩
        split_ifs <;> omega

theorem keptAxes_single_length {n c : ℕ} (h : c < n) : (keptAxes n [c]).length = n - 1 := by
  rw [keptAxes_single h, List.length_map, List.length_range]

theorem keptAxes_single_getD {n c q : ℕ} (h : c < n) (hq : q < n - 1) :
    (keptAxes n [c]).getD q 0 = if q < c then q else q + 1 := by
  rw [keptAxes_single h, List.getD_eq_getElem _ _ (by simpa using hq)]
  simp

theorem keptAxes_single_idxOf {n c p : ℕ} (h : c < n) (hp : p < n) (hpc : p ≠ c) :
    (keptAxes n [c]).idxOf p = if p < c then p else p - 1 := by
  have hq : (if p < c then p else p - 1) < n - 1 := by split_ifs <;> omega
  have := idxOf_getD (keptAxes_nodup n [c]) (p := if p < c then p else p - 1)
    (by rw [keptAxes_single_length h]; exact hq)
  rw [keptAxes_single_getD h hq] at this
  rwa [show (if (if p < c then p else p - 1) < c then (if p < c then p else p - 1)
    else (if p < c then p else p - 1) + 1) = p by split_ifs <;> omega] at this

end Kept

section Broadcast

theorem mapM_range_iff {β : Type*} (f : ℕ → Py β) (d : β) (n : ℕ) (B : List β) :
    (List.range n).mapM f = .ok B ↔ B.length = n ∧ ∀ p < n, f p = .ok (B.getD p d) := by
  constructor
  · intro h
    induction n generalizing B with
    | zero =>
      simp only [List.range_zero, List.mapM_nil] at h
      cases h
      exact ⟨rfl, fun p hp => absurd hp (by omega)⟩
    | succ n ih =>
      rw [List.range_succ, List.mapM_append] at h
      cases h1 : (List.range n).mapM f with
      | error e => rw [h1] at h; cases h
      | ok B1 =>
        rw [h1] at h
        cases h2 : f n with
        | error e =>
          have : [n].mapM f = .error e := by rw [List.mapM_cons, h2]; rfl
          rw [this] at h; cases h
        | ok b =>
          have : [n].mapM f = .ok [b] := by rw [List.mapM_cons, h2]; rfl
          rw [this] at h
          obtain rfl := (Except.ok.inj h).symm
          obtain ⟨hl, hf⟩ := ih B1 h1
          refine ⟨by simp [hl], fun p hp => ?_⟩
          by_cases e : p = n
          · subst e
            rw [h2]; simp [List.getD, hl]
          · rw [hf p (by omega)]
            simp [List.getD, List.getElem?_append, hl, show p < n by omega]
  · rintro ⟨hl, hf⟩
    rw [mapM_ok_of_forall _ (fun p => B.getD p d) _ (fun p hp => hf p (List.mem_range.1 hp)), ← hl]
    congr 1
    refine List.ext_getElem (by simp) fun p h1 h2 => ?_
    rw [List.getElem_map, List.getElem_range, List.getD_eq_getElem _ _ h2]

theorem broadcastDim_iff {ds : List ℕ} (hne : ds ≠ []) (d : ℕ) :
    broadcastDim ds = .ok d ↔ (∀ e ∈ ds, e = 1 ∨ e = d) ∧ d ∈ ds := by
  unfold broadcastDim
  cases hf : ds.filter (fun d => d ≠ 1) with
  | nil =>
    have h1 : ∀ e ∈ ds, e = 1 := by
      intro e he
      by_contra hc
      have : e ∈ ds.filter (fun d => d ≠ 1) := List.mem_filter.2 ⟨he, by simpa using hc⟩
      rw [hf] at this; cases this
    obtain ⟨e, he⟩ := List.exists_mem_of_ne_nil _ hne
    have e1 := h1 e he
    constructor
    · intro h
      obtain rfl := (Except.ok.inj h).symm
      exact ⟨fun e he => .inl (h1 e he), e1 ▸ he⟩
    · rintro ⟨_, hd⟩
      rw [h1 d hd]
  | cons a rest =>
    have hmem : ∀ e, e ∈ ds ∧ e ≠ 1 ↔ e ∈ a :: rest := by
      intro e
      rw [← hf, List.mem_filter]
      simp
    simp only [List.all_eq_true, decide_eq_true_eq]
    have ha := (hmem a).2 (by simp)
    constructor
    · intro h
      split_ifs at h with hr
      obtain rfl := (Except.ok.inj h).symm
      refine ⟨fun e he => ?_, ha.1⟩
      by_cases e1 : e = 1
      · exact .inl e1
      · rcases List.mem_cons.1 ((hmem e).1 ⟨he, e1⟩) with h | h
        · exact .inr h
        · exact .inr (hr e h)
    · rintro ⟨h1, h2⟩
      have hd : a = d := (h1 a ha.1).resolve_left ha.2
      rw [if_pos, hd]
      intro e he
      have := (hmem e).2 (List.mem_cons_of_mem _ he)
      rw [hd]
      exact (h1 e this.1).resolve_left this.2

theorem broadcastDim_error {ds : List ℕ} {e : PyErr} (h : broadcastDim ds = .error e) :
    e = .valueError := by
  unfold broadcastDim at h
  split at h
  · cases h
  · split_ifs at h
    exact (Except.error.inj h).symm

theorem mapM_error {α β : Type*} (f : α → Py β) (P : PyErr → Prop) (l : List α)
    (hf : ∀ a ∈ l, ∀ e, f a = .error e → P e) {e : PyErr} (h : l.mapM f = .error e) : P e := by
  induction l with
  | nil => cases h
  | cons a l ih =>
    rw [List.mapM_cons] at h
    cases ha : f a with
    | error e' =>
      rw [ha] at h
      obtain rfl := (Except.error.inj h)
      exact hf a (by simp) _ ha
    | ok b =>
      rw [ha] at h
      cases hl : l.mapM f with
      | error e' =>
        rw [hl] at h
        obtain rfl := (Except.error.inj h)
        exact ih (fun a ha => hf a (List.mem_cons_of_mem _ ha)) hl
      | ok bs => rw [hl] at h; cases h

theorem broadcastShapes_error {shapes : List (List ℕ)} {e : PyErr}
    (h : broadcastShapes shapes = .error e) : e = .valueError :=
  mapM_error _ (· = .valueError) _ (fun _ _ _ => broadcastDim_error) h

theorem maxRank_le {shapes : List (List ℕ)} {s : List ℕ} (h : s ∈ shapes) :
    s.length ≤ maxRank shapes := by
  unfold maxRank
  induction shapes with
  | nil => cases h
  | cons a l ih =>
    simp only [List.map_cons, List.foldr_cons]
    rcases List.mem_cons.1 h with rfl | h
    · exact le_max_left _ _
    · exact (ih h).trans (le_max_right _ _)

theorem maxRank_attained {shapes : List (List ℕ)} (h : maxRank shapes ≠ 0) :
    ∃ s ∈ shapes, s.length = maxRank shapes := by
  unfold maxRank at *
  induction shapes with
  | nil => exact absurd rfl h
  | cons a l ih =>
    simp only [List.map_cons, List.foldr_cons] at *
    by_cases hc : (l.map List.length).foldr max 0 ≤ a.length
    · exact ⟨a, by simp, by rw [max_eq_left hc]⟩
    · rw [max_eq_right (by omega)] at h ⊢
      obtain ⟨s, hs, he⟩ := ih h
      exact ⟨s, List.mem_cons_of_mem _ hs, he⟩

theorem mem_sizes {shapes : List (List ℕ)} {n p d : ℕ} :
    d ∈ shapes.filterMap (sizeFromEnd n p) ↔ ∃ s ∈ shapes, n ≤ p + s.length ∧
      p + s.length - n < s.length ∧ s.getD (p + s.length - n) 0 = d := by
  rw [List.mem_filterMap]
  refine exists_congr fun s => and_congr_right fun _ => ?_
  unfold sizeFromEnd
  split_ifs with hc
  · constructor
    · intro h
      obtain ⟨hl, he⟩ := List.getElem?_eq_some_iff.1 h
      exact ⟨hc, hl, by rw [List.getD_eq_getElem _ _ hl, he]⟩
    · rintro ⟨_, hl, he⟩
      rw [List.getD_eq_getElem _ _ hl] at he
      exact List.getElem?_eq_some_iff.2 ⟨hl, he⟩
  · simp [hc]

/-- `np.broadcast_shapes` finds the common shape, if there is one. -/
theorem broadcastShapes_iff {shapes : List (List ℕ)} {full : List ℕ} :
    broadcastShapes shapes = .ok full ↔ IsBroadcast shapes full := by
  unfold broadcastShapes
  rw [mapM_range_iff _ 0]
  have hne : ∀ p < maxRank shapes, shapes.filterMap (sizeFromEnd (maxRank shapes) p) ≠ [] := by
    intro p hp
    obtain ⟨s, hs, he⟩ := maxRank_attained (shapes := shapes) (by omega)
    have : s.getD (p + s.length - maxRank shapes) 0 ∈
        shapes.filterMap (sizeFromEnd (maxRank shapes) p) :=
      mem_sizes.2 ⟨s, hs, by omega, by omega, rfl⟩
    exact List.ne_nil_of_mem this
  constructor
  · rintro ⟨hl, hf⟩
    refine ⟨fun s hs => hl ▸ maxRank_le hs, fun s hs p hp => ?_, fun q hq => ?_⟩
    · have hle := maxRank_le hs
      have h := (broadcastDim_iff (hne (p + (maxRank shapes - s.length)) (by omega)) _).1
        (hf (p + (maxRank shapes - s.length)) (by omega))
      rw [hl]
      refine h.1 _ (mem_sizes.2 ⟨s, hs, by omega, by omega, ?_⟩)
      congr 1; omega
    · have h := ((broadcastDim_iff (hne q (by omega)) _).1 (hf q (by omega))).2
      obtain ⟨s, hs, h1, h2, h3⟩ := mem_sizes.1 h
      exact ⟨s, hs, by omega, by rw [hl]; exact h3⟩
  · intro h
    have hl : full.length = maxRank shapes := by
      refine le_antisymm ?_ ?_
      · by_cases h0 : full.length = 0
        · omega
        · obtain ⟨s, hs, h1, _⟩ := h.attained 0 (by omega)
          have := maxRank_le hs
          omega
      · by_cases h0 : maxRank shapes = 0
        · omega
        · obtain ⟨s, hs, he⟩ := maxRank_attained h0
          rw [← he]; exact h.rank s hs
    refine ⟨hl, fun p hp => (broadcastDim_iff (hne p hp) _).2 ⟨fun e he => ?_, ?_⟩⟩
    · obtain ⟨s, hs, h1, h2, rfl⟩ := mem_sizes.1 he
      have := h.fits s hs _ h2
      have hle := maxRank_le hs
      rwa [show p + s.length - maxRank shapes + (full.length - s.length) = p by omega] at this
    · obtain ⟨s, hs, h1, h2⟩ := h.attained p (by omega)
      exact mem_sizes.2 ⟨s, hs, by omega, by omega, by rw [← h2]; congr 1; omega⟩

/-- One shape fits onto the end of another. -/
def FitsEnd (t s : List ℕ) : Prop :=
  t.length ≤ s.length ∧ ∀ p < t.length,
    t.getD p 0 = 1 ∨ t.getD p 0 = s.getD (p + (s.length - t.length)) 0

theorem broadcastShapes_cons {s : List ℕ} {ts : List (List ℕ)} (h : ∀ t ∈ ts, FitsEnd t s) :
    broadcastShapes (s :: ts) = .ok s := by
  have hs : FitsEnd s s := ⟨le_rfl, fun p _ => .inr (by simp)⟩
  have h' : ∀ t ∈ s :: ts, FitsEnd t s := by
    intro t ht
    rcases List.mem_cons.1 ht with rfl | ht
    · exact hs
    · exact h t ht
  refine broadcastShapes_iff.2 ⟨fun t ht => (h' t ht).1, fun t ht => (h' t ht).2, fun q hq => ?_⟩
  exact ⟨s, by simp, by omega, by congr 1; omega⟩

end Broadcast

section Operand

variable {K : Type*}

/-- An operand with its sample axis, next to a common shape of `N` axes with samples on `ax`. -/
structure IsOp (o : Arr K × ℕ) (N ax n : ℕ) : Prop where
  proper : o.1.Proper
  size : axisSize o.1 o.2 = n
  pos : (o.1.shape.length = 1 ∧ o.2 = 0) ∨
    (2 ≤ o.1.shape.length ∧ o.1.shape.length ≤ N ∧ o.2 < o.1.shape.length ∧
      o.2 + (N - o.1.shape.length) = ax)

theorem IsOp.read {o : Arr K × ℕ} {N ax n : ℕ} (h : IsOp o N ax n) (hax : ax < N) (i : ℕ → ℕ)
    (s : ℕ) : o.1.read [o.2] (N - 1) (along (keptAxes N [ax]) i) [s] = operandAt o.1 N ax i s := by
  obtain ⟨a, c⟩ := o
  have hpos := h.pos
  have hp := h.proper
  simp only at hpos hp ⊢
  unfold Arr.read operandAt
  rcases hpos with ⟨h1, rfl⟩ | ⟨h2, hN, hc, he⟩
  · rw [if_neg (by omega), if_pos h1]
    refine hp _ _ fun p hp' => ?_
    obtain rfl : p = 0 := by omega
    simp
  · rw [if_neg (by omega), if_neg (by omega)]
    refine hp _ _ fun p hp' => ?_
    by_cases hpc : p = c
    · subst hpc
      simp [he]
    · rw [if_neg (by simpa using hpc), if_neg (show ¬ p + (N - a.shape.length) = ax by omega)]
      by_cases h1 : a.shape.getD p 0 = 1
      · rw [if_pos h1, if_pos (show axisSize a p = 1 from h1)]
      · rw [if_neg h1, if_neg (show ¬ axisSize a p = 1 from h1), loopAxes_eq, keptAxes_single_length hc,
          keptAxes_single_idxOf hc hp' hpc, along_lt _ (by
            rw [keptAxes_single_length hax]; split_ifs <;> omega),
          keptAxes_single_getD hax (by split_ifs <;> omega)]
        congr 1
        split_ifs <;> omega

theorem loopShape_single {a : Arr K} {c : ℕ} :
    a.loopShape [c] = (keptAxes a.shape.length [c]).map (axisSize a) := rfl

theorem getD_map_kept {n c q : ℕ} (h : c < n) (hq : q < n - 1) (f : ℕ → ℕ) :
    ((keptAxes n [c]).map f).getD q 0 = f (if q < c then q else q + 1) := by
  have hl : q < (keptAxes n [c]).length := by rwa [keptAxes_single_length h]
  rw [List.getD_eq_getElem _ _ (by simpa using hl), List.getElem_map,
    ← List.getD_eq_getElem _ 0 hl, keptAxes_single_getD h hq]

theorem IsOp.fits {o : Arr K × ℕ} {N ax n : ℕ} (h : IsOp o N ax n) (hax : ax < N) {full : ℕ → ℕ}
    (hf : 2 ≤ o.1.shape.length → ∀ p < o.1.shape.length,
      axisSize o.1 p = 1 ∨ axisSize o.1 p = full (p + (N - o.1.shape.length))) :
    FitsEnd (o.1.loopShape [o.2]) ((keptAxes N [ax]).map full) := by
  obtain ⟨a, c⟩ := o
  have hpos := h.pos
  simp only at hpos hf ⊢
  rw [loopShape_single]
  rcases hpos with ⟨h1, rfl⟩ | ⟨h2, hN, hc, he⟩
  · constructor
    · rw [List.length_map, keptAxes_single_length (by omega)]; omega
    · intro p hp
      rw [List.length_map, keptAxes_single_length (by omega)] at hp
      omega
  · constructor
    · rw [List.length_map, List.length_map, keptAxes_single_length hc, keptAxes_single_length hax]
      omega
    · intro p hp
      rw [List.length_map, keptAxes_single_length hc] at hp
      rw [List.length_map, List.length_map, keptAxes_single_length hc, keptAxes_single_length hax,
        getD_map_kept hc hp, getD_map_kept hax (by omega)]
      have := hf h2 (if p < c then p else p + 1) (by split_ifs <;> omega)
      rwa [show (if p + (N - 1 - (a.shape.length - 1)) < ax then p + (N - 1 - (a.shape.length - 1))
        else p + (N - 1 - (a.shape.length - 1)) + 1)
          = (if p < c then p else p + 1) + (N - a.shape.length) by split_ifs <;> omega]

end Operand

section Ready

variable {K V M : Type*} [Field K] [DecidableEq K]

/-- Value arrays as the drivers hand them to the gufunc: samples at distance `d` from the end. -/
structure Ready (x : Arr K) (os : List (Arr K)) (full : List ℕ) (d n : ℕ) : Prop where
  one : 1 ≤ d
  le : d ≤ x.shape.length
  ok : ∀ a ∈ x :: os, a.Proper ∧ ((a.shape.length = 1 ∧ axisSize a 0 = n) ∨
    (2 ≤ a.shape.length ∧ d ≤ a.shape.length ∧ axisSize a (a.shape.length - d) = n))
  common : IsBroadcast (wideShapes x os) full

variable {x : Arr K} {os : List (Arr K)} {full : List ℕ} {d n : ℕ}

theorem mem_wideShapes {a : Arr K} (ha : a ∈ x :: os) (h2 : 2 ≤ a.shape.length) :
    a.shape ∈ wideShapes x os := by
  unfold wideShapes
  rcases List.mem_cons.1 ha with rfl | ha
  · simp
  · refine List.mem_cons_of_mem _ (List.mem_map.2 ⟨a, List.mem_filter.2 ⟨ha, decide_eq_true (by omega)⟩, rfl⟩)

theorem Ready.rank (r : Ready x os full d n) : d ≤ full.length :=
  r.le.trans (r.common.rank _ (by simp [wideShapes]))

theorem Ready.ax_lt (r : Ready x os full d n) : full.length - d < full.length := by
  have := r.one; have := r.rank; omega

/-- The operand belonging to a value array. -/
def opOf (d : ℕ) (a : Arr K) : Arr K × ℕ := (a, if a.shape.length = 1 then 0 else a.shape.length - d)

theorem Ready.isOp (r : Ready x os full d n) {a : Arr K} (ha : a ∈ x :: os) :
    IsOp (opOf d a) full.length (full.length - d) n := by
  obtain ⟨hp, h⟩ := r.ok a ha
  have h1 := r.one
  refine ⟨hp, ?_, ?_⟩
  · rcases h with ⟨e, hs⟩ | ⟨h2, hd, hs⟩
    · simp only [opOf, if_pos e]; exact hs
    · simp only [opOf, if_neg (show ¬ a.shape.length = 1 by omega)]; exact hs
  · rcases h with ⟨e, hs⟩ | ⟨h2, hd, hs⟩
    · exact .inl ⟨e, by simp only [opOf, if_pos e]⟩
    · have := r.common.rank _ (mem_wideShapes ha h2)
      simp only [opOf, if_neg (show ¬ a.shape.length = 1 by omega)]
      exact .inr ⟨h2, this, by omega, by omega⟩

theorem Ready.fits (r : Ready x os full d n) {a : Arr K} (ha : a ∈ x :: os) :
    FitsEnd ((opOf d a).1.loopShape [(opOf d a).2])
      ((keptAxes full.length [full.length - d]).map (fun p => full.getD p 0)) := by
  refine (r.isOp ha).fits r.ax_lt fun h2 p hp => ?_
  exact r.common.fits _ (mem_wideShapes ha h2) p hp

theorem coreAxes_one {m : ℕ} {z : ℤ} (h : InRange m z) : coreAxes m [z] = .ok [wrap m z] :=
  coreAxes_ok (by simpa using h) (by simp)

theorem Ready.operand (r : Ready x os full d n) {a : Arr K} (ha : a ∈ x :: os) :
    sampleOperand (a, axisOfValue a (-(d : ℤ))) = .ok (opOf d a) := by
  have h1 := r.one
  unfold sampleOperand axisOfValue opOf
  simp only
  rcases (r.ok a ha).2 with ⟨e, hs⟩ | ⟨h2, hd, hs⟩
  · rw [if_pos e, if_pos e, coreAxes_one (by unfold InRange; omega)]
    have := wrap_neg (n := a.shape.length) (z := -1) (by unfold InRange; omega) (by omega)
    simp only [Except.map, List.headD_cons]
    congr 2; omega
  · rw [if_neg (by omega), if_neg (by omega), coreAxes_one (by unfold InRange; omega)]
    have := wrap_neg (n := a.shape.length) (z := -(d : ℤ)) (by unfold InRange; omega) (by omega)
    simp only [Except.map, List.headD_cons]
    congr 2; omega

theorem sampleOperands_of {as : List (Arr K)} {axisNeg : ℤ} {n : ℕ} {d : ℕ}
    (h1 : ∀ a ∈ as, sampleOperand (a, axisOfValue a axisNeg) = .ok (opOf d a))
    (h2 : ∀ a ∈ as, axisSize a (opOf d a).2 = n) :
    sampleOperands (as.map (fun a => (a, axisOfValue a axisNeg))) n = .ok (as.map (opOf d)) := by
  unfold sampleOperands
  rw [mapM_ok_of_forall _ (fun o => opOf d o.1)]
  · simp only [Except.bind, List.map_map]
    have : (as.map ((fun o : Arr K × ℤ => opOf d o.1) ∘ fun a => (a, axisOfValue a axisNeg)))
        = as.map (opOf d) := by
      refine List.map_congr_left fun a _ => rfl
    rw [this, if_pos]
    rw [List.all_eq_true]
    intro o ho
    obtain ⟨a, ha, rfl⟩ := List.mem_map.1 ho
    exact decide_eq_true (h2 a ha)
  · intro o ho
    obtain ⟨a, ha, rfl⟩ := List.mem_map.1 ho
    exact h1 a ha

theorem Ready.operands (r : Ready x os full d n) :
    sampleOperands (valueOperands x os (-(d : ℤ))) n = .ok ((x :: os).map (opOf d)) :=
  sampleOperands_of (fun _ ha => r.operand ha) (fun _ ha => (r.isOp ha).size)

theorem Ready.count (r : Ready x os full d n) : sizeOf x (-(d : ℤ)) = n := by
  have h1 := r.one
  have h2 := r.le
  rw [sizeOf_eq x (by unfold InRange; omega)]
  have := wrap_neg (n := x.shape.length) (z := -(d : ℤ)) (by unfold InRange; omega) (by omega)
  rcases (r.ok x (by simp)).2 with ⟨e, hs⟩ | ⟨h2, hd, hs⟩
  · rw [← hs]; congr 1; omega
  · rw [← hs]; congr 1; omega

/-- What the kernel sees. -/
theorem Ready.samples {w : Arr K} {ys : List (Arr K)} (r : Ready x (w :: ys) full d n)
    (val : List K → V) (i : ℕ → ℕ) :
    samplesAt val ((x :: w :: ys).map (opOf d)) n (full.length - 1)
        (along (keptAxes full.length [full.length - d]) i)
      = samplesOver val x w ys full.length (full.length - d) n i := by
  unfold samplesOver
  simp only [List.map_cons, samplesAt]
  refine List.map_congr_left fun s _ => ?_
  rw [(r.isOp (a := x) (by simp)).read r.ax_lt, (r.isOp (a := w) (by simp)).read r.ax_lt]
  congr 3
  rw [List.map_map]
  refine List.map_congr_left fun a ha => ?_
  exact (r.isOp (by simp [ha])).read r.ax_lt i s

end Ready

section Move

theorem moveaxisOrder_single {n : ℕ} {a b : ℤ} (ha : InRange n a) (hb : InRange n b) :
    moveaxisOrder n [.int a] [.int b]
      = .ok ((keptAxes n [wrap n a]).insertIdx (wrap n b) (wrap n a)) := by
  have h1 : normalizeAxisTuple (.many [.int a]) n none false = .ok [wrap n a] :=
    coreAxes_one ha
  have h2 : normalizeAxisTuple (.many [.int b]) n none false = .ok [wrap n b] :=
    coreAxes_one hb
  unfold moveaxisOrder
  rw [h1, h2]
  have hl := keptAxes_single_length (wrap_lt ha)
  have hb' := wrap_lt hb
  have : min (wrap n b) (keptAxes n [wrap n a]).length = wrap n b := by
    rw [hl]; exact min_eq_left (by omega)
  simp only [Except.bind, moveaxisCore, List.length_singleton, ne_eq, not_true_eq_false, if_false,
    List.zip_cons_cons, List.zip_nil_right, List.insertionSort_cons, List.insertionSort_nil,
    List.orderedInsert_nil, List.foldl_cons, List.foldl_nil, pyInsert]
  show Except.ok ((keptAxes n [wrap n a]).insertIdx
    (min (wrap n b) (keptAxes n [wrap n a]).length) (wrap n a)) = _
  rw [this]

theorem insertIdx_eq_take_drop {α : Type*} (l : List α) (i : ℕ) (a : α) (h : i ≤ l.length) :
    l.insertIdx i a = l.take i ++ a :: l.drop i := by
  induction l generalizing i with
  | nil =>
    obtain rfl : i = 0 := by simpa using h
    rfl
  | cons b l ih =>
    cases i with
    | zero => rfl
    | succ i =>
      rw [List.insertIdx_succ_cons, ih i (by simpa using h)]
      rfl

theorem take_drop_kept {full : List ℕ} {ax : ℕ} (h : ax < full.length) :
    full.take ax ++ full.drop (ax + 1)
      = (keptAxes full.length [ax]).map (fun p => full.getD p 0) := by
  refine List.ext_getElem ?_ fun q h1 h2 => ?_
  · rw [List.length_map, keptAxes_single_length h]
    simp; omega
  · rw [List.length_map, keptAxes_single_length h] at h2
    rw [← List.getD_eq_getElem _ 0, ← List.getD_eq_getElem _ 0, getD_map_kept h h2]
    by_cases hq : q < ax
    · rw [if_pos hq]
      simp [List.getD, List.getElem?_append, List.getElem?_take, hq, show q < full.length by omega]
    · rw [if_neg hq]
      simp only [List.getD, List.getElem?_append, List.length_take, List.getElem?_drop]
      rw [if_neg (by omega)]
      congr 2; omega

theorem normalizeAxisIndex_int {n : ℕ} {z : ℤ} (h : InRange n z) (m : Option ℕ) :
    normalizeAxisIndex (.int z) n m = .ok (wrap n z) :=
  (npNormalize_int z n _).2 ⟨h, rfl⟩

variable {K : Type*} [Field K] [DecidableEq K]
variable {x : Arr K} {os : List (Arr K)} {full : List ℕ} {d n : ℕ}

theorem Ready.wrapd (r : Ready x os full d n) :
    InRange full.length (-(d : ℤ)) ∧ wrap full.length (-(d : ℤ)) = full.length - d := by
  have h1 := r.one
  have h2 := r.rank
  have hr : InRange full.length (-(d : ℤ)) := by unfold InRange; omega
  refine ⟨hr, ?_⟩
  have := wrap_neg hr (by omega)
  omega

theorem Ready.out_reduced (r : Ready x os full d n) (mom : List ℕ) (cf : Bool) :
    outFromValues x os mom (-(d : ℤ)) none cf
      = .ok ((keptAxes full.length [full.length - d]).map (fun p => full.getD p 0)
          ++ mom.map (· + 1)) := by
  have hb : broadcastShapes (x.shape :: (os.filter (fun a => 1 < a.shape.length)).map Arr.shape)
      = .ok full := broadcastShapes_iff.2 r.common
  unfold outFromValues
  rw [hb]
  simp only [Except.bind]
  rw [normalizeAxisIndex_int r.wrapd.1]
  simp only
  rw [r.wrapd.2, take_drop_kept r.ax_lt]

theorem valuesSize_range {full : List ℕ} {ax : ℕ} (h : ax < full.length) (rr : ℕ) (mom : List ℕ) :
    full.take ax ++ rr :: full.drop (ax + 1) ++ mom.map (· + 1)
      = (List.range (full.length + mom.length)).map (valuesSize full ax rr mom) := by
  refine List.ext_getElem ?_ fun q h1 h2 => ?_
  · simp; omega
  · have hq : q < full.length + mom.length := by simpa using h2
    rw [List.getElem_map, List.getElem_range, ← List.getD_eq_getElem _ 0]
    unfold valuesSize
    by_cases e : q = ax
    · subst e
      rw [if_pos rfl]
      simp [List.getD, List.getElem?_append, show min q full.length = q by omega]
    · rw [if_neg e]
      by_cases hlt : q < full.length
      · rw [if_pos hlt]
        by_cases hq2 : q < ax
        · simp [List.getD, List.getElem?_append, List.getElem?_take, hq2, hlt,
            show q < ax + (full.length - (ax + 1) + 1) by omega]
        · have hmin : min ax full.length = ax := by omega
          obtain ⟨t, rfl⟩ : ∃ t, q = ax + 1 + t := ⟨q - (ax + 1), by omega⟩
          simp only [List.getD, List.getElem?_append, List.length_append, List.length_take,
            List.length_cons, List.length_drop, hmin]
          rw [if_pos (by omega), if_neg (by omega), show ax + 1 + t - ax = t + 1 by omega,
            List.getElem?_cons_succ, List.getElem?_drop]
      · rw [if_neg hlt]
        have hmin : min ax full.length = ax := by omega
        simp only [List.getD, List.getElem?_append, List.length_append, List.length_take,
          List.length_cons, List.length_drop, hmin]
        rw [if_neg (by omega)]
        congr 2; omega

theorem Ready.out_rows (r : Ready x os full d n) (mom : List ℕ) (rr : ℕ) (cf : Bool) :
    outFromValues x os mom (-(d : ℤ)) (some rr) cf
      = .ok ((List.range (full.length + mom.length)).map
          (valuesSize full (full.length - d) rr mom)) := by
  have hb : broadcastShapes (x.shape :: (os.filter (fun a => 1 < a.shape.length)).map Arr.shape)
      = .ok full := broadcastShapes_iff.2 r.common
  have hax := r.ax_lt
  unfold outFromValues
  rw [hb]
  simp only [Except.bind]
  rw [normalizeAxisIndex_int r.wrapd.1]
  simp only
  rw [r.wrapd.2]
  split_ifs with hc
  · rw [valuesSize_range hax]
  · unfold Arr.moveaxisInt
    set ax := full.length - d
    set S := full.take ax ++ full.drop (ax + 1) ++ rr :: mom.map (· + 1) with hS
    have hmin : min ax full.length = ax := by omega
    have hl : S.length = full.length + mom.length := by
      simp [hS]; omega
    have hr1 : InRange S.length (-((mom.length : ℤ) + 1)) := by
      unfold InRange; omega
    have hw1 : wrap S.length (-((mom.length : ℤ) + 1)) = full.length - 1 := by
      have := wrap_neg hr1 (by omega); omega
    have hr2 : InRange S.length (ax : ℤ) := by unfold InRange; omega
    have hw2 : wrap S.length (ax : ℤ) = ax := by
      have := wrap_nonneg hr2 (by omega); omega
    simp only [List.map_cons, List.map_nil]
    rw [moveaxisOrder_single hr1 hr2, hw1, hw2]
    simp only [Except.map, Arr.transpose]
    congr 1
    rw [insertIdx_eq_take_drop _ _ _ (by rw [keptAxes_single_length (by omega)]; omega),
      ← valuesSize_range hax]
    have hk : (keptAxes S.length [full.length - 1]).map (fun a => S.getD a 0)
        = full.take ax ++ full.drop (ax + 1) ++ mom.map (· + 1) := by
      rw [← take_drop_kept (by omega)]
      have hA : (full.take ax ++ full.drop (ax + 1)).length = full.length - 1 := by
        simp; omega
      rw [hS, List.take_left' hA, show full.length - 1 + 1
        = (full.take ax ++ full.drop (ax + 1)).length + 1 by omega, List.drop_append]
      simp
    have hsrc : S.getD (full.length - 1) 0 = rr := by
      have hA : (full.take ax ++ full.drop (ax + 1)).length = full.length - 1 := by
        simp; omega
      rw [hS, List.getD_append_right _ _ _ _ (by omega), hA]
      simp
    rw [List.map_append, List.map_cons, hsrc, List.map_take, List.map_drop, hk]
    have hA : (full.take ax).length = ax := by simp; omega
    rw [List.append_assoc, List.take_left' hA, List.drop_left' hA]
    simp

end Move

section Fill

variable {K : Type*} [Field K] [DecidableEq K]

theorem fillVals_ok {outShape : List ℕ} {outAxes : List ℤ} {ocs : List ℕ} {rows : Option ℕ}
    {extra : List (List ℕ)} {ops : List (Arr K × ℕ)}
    (f : List ℕ → ℕ → (ℕ → ℕ) → List (Arr K × ℕ) → List ℕ → Option K)
    (ho : coreAxes outShape.length outAxes = .ok ocs)
    (hr : rows.getD ((ocs.map (fun a => outShape.getD a 0)).headD 0)
      = (ocs.map (fun a => outShape.getD a 0)).headD 0)
    (he : ∀ t ∈ extra, FitsEnd t ((loopAxes outShape.length ocs).map (fun a => outShape.getD a 0)))
    (hf : ∀ o ∈ ops, FitsEnd (o.1.loopShape [o.2])
      ((loopAxes outShape.length ocs).map (fun a => outShape.getD a 0))) :
    fillVals outShape outAxes rows extra ops f
      = .ok ⟨outShape, fun i => f (ocs.map (fun a => outShape.getD a 0))
          (loopAxes outShape.length ocs).length (along (loopAxes outShape.length ocs) i) ops
          (ocs.map i)⟩ := by
  unfold fillVals
  rw [ho]
  simp only [Except.bind]
  rw [if_neg (not_not.2 hr)]
  have hb : broadcastShapes ((loopAxes outShape.length ocs).map (fun a => outShape.getD a 0)
      :: extra ++ ops.map (fun o => o.1.loopShape [o.2]))
      = .ok ((loopAxes outShape.length ocs).map (fun a => outShape.getD a 0)) := by
    refine broadcastShapes_cons fun t ht => ?_
    rcases List.mem_append.1 ht with h | h
    · exact he t h
    · obtain ⟨o, ho', rfl⟩ := List.mem_map.1 h
      exact hf o ho'
  rw [hb]
  simp only
  rw [if_neg (by simp), List.length_map]
  rfl

theorem reducedLayout_length {n ax nd : ℕ} (h : ax < n) :
    (reducedLayout n ax nd).length = n - 1 + nd := by
  simp [reducedLayout, keptAxes_single_length h]

variable {x : Arr K} {os : List (Arr K)} {full : List ℕ} {d n : ℕ}

theorem map_mom_shift (m : ℕ) (A : List ℕ) (hA : A.length = m) (mom : List ℕ) :
    ((List.range mom.length).map (fun j => m + j)).map (fun a => (A ++ mom.map (· + 1)).getD a 0)
      = mom.map (· + 1) := by
  refine List.ext_getElem (by simp) fun q h1 h2 => ?_
  have hq : q < mom.length := by simpa using h2
  simp only [List.getElem_map, List.getElem_range]
  rw [List.getD_append_right _ _ _ _ (by omega), hA, show m + q - m = q by omega,
    List.getD_eq_getElem _ _ (by simpa using hq), List.getElem_map]

theorem Ready.fill_reduced (r : Ready x os full d n) {mom : List ℕ}
    (f : List ℕ → ℕ → (ℕ → ℕ) → List (Arr K × ℕ) → List ℕ → Option K) :
    ∃ out, fillVals ((keptAxes full.length [full.length - d]).map (fun p => full.getD p 0)
          ++ mom.map (· + 1)) (axesLast mom.length) none [] ((x :: os).map (opOf d)) f = .ok out ∧
      HasLayout out (reducedLayout full.length (full.length - d) mom.length)
        (valuesSize full (full.length - d) 0 mom)
        (fun i => f (mom.map (· + 1)) (full.length - 1)
          (along (keptAxes full.length [full.length - d]) i) ((x :: os).map (opOf d))
          (momCoords full.length mom.length i)) ∧ out.Proper := by
  have hax := r.ax_lt
  set ax := full.length - d
  set kept := keptAxes full.length [ax] with hkept
  have hkl : kept.length = full.length - 1 := keptAxes_single_length hax
  set A := kept.map (fun p => full.getD p 0) with hA
  have hAl : A.length = full.length - 1 := by rw [hA, List.length_map, hkl]
  have hl : (A ++ mom.map (· + 1)).length = full.length - 1 + mom.length := by simp [hAl]
  have hsub : full.length - 1 + mom.length - mom.length = full.length - 1 := by omega
  have hc : coreAxes (A ++ mom.map (· + 1)).length (axesLast mom.length)
      = .ok ((List.range mom.length).map (fun j => full.length - 1 + j)) := by
    rw [hl, coreAxes_last (by omega), hsub]
  have hla : loopAxes (A ++ mom.map (· + 1)).length
      ((List.range mom.length).map (fun j => full.length - 1 + j)) = List.range (full.length - 1) := by
    rw [loopAxes_eq, hl]
    have := keptAxes_tail (n := full.length - 1 + mom.length) (m := mom.length) (by omega)
    rwa [hsub] at this
  have hol : (List.range (full.length - 1)).map (fun a => (A ++ mom.map (· + 1)).getD a 0) = A := by
    rw [← hAl]
    refine List.ext_getElem (by simp) fun q h1 h2 => ?_
    rw [List.getElem_map, List.getElem_range, List.getD_append _ _ _ _ h2, List.getD_eq_getElem _ _ h2]
  refine ⟨_, fillVals_ok f hc rfl (by simp) (fun o ho => ?_), ⟨?_, fun i => ?_⟩, ?_⟩
  · rw [hla, hol]
    obtain ⟨a, ha, rfl⟩ := List.mem_map.1 ho
    exact r.fits ha
  · show A ++ mom.map (· + 1) = _
    unfold reducedLayout
    rw [List.map_append]
    congr 1
    · rw [hA]
      refine List.map_congr_left fun p hp => ?_
      rw [hkept, mem_keptAxes] at hp
      unfold valuesSize
      rw [if_neg (by simpa using hp.2), if_pos hp.1]
    · rw [List.map_map]
      refine List.ext_getElem (by simp) fun q h1 h2 => ?_
      have hq : q < mom.length := by simpa using h1
      simp only [List.getElem_map, List.getElem_range, Function.comp, valuesSize]
      rw [if_neg (by omega), if_neg (by omega), show full.length + q - full.length = q by omega,
        List.getD_eq_getElem _ _ (by simpa using hq), List.getElem_map]
  · have hrl := reducedLayout_length (nd := mom.length) hax
    show f _ _ _ _ _ = _
    rw [hla, map_mom_shift _ _ hAl]
    congr 1
    · simp
    · rw [along_along _ (by intro p hp; rw [hrl]; have := List.mem_range.1 hp; omega)]
      congr 1
      refine List.ext_getElem (by simp [hkl]) fun q h1 h2 => ?_
      rw [List.getElem_map, List.getElem_range]
      unfold reducedLayout
      rw [List.getD_append _ _ _ _ h2, List.getD_eq_getElem _ _ h2]
    · unfold momCoords
      rw [List.map_map]
      refine List.map_congr_left fun j hj => ?_
      have hj' := List.mem_range.1 hj
      simp only [Function.comp]
      rw [along_lt _ (by rw [hrl]; omega)]
      congr 1
      unfold reducedLayout
      rw [← hkept, List.getD_append_right _ _ _ _ (by omega), hkl,
        List.getD_eq_getElem _ _ (by simp; omega)]
      simp
  · intro i j hij
    show f _ _ _ _ _ = f _ _ _ _ _
    have hij' : ∀ p < (A ++ mom.map (· + 1)).length, i p = j p := hij
    rw [hla]
    congr 1
    · funext q
      by_cases hq : q < full.length - 1
      · rw [along_range _ hq, along_range _ hq, hij' q (by omega)]
      · rw [along_ge _ (by simpa using hq), along_ge _ (by simpa using hq)]
    · rw [List.map_map, List.map_map]
      refine List.map_congr_left fun q hq => ?_
      have := List.mem_range.1 hq
      exact hij' (full.length - 1 + q) (by omega)

theorem keptAxes_front {n m ax : ℕ} (h : ax < n) :
    keptAxes (n + m) (ax :: (List.range m).map (fun j => n + j)) = keptAxes n [ax] := by
  refine List.Perm.eq_of_pairwise (le := (· < ·)) ?_ ?_ ?_ ?_
  · intro a b _ _ h1 h2; omega
  · exact List.pairwise_lt_range.filter _
  · exact List.pairwise_lt_range.filter _
  · refine (List.perm_ext_iff_of_nodup (List.nodup_range.filter _) (List.nodup_range.filter _)).2 ?_
    intro a
    show a ∈ keptAxes _ _ ↔ a ∈ keptAxes _ _
    rw [mem_keptAxes, mem_keptAxes]
    simp only [List.mem_cons, List.mem_map, List.mem_range, not_or, not_exists, not_and,
      List.not_mem_nil, or_false]
    constructor
    · rintro ⟨h1, h2, h3⟩
      refine ⟨?_, h2⟩
      by_contra hc
      exact h3 (a - n) (by omega) (by omega)
    · rintro ⟨h1, h2⟩
      exact ⟨by omega, h2, fun j _ => by omega⟩

theorem Ready.fill_rows (r : Ready x os full d n) {mom : List ℕ} {rr : ℕ}
    {extra : List (List ℕ)}
    (he : ∀ t ∈ extra, FitsEnd t
      ((keptAxes full.length [full.length - d]).map (fun p => full.getD p 0)))
    (f : List ℕ → ℕ → (ℕ → ℕ) → List (Arr K × ℕ) → List ℕ → Option K) :
    ∃ out, fillVals ((List.range (full.length + mom.length)).map
          (valuesSize full (full.length - d) rr mom)) ((-(d : ℤ) - mom.length) :: axesLast mom.length)
          (some rr) extra ((x :: os).map (opOf d)) f = .ok out ∧
      HasLayout out (List.range (full.length + mom.length))
        (valuesSize full (full.length - d) rr mom)
        (fun i => f (rr :: mom.map (· + 1)) (full.length - 1)
          (along (keptAxes full.length [full.length - d]) i) ((x :: os).map (opOf d))
          (i (full.length - d) :: momCoords full.length mom.length i)) := by
  have hax := r.ax_lt
  have hone := r.one
  have hrank := r.rank
  set ax := full.length - d with haxd
  set kept := keptAxes full.length [ax] with hkept
  have hkl : kept.length = full.length - 1 := keptAxes_single_length hax
  set S := (List.range (full.length + mom.length)).map (valuesSize full ax rr mom) with hS
  have hl : S.length = full.length + mom.length := by simp [hS]
  have hget : ∀ p, p < full.length + mom.length → S.getD p 0 = valuesSize full ax rr mom p := by
    intro p hp
    rw [List.getD_eq_getElem _ _ (by omega)]
    simp [hS]
  have hw : wrap S.length (-(d : ℤ) - mom.length) = ax := by
    have := wrap_neg (n := S.length) (z := -(d : ℤ) - mom.length) (by unfold InRange; omega)
      (by omega)
    omega
  have hal : (axesLast mom.length).map (wrap S.length)
      = (List.range mom.length).map (fun j => full.length + j) := by
    rw [axesLast_wrap' (by omega), hl]
    refine List.map_congr_left fun j _ => by omega
  have hc : coreAxes S.length ((-(d : ℤ) - mom.length) :: axesLast mom.length)
      = .ok (ax :: (List.range mom.length).map (fun j => full.length + j)) := by
    rw [← hal]
    have := coreAxes_ok (n := S.length) (zs := (-(d : ℤ) - mom.length) :: axesLast mom.length)
      (by
        intro z hz
        rcases List.mem_cons.1 hz with rfl | hz
        · unfold InRange; omega
        · exact axesLast_range' (by omega) z hz)
      (by
        rw [List.map_cons, hw, hal, List.nodup_cons]
        refine ⟨?_, ?_⟩
        · simp only [List.mem_map, List.mem_range, not_exists, not_and]
          intro j _; omega
        · exact List.Nodup.map (fun a b h => by simpa using h) List.nodup_range)
    rw [this, List.map_cons, hw]
  have hla : loopAxes S.length (ax :: (List.range mom.length).map (fun j => full.length + j))
      = kept := by
    rw [loopAxes_eq, hl, keptAxes_front hax]
  have hol : kept.map (fun a => S.getD a 0) = kept.map (fun p => full.getD p 0) := by
    refine List.map_congr_left fun p hp => ?_
    rw [hkept, mem_keptAxes] at hp
    rw [hget p (by omega)]
    unfold valuesSize
    rw [if_neg (by simpa using hp.2), if_pos hp.1]
  have hsz : (ax :: (List.range mom.length).map (fun j => full.length + j)).map
      (fun a => S.getD a 0) = rr :: mom.map (· + 1) := by
    rw [List.map_cons, hget ax (by omega)]
    congr 1
    · simp [valuesSize]
    · refine List.ext_getElem (by simp) fun q h1 h2 => ?_
      have hq : q < mom.length := by simpa using h2
      simp only [List.getElem_map, List.getElem_range]
      rw [hget _ (by omega)]
      unfold valuesSize
      rw [if_neg (by omega), if_neg (by omega), show full.length + q - full.length = q by omega,
        List.getD_eq_getElem _ _ (by simpa using hq), List.getElem_map]
  refine ⟨_, fillVals_ok f hc ?_ ?_ (fun o ho => ?_), rfl, fun i => ?_⟩
  · rw [hsz]; rfl
  · rw [hla, hol]; exact he
  · rw [hla, hol]
    obtain ⟨a, ha, rfl⟩ := List.mem_map.1 ho
    exact r.fits ha
  · show f _ _ _ _ _ = _
    rw [hla, hsz, hkl]
    have hin : ∀ p, p < full.length + mom.length →
        along (List.range (full.length + mom.length)) i p = i p := fun p hp => along_range i hp
    congr 1
    · rw [along_along _ (by
        intro p hp; rw [hkept, mem_keptAxes] at hp; rw [List.length_range]; omega)]
      congr 1
      conv_rhs => rw [← List.map_id kept]
      refine List.map_congr_left fun p hp => ?_
      rw [hkept, mem_keptAxes] at hp
      rw [List.getD_eq_getElem _ _ (by simp; omega)]
      simp
    · rw [List.map_cons, hin _ (by omega)]
      congr 1
      unfold momCoords
      rw [List.map_map]
      refine List.map_congr_left fun j hj => ?_
      have hj' := List.mem_range.1 hj
      exact hin (full.length + j) (by omega)

end Fill

end Cmomy.Nd
