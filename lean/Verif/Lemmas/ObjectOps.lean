import Verif.Model.ObjectOps
import Verif.Spec.ObjectOps
import Verif.Lemmas.ObjectStats

/-!
# Lemmas about methods that return array objects
-/

namespace Cmomy

open Spec Nd Axes ObjectOps

set_option linter.unusedSectionVars false

section Positions

theorem within_iff {vs c : List ℕ} :
    Within vs c ↔ c.length = vs.length ∧ ∀ q < vs.length, c.getD q 0 < vs.getD q 0 := by
  unfold Within
  rw [List.forall₂_iff_get]
  constructor
  · rintro ⟨h1, h2⟩
    refine ⟨h1, fun q hq => ?_⟩
    have := h2 q (by omega) hq
    simpa [List.getD_eq_getElem?_getD, hq, show q < c.length by omega] using this
  · rintro ⟨h1, h2⟩
    refine ⟨h1, fun q hq hq' => ?_⟩
    have := h2 q hq'
    simpa [List.getD_eq_getElem?_getD, hq, hq'] using this

theorem within_coords {vs : List ℕ} {i : ℕ → ℕ} (h : InBounds vs i) :
    Within vs ((List.range vs.length).map i) := by
  rw [within_iff]
  refine ⟨by simp, fun q hq => ?_⟩
  have := h q hq
  simpa [List.getD_eq_getElem?_getD, hq] using this

theorem within_reverse {vs c : List ℕ} (h : Within vs c) : Within vs.reverse c.reverse :=
  List.rel_reverse h

theorem within_append {vs ms c m : List ℕ} (h : Within vs c) (h' : Within ms m) :
    Within (vs ++ ms) (c ++ m) := List.rel_append h h'

theorem inBounds_of_within {vs c : List ℕ} (h : Within vs c) : InBounds vs (fun a => c.getD a 0) :=
  fun q hq => (within_iff.1 h).2 q hq

theorem ravel_lt {vs c : List ℕ} (h : Within vs c) : ravel vs c < vs.prod := by
  unfold Within at h
  induction h with
  | nil => simp [ravel]
  | @cons x n c vs hx _ ih =>
    rw [ravel, List.prod_cons]
    calc x * vs.prod + ravel vs c < x * vs.prod + vs.prod := by omega
      _ = (x + 1) * vs.prod := by ring
      _ ≤ n * vs.prod := Nat.mul_le_mul_right _ hx

theorem unravel_length (vs : List ℕ) (p : ℕ) : (unravel vs p).length = vs.length := by
  induction vs generalizing p with
  | nil => rfl
  | cons v vs ih => simp [unravel, ih]

theorem within_unravel {vs : List ℕ} {p : ℕ} (h : p < vs.prod) : Within vs (unravel vs p) := by
  induction vs generalizing p with
  | nil => exact .nil
  | cons v vs ih =>
    rw [List.prod_cons] at h
    have hP : 0 < vs.prod := by
      rcases Nat.eq_zero_or_pos vs.prod with e | e
      · rw [e] at h; omega
      · exact e
    exact .cons (Nat.div_lt_of_lt_mul (by rwa [Nat.mul_comm] at h)) (ih (Nat.mod_lt _ hP))

theorem ravel_unravel {vs : List ℕ} {p : ℕ} (h : p < vs.prod) : ravel vs (unravel vs p) = p := by
  induction vs generalizing p with
  | nil => simp at h; simp [ravel, h]
  | cons v vs ih =>
    rw [List.prod_cons] at h
    have hP : 0 < vs.prod := by
      rcases Nat.eq_zero_or_pos vs.prod with e | e
      · rw [e] at h; omega
      · exact e
    rw [unravel, ravel, ih (Nat.mod_lt _ hP)]
    exact Nat.div_add_mod' p vs.prod

theorem unravel_ravel {vs c : List ℕ} (h : Within vs c) : unravel vs (ravel vs c) = c := by
  unfold Within at h
  induction h with
  | nil => rfl
  | @cons x n c vs hx h' ih =>
    have hlt : ravel vs c < vs.prod := ravel_lt h'
    rw [ravel, unravel,
      show (x * vs.prod + ravel vs c) / vs.prod = x by
        rw [Nat.add_comm, Nat.add_mul_div_right _ _ (by omega), Nat.div_eq_of_lt hlt,
          Nat.zero_add],
      show (x * vs.prod + ravel vs c) % vs.prod = ravel vs c by
        rw [Nat.add_comm, Nat.add_mul_mod_self_right, Nat.mod_eq_of_lt hlt], ih]

theorem ravel_append {vs c ms m : List ℕ} (h : c.length = vs.length) :
    ravel (vs ++ ms) (c ++ m) = ravel vs c * ms.prod + ravel ms m := by
  induction vs generalizing c with
  | nil => simp [List.length_eq_zero_iff.1 h, ravel]
  | cons v vs ih =>
    obtain _ | ⟨x, c⟩ := c
    · simp at h
    · simp only [List.cons_append, ravel, List.prod_append]
      rw [ih (by simpa using h)]
      ring

theorem getD_coords (n : ℕ) (i : ℕ → ℕ) {q : ℕ} (hq : q < n) :
    ((List.range n).map i).getD q 0 = i q := by
  simp [List.getD_eq_getElem?_getD, hq]

theorem getD_reverse {l : List ℕ} {q : ℕ} (hq : q < l.length) :
    l.reverse.getD q 0 = l.getD (l.length - 1 - q) 0 := by
  simp [List.getD_eq_getElem?_getD, List.getElem?_reverse hq]

theorem idxOf_reverse_range {n a : ℕ} (ha : a < n) : (List.range n).reverse.idxOf a = n - 1 - a := by
  have hnd : (List.range n).reverse.Nodup := List.nodup_reverse.2 List.nodup_range
  have e : (List.range n).reverse[n - 1 - a]'(by simp <;> omega) = a := by
    simp [List.getElem_reverse]; omega
  conv_lhs => rw [← e]
  exact hnd.idxOf_getElem _ _

theorem idxOf_range' {n a : ℕ} (ha : a < n) : (List.range n).idxOf a = a := by
  have e : (List.range n)[a]'(by simpa using ha) = a := by simp
  conv_lhs => rw [← e]
  exact List.nodup_range.idxOf_getElem _ _

end Positions

section Reshape

/-- The coordinates at position `p`. -/
def posCoords (vs : List ℕ) (fortran : Bool) (p : ℕ) : List ℕ :=
  if fortran then (unravel vs.reverse p).reverse else unravel vs p

/-- The position of coordinates. -/
def coordsPos (vs : List ℕ) (fortran : Bool) (c : List ℕ) : ℕ :=
  if fortran then ravel vs.reverse c.reverse else ravel vs c

theorem coordsPos_lt {vs c : List ℕ} {fortran : Bool} (h : Within vs c) :
    coordsPos vs fortran c < vs.prod := by
  unfold coordsPos
  cases fortran
  · exact ravel_lt h
  · have := ravel_lt (within_reverse h)
    simpa [List.prod_reverse] using this

theorem within_posCoords {vs : List ℕ} {fortran : Bool} {p : ℕ} (h : p < vs.prod) :
    Within vs (posCoords vs fortran p) := by
  unfold posCoords
  cases fortran
  · exact within_unravel h
  · have := within_reverse (within_unravel (vs := vs.reverse) (p := p)
      (by simpa [List.prod_reverse] using h))
    simpa using this

theorem coordsPos_posCoords {vs : List ℕ} {fortran : Bool} {p : ℕ} (h : p < vs.prod) :
    coordsPos vs fortran (posCoords vs fortran p) = p := by
  unfold posCoords coordsPos
  cases fortran
  · exact ravel_unravel h
  · simpa using ravel_unravel (vs := vs.reverse) (p := p) (by simpa [List.prod_reverse] using h)

theorem posCoords_coordsPos {vs c : List ℕ} {fortran : Bool} (h : Within vs c) :
    posCoords vs fortran (coordsPos vs fortran c) = c := by
  unfold posCoords coordsPos
  cases fortran
  · exact unravel_ravel h
  · simp [unravel_ravel (within_reverse h)]

/-- The moment coordinates stay, the value coordinates keep their position among the value axes. -/
theorem posCoords_append {vs vs' ms c m : List ℕ} {fortran : Bool} (hp : vs'.prod = vs.prod)
    (hc : Within vs' c) (hm : Within ms m) :
    posCoords (vs ++ ms) fortran (coordsPos (vs' ++ ms) fortran (c ++ m))
      = posCoords vs fortran (coordsPos vs' fortran c) ++ m := by
  have hq : coordsPos vs' fortran c < vs.prod := hp ▸ coordsPos_lt hc
  have e : coordsPos (vs' ++ ms) fortran (c ++ m)
      = coordsPos (vs ++ ms) fortran (posCoords vs fortran (coordsPos vs' fortran c) ++ m) := by
    have h1 := coordsPos_posCoords (fortran := fortran) hq
    have h2 : (posCoords vs fortran (coordsPos vs' fortran c)).length = vs.length :=
      List.Forall₂.length_eq (within_posCoords hq)
    have h3 := List.Forall₂.length_eq hc
    have h4 := List.Forall₂.length_eq hm
    unfold coordsPos at h1 h2 ⊢
    cases fortran
    · simp only [Bool.false_eq_true, if_false] at h1 h2 ⊢
      rw [ravel_append h3, ravel_append h2, h1]
    · simp only [if_true] at h1 h2 ⊢
      simp only [List.reverse_append]
      rw [ravel_append (by simpa using h4), ravel_append (by simpa using h4), h1]
      simp [List.prod_reverse, hp]
  rw [e]
  exact posCoords_coordsPos (within_append (within_posCoords hq) hm)

/-- The index of a cell of the old object whose cell went to `i`. -/
def cellSource (vs vs' : List ℕ) (fortran : Bool) (i : ℕ → ℕ) : ℕ → ℕ := fun a =>
  (posCoords vs fortran (coordsPos vs' fortran ((List.range vs'.length).map i))).getD a 0

variable {K : Type*} {obj : Arr K} {vs ms : List ℕ}

theorem reshapeTo_cells (h : IsObject obj vs ms) {vs' : List ℕ} (hp : vs'.prod = vs.prod)
    (fortran : Bool) :
    CellsFrom (reshapeTo obj (vs' ++ ms) fortran) obj vs' vs ms (cellSource vs vs' fortran) where
  object := by
    refine ⟨?_, rfl, h.count, h.orders⟩
    intro i j e
    have : (List.range (vs' ++ ms).length).map i = (List.range (vs' ++ ms).length).map j :=
      List.map_congr_left fun q hq => e q (List.mem_range.1 hq)
    simp only [reshapeTo, this]
  source := by
    intro i hi
    exact inBounds_of_within (within_posCoords (hp ▸ coordsPos_lt (within_coords hi)))
  cell := by
    intro i hi m hm
    have hc := within_coords hi
    have hml : m.length = ms.length := List.Forall₂.length_eq hm
    have e : (List.range (vs' ++ ms).length).map (atMom vs'.length i m)
        = (List.range vs'.length).map i ++ m := by
      refine List.ext_getElem (by simp [hml]) fun q h1 h2 => ?_
      simp only [List.getElem_map, List.getElem_range]
      unfold atMom
      by_cases hq : q < vs'.length
      · rw [if_pos hq, List.getElem_append_left (by simpa using hq)]
        simp
      · have hq' : q - vs'.length < m.length := by simp at h1; omega
        rw [if_neg hq, List.getElem_append_right (by simpa using hq)]
        simp [List.getD_eq_getElem?_getD, hq']
    simp only [reshapeTo, e]
    refine h.get_congr fun q hq => ?_
    have key := posCoords_append (fortran := fortran) hp hc hm
    have hl : (posCoords vs fortran (coordsPos vs' fortran ((List.range vs'.length).map i))).length
        = vs.length := List.Forall₂.length_eq (within_posCoords (hp ▸ coordsPos_lt hc))
    unfold posCoords coordsPos at key
    have e2 : (if fortran = true then (unravel obj.shape.reverse
        (ravel (vs' ++ ms).reverse ((List.range vs'.length).map i ++ m).reverse)).reverse
        else unravel obj.shape (ravel (vs' ++ ms) ((List.range vs'.length).map i ++ m)))
        = posCoords vs fortran (coordsPos vs' fortran ((List.range vs'.length).map i)) ++ m := by
      rw [h.shape]
      unfold posCoords coordsPos
      rw [← key]
      cases fortran <;> rfl
    rw [e2]
    unfold atMom cellSource
    by_cases hv : q < vs.length
    · rw [if_pos hv, List.getD_append _ _ _ _ (by omega)]
    · rw [if_neg hv, List.getD_append_right _ _ _ _ (by omega), hl]

theorem cellsIn_eq (vs : List ℕ) (fortran : Bool) :
    cellsIn (readingOrder vs.length fortran) vs
      = (List.range vs.prod).map (fun p => fun a => (posCoords vs fortran p).getD a 0) := by
  unfold cellsIn
  have hnd : (readingOrder vs.length fortran).Nodup := by
    unfold readingOrder
    cases fortran
    · exact List.nodup_range
    · exact List.nodup_reverse.2 List.nodup_range
  rw [← unravel_allIdx _ (fun a => vs.getD a 0) hnd]
  have hr : (List.range vs.length).map (fun a => vs.getD a 0) = vs := by
    refine List.ext_getElem (by simp) fun q h1 h2 => ?_
    simp [List.getD_eq_getElem?_getD, h2]
  have hm : (readingOrder vs.length fortran).map (fun a => vs.getD a 0)
      = if fortran then vs.reverse else vs := by
    unfold readingOrder
    cases fortran
    · simpa using hr
    · simp only [if_true, List.map_reverse, hr]
  rw [hm]
  have hpr : (if fortran = true then vs.reverse else vs).prod = vs.prod := by
    cases fortran <;> simp [List.prod_reverse]
  rw [hpr]
  refine List.map_congr_left fun p _ => ?_
  funext a
  unfold setAxes posCoords readingOrder
  cases fortran
  · simp only [Bool.false_eq_true, if_false]
    by_cases ha : a < vs.length
    · rw [if_pos (List.mem_range.2 ha), idxOf_range' ha]
    · rw [if_neg (by simpa using ha), List.getD_eq_default _ _ (by rw [unravel_length]; omega)]
  · simp only [if_true]
    by_cases ha : a < vs.length
    · rw [if_pos (by simpa using ha), idxOf_reverse_range ha,
        getD_reverse (by rw [unravel_length]; simpa using ha), unravel_length, List.length_reverse]
    · rw [if_neg (by simpa using ha), List.getD_eq_default _ _
        (by rw [List.length_reverse, unravel_length]; simp; omega)]

theorem cellSource_cells {vs vs' : List ℕ} (hp : vs'.prod = vs.prod) (fortran : Bool) :
    (cellsIn (readingOrder vs'.length fortran) vs').map (cellSource vs vs' fortran)
      = cellsIn (readingOrder vs.length fortran) vs := by
  rw [cellsIn_eq, cellsIn_eq, List.map_map, hp]
  refine List.map_congr_left fun p hpp => ?_
  have hpp := List.mem_range.1 hpp
  have hw := within_posCoords (vs := vs') (fortran := fortran) (p := p) (hp ▸ hpp)
  have e : (List.range vs'.length).map (fun a => (posCoords vs' fortran p).getD a 0)
      = posCoords vs' fortran p := by
    have hl := List.Forall₂.length_eq hw
    refine List.ext_getElem (by simp [hl]) fun q h1 h2 => ?_
    simp [List.getD_eq_getElem?_getD, h2]
  funext a
  simp only [Function.comp, cellSource, e]
  rw [coordsPos_posCoords (hp ▸ hpp)]

end Reshape

section Sizes

theorem count_append_nat (req : List ℤ) (ms : List ℕ) :
    (req ++ ms.map (fun m : ℕ => (m : ℤ))).count (-1) = req.count (-1) := by
  rw [List.count_append]
  have : (ms.map (fun m : ℕ => (m : ℤ))).count (-1) = 0 := by
    rw [List.count_eq_zero]
    intro h
    obtain ⟨m, _, e⟩ := List.mem_map.1 h
    omega
  omega

/-- The product of the sizes that are given. -/
def knownProd (req : List ℤ) : ℕ := ((req.filter (fun z => z ≠ -1)).map Int.toNat).prod

/-- The sizes with `x` for the open one. -/
def fillOpen (x : ℕ) (req : List ℤ) : List ℕ := req.map (fun z => if z = -1 then x else z.toNat)

theorem fillOpen_prod (x : ℕ) (req : List ℤ) :
    (fillOpen x req).prod = knownProd req * x ^ req.count (-1) := by
  induction req with
  | nil => simp [fillOpen, knownProd]
  | cons z req ih =>
    unfold fillOpen knownProd at ih ⊢
    by_cases hz : z = -1
    · subst hz
      simp only [List.map_cons, if_true, List.prod_cons, ih, List.count_cons_self,
        ne_eq, not_true_eq_false, decide_false, Bool.false_eq_true, not_false_eq_true,
        List.filter_cons_of_neg]
      ring
    · have : (z :: req).count (-1) = req.count (-1) := List.count_cons_of_ne hz
      rw [this]
      simp only [List.map_cons, List.prod_cons, ih, ne_eq, hz, not_false_eq_true,
        decide_true, List.filter_cons_of_pos, if_false]
      ring

theorem fillOpen_closed {x : ℕ} {req : List ℤ} (h : req.count (-1) = 0) :
    fillOpen x req = req.map Int.toNat := by
  refine List.map_congr_left fun z hz => ?_
  rw [if_neg]
  rintro rfl
  exact (List.count_eq_zero.1 h) hz

theorem forall2_fillOpen {req : List ℤ} (hr : ∀ z ∈ req, -1 ≤ z) (x : ℕ) :
    List.Forall₂ (fun (z : ℤ) (n : ℕ) => z = n ∨ z = -1) req (fillOpen x req) := by
  induction req with
  | nil => exact .nil
  | cons z req ih =>
    refine .cons ?_ (ih fun y hy => hr y (List.mem_cons_of_mem _ hy))
    have := hr z List.mem_cons_self
    by_cases hz : z = -1
    · exact .inr hz
    · left
      beta_reduce
      rw [if_neg hz]
      omega

theorem forall2_open {req : List ℤ} {vs : List ℕ}
    (h : List.Forall₂ (fun (z : ℤ) (n : ℕ) => z = n ∨ z = -1) req vs)
    (hc : req.count (-1) ≤ 1) : ∃ x, vs = fillOpen x req := by
  induction h with
  | nil => exact ⟨0, rfl⟩
  | @cons z n req vs hzn _ ih =>
    by_cases hz : z = -1
    · subst hz
      rw [List.count_cons_self] at hc
      obtain ⟨x, rfl⟩ := ih (by omega)
      refine ⟨n, ?_⟩
      have h0 : req.count (-1) = 0 := by omega
      show n :: fillOpen x req = _
      rw [fillOpen_closed h0, ← fillOpen_closed (x := n) h0]
      simp [fillOpen]
    · rw [List.count_cons_of_ne hz] at hc
      obtain ⟨x, rfl⟩ := ih hc
      refine ⟨x, ?_⟩
      have : z = n := hzn.resolve_right hz
      subst this
      simp [fillOpen]

theorem knownProd_eq_zero {req : List ℤ} (hr : ∀ z ∈ req, -1 ≤ z) :
    knownProd req = 0 ↔ (0 : ℤ) ∈ req := by
  unfold knownProd
  rw [List.prod_eq_zero_iff, List.mem_map]
  constructor
  · rintro ⟨z, hz, e⟩
    have h1 := List.mem_of_mem_filter hz
    have h2 := hr z h1
    have h3 : z ≠ -1 := by simpa using List.of_mem_filter hz
    have : z = 0 := by omega
    rwa [this] at h1
  · intro h
    exact ⟨0, List.mem_filter.2 ⟨h, by decide⟩, rfl⟩

theorem knownProd_append (req : List ℤ) (ms : List ℕ) :
    knownProd (req ++ ms.map (fun m : ℕ => (m : ℤ))) = knownProd req * ms.prod := by
  unfold knownProd
  rw [List.filter_append, List.map_append, List.prod_append]
  congr 1
  rw [List.filter_eq_self.2 (by
    intro z hz
    obtain ⟨m, _, rfl⟩ := List.mem_map.1 hz
    simp only [ne_eq, decide_eq_true_eq]; omega), List.map_map]
  simp [Function.comp_def]

theorem fillOpen_append (x : ℕ) (req : List ℤ) (ms : List ℕ) :
    fillOpen x (req ++ ms.map (fun m : ℕ => (m : ℤ))) = fillOpen x req ++ ms := by
  unfold fillOpen
  rw [List.map_append, List.map_map]
  congr 1
  conv_rhs => rw [← List.map_id ms]
  refine List.map_congr_left fun m _ => ?_
  simp only [Function.comp, id]
  rw [if_neg (by omega)]
  rfl

theorem resolves_iff {total : ℕ} {req : List ℤ} (hr : ∀ z ∈ req, -1 ≤ z) (vs' : List ℕ) :
    Resolves total req vs' ↔
      (req.count (-1) = 0 ∧ knownProd req = total ∧ vs' = req.map Int.toNat) ∨
      (req.count (-1) = 1 ∧ knownProd req ≠ 0 ∧ total % knownProd req = 0 ∧
        vs' = fillOpen (total / knownProd req) req) := by
  constructor
  · rintro ⟨h1, h2, h3, h4⟩
    obtain ⟨x, rfl⟩ := forall2_open h1 h3
    rw [fillOpen_prod] at h2
    obtain hc | hc : req.count (-1) = 0 ∨ req.count (-1) = 1 := by omega
    · left
      rw [hc, pow_zero, mul_one] at h2
      exact ⟨hc, h2, fillOpen_closed hc⟩
    · right
      rw [hc, pow_one] at h2
      have hk : knownProd req ≠ 0 := fun e => h4 hc ((knownProd_eq_zero hr).1 e)
      refine ⟨hc, hk, by rw [← h2]; exact Nat.mul_mod_right _ _, ?_⟩
      rw [← h2, Nat.mul_div_cancel_left _ (by omega)]
  · rintro (⟨hc, hk, rfl⟩ | ⟨hc, hk, hd, rfl⟩)
    · refine ⟨?_, ?_, by omega, by omega⟩
      · rw [← fillOpen_closed (x := 0) hc]
        exact forall2_fillOpen hr 0
      · rw [← fillOpen_closed (x := 0) hc, fillOpen_prod, hc, pow_zero, mul_one, hk]
    · refine ⟨forall2_fillOpen hr _, ?_, by omega, fun _ h0 => hk ((knownProd_eq_zero hr).2 h0)⟩
      rw [fillOpen_prod, hc, pow_one]
      exact Nat.mul_div_cancel' (Nat.dvd_of_mod_eq_zero hd)

theorem resolveShape_eq {req : List ℤ} {vs ms : List ℕ} (hms : ∀ m ∈ ms, 2 ≤ m)
    (hr : ∀ z ∈ req, -1 ≤ z) :
    resolveShape (vs ++ ms).prod (req ++ ms.map (fun m : ℕ => (m : ℤ)))
      = if req.count (-1) = 0 then
          if knownProd req = vs.prod then .ok (req.map Int.toNat ++ ms) else .error .valueError
        else if req.count (-1) = 1 then
          if knownProd req = 0 ∨ vs.prod % knownProd req ≠ 0 then .error .valueError
          else .ok (fillOpen (vs.prod / knownProd req) req ++ ms)
        else .error .valueError := by
  have hP : 0 < ms.prod := List.prod_pos fun m hm => by have := hms m hm; omega
  unfold resolveShape
  rw [if_neg (by
    rintro ⟨z, hz, hlt⟩
    rcases List.mem_append.1 hz with hz | hz
    · have := hr z hz; omega
    · obtain ⟨m, _, rfl⟩ := List.mem_map.1 hz; omega)]
  have ek : ((List.filter (fun z : ℤ => decide (z ≠ -1))
      (req ++ ms.map (fun m : ℕ => (m : ℤ)))).map Int.toNat).prod = knownProd req * ms.prod :=
    knownProd_append req ms
  simp only [count_append_nat, List.prod_append, ek]
  have e1 : (knownProd req * ms.prod = vs.prod * ms.prod) = (knownProd req = vs.prod) := by
    rw [Nat.mul_left_inj (by omega)]
  have e2 : (knownProd req * ms.prod = 0) = (knownProd req = 0) := by
    rw [Nat.mul_eq_zero, or_iff_left (by omega)]
  have e3 : (vs.prod * ms.prod % (knownProd req * ms.prod) ≠ 0)
      = (vs.prod % knownProd req ≠ 0) := by
    rw [Nat.mul_mod_mul_right, Nat.mul_ne_zero_iff, and_iff_left (by omega)]
  have e4 : vs.prod * ms.prod / (knownProd req * ms.prod) = vs.prod / knownProd req :=
    Nat.mul_div_mul_right _ _ hP
  have e5 : (req ++ ms.map (fun m : ℕ => (m : ℤ))).map Int.toNat = req.map Int.toNat ++ ms := by
    rw [List.map_append, List.map_map]
    simp [Function.comp_def]
  have e6 := fillOpen_append (vs.prod / knownProd req) req ms
  unfold fillOpen at e6 ⊢
  rw [e4, e6, e5]
  simp only [e1, e2, e3]

end Sizes

section NewLike

variable {K : Type*} {obj out : Arr K} {vs ms : List ℕ}

theorem momShape_eq (h : IsObject obj vs ms) : momShape ms.length obj = .ok ms := by
  unfold momShape
  rw [if_neg (by rw [h.length]; omega), h.length, h.shape]
  simp

theorem newLike_eq (h : IsObject obj vs ms) (hs : momShape ms.length out = .ok ms) :
    newLike ms.length obj out = .ok out := by
  unfold newLike
  rw [momShape_eq h, hs]
  simp [Except.bind]

theorem raiseIfScalar_eq (h : IsObject obj vs ms) :
    raiseIfScalar ms.length obj = if vs = [] then .error .valueError else .ok () := by
  unfold raiseIfScalar
  rw [h.length]
  by_cases hv : vs = []
  · simp [hv]
  · have := List.length_pos_iff.2 hv
    rw [if_neg (by omega), if_neg hv]

/-- Reshaping, as one formula. -/
theorem reshape_eq (h : IsObject obj vs ms) (hv : vs ≠ []) (req : List ℤ) (hr : ∀ z ∈ req, -1 ≤ z)
    (fortran : Bool) :
    (∀ vs', Resolves vs.prod req vs' →
      reshape ms.length obj req fortran = .ok (reshapeTo obj (vs' ++ ms) fortran)) ∧
    ((¬ ∃ vs', Resolves vs.prod req vs') →
      reshape ms.length obj req fortran = .error .valueError) := by
  have e0 : reshape ms.length obj req fortran
      = (resolveShape obj.shape.prod (req ++ ms.map (fun m : ℕ => (m : ℤ)))).bind fun s =>
        newLike ms.length obj (reshapeTo obj s fortran) := by
    unfold reshape
    rw [raiseIfScalar_eq h, if_neg hv, momShape_eq h]
    rfl
  rw [h.shape, resolveShape_eq h.orders hr] at e0
  constructor
  · intro vs' hres
    have hout := (reshapeTo_cells h hres.total fortran).object
    have hn := newLike_eq h (momShape_eq hout)
    rcases (resolves_iff hr vs').1 hres with ⟨hc, hk, rfl⟩ | ⟨hc, hk, hd, rfl⟩
    · rw [e0, if_pos hc, if_pos hk]
      exact hn
    · rw [e0, if_neg (by omega), if_pos hc, if_neg (by tauto)]
      exact hn
  · intro hno
    rw [e0]
    by_cases hc : req.count (-1) = 0
    · rw [if_pos hc]
      by_cases hk : knownProd req = vs.prod
      · exact absurd ⟨_, (resolves_iff hr _).2 (.inl ⟨hc, hk, rfl⟩)⟩ hno
      · rw [if_neg hk]; rfl
    · rw [if_neg hc]
      by_cases hc1 : req.count (-1) = 1
      · rw [if_pos hc1]
        by_cases hk : knownProd req = 0 ∨ vs.prod % knownProd req ≠ 0
        · rw [if_pos hk]; rfl
        · push Not at hk
          exact absurd ⟨_, (resolves_iff hr _).2 (.inr ⟨hc1, hk.1, hk.2, rfl⟩)⟩ hno
      · rw [if_neg hc1]; rfl

end NewLike

section Move

theorem isAxisMove_extend {n d : ℕ} {moves : List (ℕ × ℕ)} {o : List ℕ} (h : IsAxisMove n moves o)
    (hs : ∀ m ∈ moves, m.1 < n) :
    IsAxisMove (n + d) moves (o ++ (List.range d).map (fun j => n + j)) where
  perm := by
    rw [List.range_add]
    exact h.perm.append_right _
  placed := by
    intro m hm
    have e := h.placed m hm
    rw [List.getElem?_append_left (List.getElem?_eq_some_iff.1 e).1]
    exact e
  rest := by
    rw [List.filter_append, List.pairwise_append]
    refine ⟨h.rest, ?_, ?_⟩
    · refine List.Pairwise.filter _ ?_
      rw [List.pairwise_map]
      exact List.pairwise_lt_range.imp (by intro a b; omega)
    · intro a ha b hb
      have h1 := h.perm.mem_iff.1 (List.mem_of_mem_filter ha)
      have h2 := List.mem_of_mem_filter hb
      obtain ⟨j, _, rfl⟩ := List.mem_map.1 h2
      have := List.mem_range.1 h1
      omega

/-- Moving axes to the end, in the order given. -/
theorem isAxisMove_end {n : ℕ} {s : List ℕ} (hs : s.Nodup) (hn : ∀ a ∈ s, a < n) :
    IsAxisMove n (s.zip ((List.range s.length).map (fun j => n - s.length + j)))
      (keptAxes n s ++ s) where
  perm := keptAxes_perm hs hn
  placed := by
    intro m hm
    have hl := keptAxes_length hs hn
    obtain ⟨j, hj, e⟩ := List.mem_iff_getElem.1 hm
    have hj' : j < s.length := by simpa using hj
    rw [← e]
    simp only [List.getElem_zip, List.getElem_map, List.getElem_range]
    rw [List.getElem?_append_right (by omega),
      show n - s.length + j - (keptAxes n s).length = j by omega, List.getElem?_eq_getElem hj']
  rest := by
    have hz : (s.zip ((List.range s.length).map (fun j => n - s.length + j))).map Prod.fst = s :=
      List.map_fst_zip (by simp)
    rw [hz, List.filter_append]
    have e1 : (keptAxes n s).filter (fun a => decide (a ∉ s)) = keptAxes n s :=
      List.filter_eq_self.2 fun a ha => by simpa using (mem_keptAxes.1 ha).2
    have e2 : s.filter (fun a => decide (a ∉ s)) = [] :=
      List.filter_eq_nil_iff.2 fun a ha => by simpa using ha
    rw [e1, e2, List.append_nil]
    exact List.pairwise_lt_range.filter _

theorem moveaxisCore_end {n : ℕ} {s : List ℕ} (hs : s.Nodup) (hn : ∀ a ∈ s, a < n) :
    moveaxisCore n s ((List.range s.length).map (fun j => n - s.length + j))
      = .ok (keptAxes n s ++ s) := by
  have hl := keptAxes_length hs hn
  obtain ⟨o, h1, h2⟩ := moveaxisCore_spec (n := n) (s := s)
    (d := (List.range s.length).map (fun j => n - s.length + j)) (by simp) hs (nodup_shift _ _) hn
    (by
      intro a ha
      obtain ⟨j, hj, rfl⟩ := List.mem_map.1 ha
      have := List.mem_range.1 hj
      omega)
  rw [h1, isAxisMove_unique (by simp) h2 (isAxisMove_end hs hn)]

theorem moveaxisCore_extend {n d : ℕ} {s t : List ℕ} (hlen : s.length = t.length) (hs : s.Nodup)
    (ht : t.Nodup) (hsn : ∀ a ∈ s, a < n) (htn : ∀ a ∈ t, a < n) :
    ∃ o, IsAxisMove n (s.zip t) o ∧
      moveaxisCore (n + d) s t = .ok (o ++ (List.range d).map (fun j => n + j)) := by
  obtain ⟨o, _, h2⟩ := moveaxisCore_spec hlen hs ht hsn htn
  obtain ⟨o', h1', h2'⟩ := moveaxisCore_spec (n := n + d) hlen hs ht
    (fun a ha => by have := hsn a ha; omega) (fun a ha => by have := htn a ha; omega)
  refine ⟨o, h2, ?_⟩
  rw [h1', isAxisMove_unique hlen h2' (isAxisMove_extend (d := d) h2 ?_)]
  intro m hm
  exact hsn _ (List.of_mem_zip hm).1

theorem namesAxis_lt {n d : ℕ} {a : AxisArg} {r : ℕ} (h : NamesAxis n d a r) : r < n := by
  cases a with
  | int z => obtain ⟨h1, rfl⟩ := h; exact wrap_lt h1
  | float => exact h.elim
  | complex re im =>
    obtain ⟨z, _, h1, rfl⟩ := h
    have := wrap_lt h1
    omega

theorem normalizeAxisIndex_names {n d : ℕ} {a : AxisArg} {r : ℕ} (hd : d ≤ n)
    (h : NamesAxis n d a r) : normalizeAxisIndex a n (some d) = .ok r := by
  cases a with
  | int z => exact (npNormalize_int z n r).2 h
  | float => exact h.elim
  | complex re im =>
    obtain ⟨z, rfl, h1, rfl⟩ := h
    have e : (n : ℤ) - d = ((n - d : ℕ) : ℤ) := by omega
    show npNormalize (truncate (z : ℚ)) ((n : ℤ) - d) = _
    rw [e, show truncate (z : ℚ) = z by simp [truncate]]
    exact (npNormalize_int z (n - d) _).2 ⟨h1, rfl⟩

theorem normalizeAxes_names {n d : ℕ} {as : List AxisArg} {s : List ℕ} (hd : d ≤ n)
    (h : List.Forall₂ (NamesAxis n d) as s) (hs : s.Nodup) :
    normalizeAxes as n (some d) false = .ok s := by
  refine (normalizeAxes_ok_iff as n (some d) false s).2 ⟨?_, .inr hs⟩
  clear hs
  induction h with
  | nil => rfl
  | cons h1 _ ih =>
    rw [List.map_cons, List.map_cons, ih, normalizeAxisIndex_names hd h1]

theorem forall2_names_lt {n d : ℕ} {as : List AxisArg} {s : List ℕ}
    (h : List.Forall₂ (NamesAxis n d) as s) : ∀ a ∈ s, a < n := by
  induction h with
  | nil => simp
  | cons h1 _ ih =>
    intro a ha
    rcases List.mem_cons.1 ha with rfl | ha
    · exact namesAxis_lt h1
    · exact ih a ha

theorem forall2_names_int {n d : ℕ} {s : List ℕ} (h : ∀ a ∈ s, a < n) :
    List.Forall₂ (NamesAxis n d) (s.map (fun a : ℕ => AxisArg.int a)) s := by
  induction s with
  | nil => exact .nil
  | cons a s ih =>
    refine .cons ⟨inRange_natCast (h a (by simp)), (wrap_natCast (h a (by simp))).symm⟩
      (ih fun b hb => h b (List.mem_cons_of_mem _ hb))

variable {K : Type*} {obj : Arr K} {vs ms : List ℕ}

/-- Transposing the value axes moves whole cells. -/
theorem transpose_cells (h : IsObject obj vs ms) {o : List ℕ} (ho : o.Perm (List.range vs.length)) :
    CellsFrom (obj.transpose (o ++ (List.range ms.length).map (fun j => vs.length + j))) obj
      (o.map (fun a => vs.getD a 0)) vs ms (fun i a => i (o.idxOf a)) := by
  have hl : o.length = vs.length := by simpa using ho.length_eq
  have hmem : ∀ a < vs.length, a ∈ o := fun a ha => ho.mem_iff.2 (List.mem_range.2 ha)
  have hlt : ∀ a ∈ o, a < vs.length := fun a ha => List.mem_range.1 (ho.mem_iff.1 ha)
  have hidx : ∀ q, q < vs.length + ms.length →
      (o ++ (List.range ms.length).map (fun j => vs.length + j)).idxOf q
        = if q < vs.length then o.idxOf q else q := by
    intro q hq
    by_cases hv : q < vs.length
    · rw [if_pos hv, List.idxOf_append_of_mem (hmem q hv)]
    · rw [if_neg hv, List.idxOf_append_of_notMem (fun hm => hv (hlt q hm)),
        Cmomy.idxOf_shift (by omega) hq, hl]
      omega
  refine ⟨⟨?_, ?_, h.count, h.orders⟩, ?_, ?_⟩
  · intro i j e
    have hsl : (obj.transpose (o ++ (List.range ms.length).map
        (fun j => vs.length + j))).shape.length = vs.length + ms.length := by
      simp [Arr.transpose, hl]
    rw [hsl] at e
    refine h.get_congr fun q hq => ?_
    beta_reduce
    rw [hidx q hq]
    split_ifs with hv
    · exact e _ (by have := List.idxOf_lt_length_iff.2 (hmem q hv); omega)
    · exact e q hq
  · simp only [Arr.transpose, List.map_append, List.map_map]
    congr 1
    · refine List.map_congr_left fun a ha => ?_
      rw [h.shape, List.getD_append _ _ _ _ (hlt a ha)]
    · refine List.ext_getElem (by simp) fun q h1 h2 => ?_
      simp [h.shape, List.getElem?_append_right, List.getElem?_eq_getElem h2]
  · intro i hi a ha
    have h1 := List.idxOf_lt_length_iff.2 (hmem a ha)
    have := hi (o.idxOf a) (by simpa using h1)
    rw [List.getD_eq_getElem _ _ (by simpa using h1), List.getElem_map, List.getElem_idxOf] at this
    exact this
  · intro i hi m hm
    refine h.get_congr fun q hq => ?_
    beta_reduce
    rw [hidx q hq]
    unfold atMom
    simp only [List.length_map, hl]
    by_cases hv : q < vs.length
    · have h1 := List.idxOf_lt_length_iff.2 (hmem q hv)
      rw [if_pos hv, if_pos (by omega), if_pos hv]
    · rw [if_neg hv, if_neg hv, if_neg hv]

theorem moment_axes_normal {n d : ℕ} (h : d ≤ n) :
    normalizeAxes ((Select.axesLast d).map .int) n none false
      = .ok ((List.range d).map (fun j => n - d + j)) :=
  (normalizeAxes_int_ok_iff _ n none false _).2
    ⟨Nd.axesLast_range' h, (Nd.axesLast_wrap' h).symm, .inr (nodup_shift _ _)⟩

theorem moveOrder_plain {n d : ℕ} (hd : d ≤ n) {as bs : List AxisArg} {s t : List ℕ}
    (ha : List.Forall₂ (NamesAxis n d) as s) (hb : List.Forall₂ (NamesAxis n d) bs t)
    (hs : s.Nodup) (ht : t.Nodup) :
    moveOrder n (some (Select.axesLast d)) (some (.many as)) (some (.many bs)) false false
      = if ∃ a ∈ s ++ t, n - d ≤ a then .error .valueError else moveaxisCore n s t := by
  unfold moveOrder moveOrderPlain
  simp only [moment_axes_normal hd, Except.map, Except.bind, Bool.false_eq_true, if_false,
    Option.elim_some, Option.map_some, List.length_map, List.length_range, normalizeAxisTuple,
    normalizeAxes_names hd ha hs, normalizeAxes_names hd hb ht, Option.getD_some, true_and]
  refine if_congr ⟨?_, ?_⟩ rfl rfl
  · rintro ⟨m, hm, hmem⟩
    obtain ⟨j, _, rfl⟩ := List.mem_map.1 hm
    exact ⟨_, hmem, by omega⟩
  · rintro ⟨a, hmem, hle⟩
    have hlt : a < n := by
      rcases List.mem_append.1 hmem with h | h
      · exact forall2_names_lt ha a h
      · exact forall2_names_lt hb a h
    exact ⟨a, List.mem_map.2 ⟨a - (n - d), List.mem_range.2 (by omega), by omega⟩, hmem⟩

theorem length_le_of_nodup {n : ℕ} {s : List ℕ} (hs : s.Nodup) (hn : ∀ a ∈ s, a < n) :
    s.length ≤ n := by
  have := keptAxes_length hs hn
  omega

theorem ends_names {n d k : ℕ} (h : k + d ≤ n) :
    List.Forall₂ (NamesAxis n d)
      ((List.range k).map (fun j : ℕ => AxisArg.complex 0 (-(k : ℚ) + j)))
      ((List.range k).map (fun j => n - (k + d) + j)) := by
  rw [List.forall₂_map_left_iff, List.forall₂_map_right_iff, List.forall₂_same]
  intro j hj
  have hj := List.mem_range.1 hj
  refine ⟨-(k : ℤ) + j, by push_cast; rfl, by unfold InRange; omega, ?_⟩
  have := wrap_neg (n := n - d) (z := -(k : ℤ) + j) (by unfold InRange; omega) (by omega)
  omega

theorem last_names {n d : ℕ} (h : d ≤ n) :
    List.Forall₂ (NamesAxis n d) ((Select.axesLast d).map .int)
      ((List.range d).map (fun j => n - d + j)) := by
  unfold Select.axesLast
  rw [List.map_map, List.forall₂_map_left_iff, List.forall₂_map_right_iff, List.forall₂_same]
  intro j hj
  have hj := List.mem_range.1 hj
  have h1 : InRange n (-(d : ℤ) + j) := by unfold InRange; omega
  refine ⟨h1, ?_⟩
  have := wrap_neg h1 (by omega)
  beta_reduce
  omega

theorem range_join {n k d : ℕ} (h : k + d ≤ n) :
    (List.range k).map (fun j => n - (k + d) + j) ++ (List.range d).map (fun j => n - d + j)
      = (List.range (k + d)).map (fun j => n - (k + d) + j) := by
  rw [List.range_add, List.map_append, List.map_map]
  congr 1
  refine List.map_congr_left fun j _ => ?_
  simp only [Function.comp]
  omega

/-- The axes named, then the moment axes, go to the end. -/
theorem moveOrder_end {n : ℕ} {mom : List ℤ} (hm : ∀ z ∈ mom, InRange n z) {axis : Option (List AxisArg)}
    {s : List ℕ} (hax : List.Forall₂ (NamesAxis n mom.length) (axis.getD []) s)
    (hnd : (s ++ mom.map (wrap n)).Nodup) (dest : Option AxesArg) (allowMom : Bool) :
    moveOrder n (some mom) (axis.map .many) dest allowMom true
      = .ok (keptAxes n (s ++ mom.map (wrap n)) ++ (s ++ mom.map (wrap n))) := by
  have hsn := forall2_names_lt hax
  obtain ⟨hs, hmd, _⟩ := List.nodup_append.1 hnd
  have hlt : ∀ a ∈ s ++ mom.map (wrap n), a < n := by
    intro a ha
    rcases List.mem_append.1 ha with h | h
    · exact hsn a h
    · obtain ⟨z, hz, rfl⟩ := List.mem_map.1 h
      exact wrap_lt (hm z hz)
  have hle : s.length + mom.length ≤ n := by
    have := length_le_of_nodup hnd hlt
    simpa using this
  have e1 : normalizeAxes (mom.map .int) n none false = .ok (mom.map (wrap n)) :=
    (normalizeAxes_int_ok_iff mom n none false _).2 ⟨hm, rfl, .inr hmd⟩
  have e3 : normalizeAxes ((s ++ mom.map (wrap n)).map (fun a : ℕ => AxisArg.int a)) n
      (some mom.length) false = .ok (s ++ mom.map (wrap n)) :=
    normalizeAxes_names (by omega) (forall2_names_int hlt) hnd
  have e4 : normalizeAxes ((List.range s.length).map
        (fun j : ℕ => AxisArg.complex 0 (-(s.length : ℚ) + j)) ++
      (Select.axesLast mom.length).map .int) n (some mom.length) false
      = .ok ((List.range (s.length + mom.length)).map
        (fun j => n - (s.length + mom.length) + j)) := by
    rw [← range_join hle]
    refine normalizeAxes_names (by omega)
      (List.rel_append (ends_names hle) (last_names (by omega))) ?_
    rw [range_join hle]
    exact nodup_shift _ _
  have e5 := moveaxisCore_end hnd hlt
  rw [List.length_append, List.length_map] at e5
  cases axis with
  | none =>
    cases hax
    unfold moveOrder moveOrderPlain
    simp only [e1, Except.map, Except.bind, if_true, Option.map_some, Option.map_none,
      List.length_map, Option.elim_some, normalizeAxisTuple, e3, e4, e5, Bool.true_eq_false,
      false_and, if_false]
  | some as =>
    have e2 : normalizeAxes as n (some mom.length) false = .ok s :=
      normalizeAxes_names (by omega) hax hs
    unfold moveOrder moveOrderPlain
    simp only [e1, e2, Except.map, Except.bind, if_true, Option.map_some, List.length_map,
      Option.elim_some, normalizeAxisTuple, e3, e4, e5, Bool.true_eq_false, false_and, if_false]

end Move

section Take

variable {K : Type*} {obj : Arr K} {vs ms : List ℕ}

theorem hasEntries_at {idx : IdxArr} {sizes : List ℕ} {entry : List ℕ → ℤ}
    (h : HasEntries idx sizes entry) {c : List ℕ} (hc : Within sizes c) :
    idx.at c = entry c := by
  have e := cellsIn_eq sizes false
  have er : readingOrder sizes.length false = List.range sizes.length := rfl
  rw [er] at e
  unfold IdxArr.at
  rw [h.shape, h.vals, e, List.map_map]
  have hlt := ravel_lt hc
  rw [List.getD_eq_getElem _ _ (by simpa using hlt), List.getElem_map, List.getElem_range]
  simp only [Function.comp, posCoords, Bool.false_eq_true, if_false, unravel_ravel hc]
  congr 1
  have hl := List.Forall₂.length_eq hc
  refine List.ext_getElem (by simp [hl]) fun q h1 h2 => ?_
  simp [List.getD_eq_getElem?_getD, h2]

theorem hasEntries_mem {idx : IdxArr} {sizes : List ℕ} {entry : List ℕ → ℤ}
    (h : HasEntries idx sizes entry) (z : ℤ) :
    z ∈ idx.vals ↔ ∃ c, Within sizes c ∧ entry c = z := by
  have e := cellsIn_eq sizes false
  have er : readingOrder sizes.length false = List.range sizes.length := rfl
  rw [er] at e
  rw [h.vals, e, List.map_map, List.mem_map]
  have hc : ∀ {c : List ℕ}, c.length = sizes.length →
      (List.range sizes.length).map (fun a => c.getD a 0) = c := by
    intro c hl
    refine List.ext_getElem (by simp [hl]) fun q h1 h2 => ?_
    simp [List.getD_eq_getElem?_getD, h2]
  constructor
  · rintro ⟨p, hp, rfl⟩
    have hw := within_posCoords (vs := sizes) (fortran := false) (List.mem_range.1 hp)
    refine ⟨_, hw, ?_⟩
    simp only [Function.comp]
    rw [hc (List.Forall₂.length_eq hw)]
  · rintro ⟨c, hw, rfl⟩
    refine ⟨ravel sizes c, List.mem_range.2 (ravel_lt hw), ?_⟩
    simp only [Function.comp, posCoords, Bool.false_eq_true, if_false, unravel_ravel hw]
    rw [hc (List.Forall₂.length_eq hw)]

theorem pyIdx_eq_wrap {n : ℕ} {z : ℤ} (h : InRange n z) : pyIdx n z = wrap n z := by
  unfold pyIdx wrap
  unfold InRange at h
  by_cases h0 : z < 0
  · rw [if_pos h0, show z % (n : ℤ) = z + n by
      rw [← Int.add_emod_right, Int.emod_eq_of_lt (by omega) (by omega)]]
  · rw [if_neg h0, Int.emod_eq_of_lt (by omega) (by omega)]

/-- Taking along a value axis moves whole cells. -/
theorem npTake_cells (h : IsObject obj vs ms) {ax : ℕ} (hax : ax < vs.length) {idx : IdxArr}
    {sizes : List ℕ} {entry : List ℕ → ℤ} (he : HasEntries idx sizes entry)
    (hr : ∀ c, Within sizes c → InRange (vs.getD ax 0) (entry c)) :
    ∃ out, npTake obj idx ax = .ok out ∧
      CellsFrom out obj (vs.take ax ++ sizes ++ vs.drop (ax + 1)) vs ms
        (takenFrom (vs.getD ax 0) ax sizes.length entry) := by
  have hsz : obj.shape.getD ax 0 = vs.getD ax 0 := by
    rw [h.shape, List.getD_append _ _ _ _ hax]
  have hne : ¬ ∃ z ∈ idx.vals, z < -(obj.shape.getD ax 0 : ℤ) ∨ (obj.shape.getD ax 0 : ℤ) ≤ z := by
    rintro ⟨z, hz, hbad⟩
    obtain ⟨c, hc, rfl⟩ := (hasEntries_mem he z).1 hz
    have := hr c hc
    rw [hsz] at hbad
    unfold InRange at this
    omega
  refine ⟨_, by unfold npTake; rw [if_neg hne], ?_⟩
  have hlen : (vs.take ax ++ sizes ++ vs.drop (ax + 1)).length + 1 = vs.length + sizes.length := by
    simp; omega
  have hshape : obj.shape.take ax ++ idx.shape ++ obj.shape.drop (ax + 1)
      = (vs.take ax ++ sizes ++ vs.drop (ax + 1)) ++ ms := by
    rw [h.shape, he.shape, List.take_append_of_le_length (by omega),
      List.drop_append_of_le_length (by omega)]
    simp
  have hlt : ∀ q, q < ax → (vs.take ax ++ sizes ++ vs.drop (ax + 1)).getD q 0 = vs.getD q 0 := by
    intro q hq
    rw [List.append_assoc, List.getD_append _ _ _ _ (by simp <;> omega)]
    simp [List.getD_eq_getElem?_getD, hq]
  have hmid : ∀ q, q < sizes.length →
      (vs.take ax ++ sizes ++ vs.drop (ax + 1)).getD (ax + q) 0 = sizes.getD q 0 := by
    intro q hq
    rw [List.append_assoc, List.getD_append_right _ _ _ _ (by simp <;> omega),
      List.getD_append _ _ _ _ (by simp <;> omega)]
    congr 1
    rw [List.length_take]; omega
  have hpost : ∀ q, ax < q →
      (vs.take ax ++ sizes ++ vs.drop (ax + 1)).getD (q + sizes.length - 1) 0 = vs.getD q 0 := by
    intro q hq
    rw [List.getD_append_right _ _ _ _ (by simp <;> omega)]
    simp only [List.getD_eq_getElem?_getD, List.getElem?_drop, List.length_append, List.length_take]
    congr 2
    omega
  have hwithin : ∀ i, InBounds (vs.take ax ++ sizes ++ vs.drop (ax + 1)) i →
      Within sizes ((List.range sizes.length).map (fun q => i (ax + q))) := by
    intro i hi
    rw [within_iff]
    refine ⟨by simp, fun q hq => ?_⟩
    have := hi (ax + q) (by omega)
    rw [hmid q hq] at this
    simpa [List.getD_eq_getElem?_getD, hq] using this
  refine ⟨⟨?_, hshape, h.count, h.orders⟩, ?_, ?_⟩
  · intro i j e
    beta_reduce
    have hl2 : (obj.shape.take ax ++ idx.shape ++ obj.shape.drop (ax + 1)).length + 1
        = vs.length + sizes.length + ms.length := by rw [hshape, List.length_append]; omega
    have e' : ∀ q, q + 1 < vs.length + sizes.length + ms.length + 1 - 0 → q + 1 ≤ vs.length + sizes.length + ms.length - 1 + 0 →
        i q = j q := fun q _ hq => e q (by
      show q < (obj.shape.take ax ++ idx.shape ++ obj.shape.drop (ax + 1)).length
      omega)
    refine h.get_congr fun q hq => ?_
    beta_reduce
    split_ifs with h1 h2
    · exact e' q (by omega) (by omega)
    · congr 2
      refine List.map_congr_left fun p hp => ?_
      have := List.mem_range.1 hp
      rw [he.shape] at this
      exact e' _ (by omega) (by omega)
    · rw [he.shape]
      exact e' _ (by omega) (by omega)
  · intro i hi q hq
    unfold takenFrom
    split_ifs with h1 h2
    · rw [← hlt q h1]
      exact hi q (by omega)
    · subst h2
      exact wrap_lt (hr _ (hwithin i hi))
    · rw [← hpost q (by omega)]
      exact hi _ (by omega)
  · intro i hi m hm
    refine h.get_congr fun q hq => ?_
    beta_reduce
    have hw := hwithin i hi
    unfold atMom takenFrom
    by_cases h1 : q < ax
    · rw [if_pos h1, if_pos (by omega), if_pos (by omega), if_pos h1]
    · rw [if_neg h1]
      by_cases h2 : q = ax
      · subst h2
        rw [if_pos rfl, if_pos hax, if_neg (by omega), if_pos rfl, he.shape]
        have e : (List.range sizes.length).map (fun p =>
            if q + p < (vs.take q ++ sizes ++ vs.drop (q + 1)).length then i (q + p)
            else m.getD (q + p - (vs.take q ++ sizes ++ vs.drop (q + 1)).length) 0)
            = (List.range sizes.length).map (fun p => i (q + p)) := by
          refine List.map_congr_left fun p hp => ?_
          have := List.mem_range.1 hp
          rw [if_pos (by omega)]
        rw [e, hasEntries_at he hw, hsz]
        exact pyIdx_eq_wrap (hr _ hw)
      · rw [if_neg h2, he.shape]
        by_cases hv : q < vs.length
        · rw [if_pos (by omega), if_pos hv, if_neg h1, if_neg h2]
        · rw [if_neg (by omega), if_neg hv]
          congr 1
          omega

theorem Spec.CellsFrom.trans {out mid : Arr K} {vs'' vs' : List ℕ} {f g : (ℕ → ℕ) → ℕ → ℕ}
    (h1 : CellsFrom out mid vs'' vs' ms f) (h2 : CellsFrom mid obj vs' vs ms g) :
    CellsFrom out obj vs'' vs ms (fun i => g (f i)) where
  object := h1.object
  source := fun i hi => h2.source _ (h1.source i hi)
  cell := fun i hi m hm => (h1.cell i hi m hm).trans (h2.cell _ (h1.source i hi) m hm)

theorem Spec.CellsFrom.congr {out : Arr K} {vs' : List ℕ} {f g : (ℕ → ℕ) → ℕ → ℕ}
    (ho : IsObject obj vs ms) (h : CellsFrom out obj vs' vs ms f)
    (e : ∀ i a, a < vs.length → g i a = f i a) : CellsFrom out obj vs' vs ms g where
  object := h.object
  source := fun i hi a ha => by rw [e i a ha]; exact h.source i hi a ha
  cell := fun i hi m hm => by
    rw [h.cell i hi m hm]
    refine ho.get_congr fun q hq => ?_
    unfold atMom
    split_ifs with hv
    · rw [e i q hv]
    · rfl

theorem keptAxes_last {n : ℕ} : keptAxes (n + 1) [n] = List.range n := by
  have := keptAxes_tail (n := n + 1) (m := 1) (by omega)
  simpa using this

/-- Moving one value axis behind the others. -/
theorem moveaxis_last (h : IsObject obj vs ms) {ax : ℕ} (hax : ax < vs.length) :
    obj.moveaxis [ax] [((vs.length - 1 : ℕ) : ℤ)]
      = .ok (obj.transpose ((keptAxes vs.length [ax] ++ [ax]) ++
          (List.range ms.length).map (fun j => vs.length + j))) := by
  obtain ⟨o, h1, h2⟩ := moveaxisCore_extend (n := vs.length) (d := ms.length) (s := [ax])
    (t := [vs.length - 1]) rfl (by simp) (by simp) (by simpa using hax)
    (by intro a ha; rw [List.mem_singleton] at ha; omega)
  have h3 := isAxisMove_end (n := vs.length) (s := [ax]) (by simp) (by simpa using hax)
  simp only [List.length_singleton, List.range_one, List.map_cons, List.map_nil, Nat.add_zero] at h3
  have h4 := isAxisMove_unique (by rfl) h1 h3
  rw [h4] at h2
  unfold Arr.moveaxis moveaxisOrder normalizeAxisTuple
  rw [h.length]
  have e1 : normalizeAxes ([ax].map (fun s : ℕ => AxisArg.int s)) (vs.length + ms.length) none false
      = .ok [ax] := by
    have := (normalizeAxes_int_ok_iff [(ax : ℤ)] (vs.length + ms.length) none false [ax]).2
      ⟨by simpa using inRange_natCast (by omega),
        by simp [wrap_natCast (show ax < vs.length + ms.length by omega)], .inr (by simp)⟩
    exact this
  have e2 : normalizeAxes ([((vs.length - 1 : ℕ) : ℤ)].map AxisArg.int) (vs.length + ms.length)
      none false = .ok [vs.length - 1] :=
    (normalizeAxes_int_ok_iff _ _ _ _ _).2
      ⟨by simpa using inRange_natCast (show vs.length - 1 < vs.length + ms.length by omega),
        by
          have := wrap_natCast (show vs.length - 1 < vs.length + ms.length by omega)
          simp only [List.map_cons, List.map_nil, this], .inr (by simp)⟩
  simp only [e1, e2, Except.bind, h2, Except.map]

/-- `resample` along a value axis. -/
theorem resample_cells (h : IsObject obj vs ms) {a : AxisArg} {ax : ℕ}
    (ha : NamesAxis (vs.length + ms.length) ms.length a ax) (hax : ax < vs.length) {idx : IdxArr}
    {sizes : List ℕ} {entry : List ℕ → ℤ} (he : HasEntries idx sizes entry)
    (hr : ∀ c, Within sizes c → InRange (vs.getD ax 0) (entry c)) :
    (∃ out, resample ms.length obj idx (some a) false = .ok out ∧
      CellsFrom out obj (vs.take ax ++ sizes ++ vs.drop (ax + 1)) vs ms
        (takenFrom (vs.getD ax 0) ax sizes.length entry)) ∧
    (∃ out, resample ms.length obj idx (some a) true = .ok out ∧
      CellsFrom out obj ((keptAxes vs.length [ax]).map (fun b => vs.getD b 0) ++ sizes) vs ms
        (takenLast vs.length (vs.getD ax 0) ax sizes.length entry)) := by
  have hv : vs ≠ [] := by rintro rfl; simp at hax
  have en := normalizeAxisIndex_names (by omega) ha
  have el : vs.length + ms.length - ms.length - 1 = vs.length - 1 := by omega
  have e0 : ∀ last, resample ms.length obj idx (some a) last
      = (if last = true ∧ ax ≠ vs.length - 1 then
          (obj.moveaxis [ax] [((vs.length - 1 : ℕ) : ℤ)]).bind fun o => npTake o idx (vs.length - 1)
        else npTake obj idx ax).bind fun out => newLike ms.length obj out := by
    intro last
    unfold resample
    rw [raiseIfScalar_eq h, if_neg hv, h.length]
    simp only [Option.elim_some, en, el, Except.bind]
  obtain ⟨out, h1, h2⟩ := npTake_cells h hax he hr
  refine ⟨⟨out, ?_, h2⟩, ?_⟩
  · rw [e0, if_neg (by simp), h1]
    exact newLike_eq h (momShape_eq h2.object)
  · by_cases hl : ax = vs.length - 1
    · refine ⟨out, ?_, ?_⟩
      · rw [e0, if_neg (by simp [hl]), h1]
        exact newLike_eq h (momShape_eq h2.object)
      · obtain ⟨n, hn⟩ : ∃ n, vs.length = n + 1 := ⟨vs.length - 1, by omega⟩
        have hk : keptAxes vs.length [ax] = List.range n := by
          rw [hl, hn]; exact keptAxes_last
        have hvs : vs.take ax ++ sizes ++ vs.drop (ax + 1)
            = (keptAxes vs.length [ax]).map (fun b => vs.getD b 0) ++ sizes := by
          rw [hk, List.drop_eq_nil_of_le (by omega), List.append_nil]
          congr 1
          refine List.ext_getElem (by simp; omega) fun q q1 q2 => ?_
          have : q < vs.length := by simp at q1; omega
          simp [List.getD_eq_getElem?_getD, this]
        rw [hvs] at h2
        refine h2.congr h fun i b hb => ?_
        unfold takenLast takenFrom
        rw [hk]
        by_cases hba : b = ax
        · rw [if_pos hba, if_neg (by omega), if_pos hba, hl]
        · rw [if_neg hba, if_pos (by omega), idxOf_range' (by omega)]
    · have hperm := keptAxes_perm (n := vs.length) (s := [ax]) (by simp) (by simpa using hax)
      have hT := transpose_cells h hperm
      have hklen : (keptAxes vs.length [ax]).length = vs.length - 1 := by
        have := keptAxes_length (n := vs.length) (s := [ax]) (by simp) (by simpa using hax)
        simp at this; omega
      have hget : ((keptAxes vs.length [ax] ++ [ax]).map (fun b => vs.getD b 0)).getD
          (vs.length - 1) 0 = vs.getD ax 0 := by
        rw [List.map_append, List.getD_append_right _ _ _ _ (by simp [hklen])]
        simp [hklen]
      obtain ⟨out', h1', h2'⟩ := npTake_cells hT.object (ax := vs.length - 1)
        (by simp [hklen]) he (by rw [hget]; exact hr)
      rw [hget] at h2'
      refine ⟨out', ?_, ?_⟩
      · rw [e0, if_pos ⟨rfl, hl⟩, moveaxis_last h hax]
        simp only [Except.bind, h1']
        exact newLike_eq h (momShape_eq h2'.object)
      · have hvs : ((keptAxes vs.length [ax] ++ [ax]).map (fun b => vs.getD b 0)).take (vs.length - 1)
            ++ sizes ++ ((keptAxes vs.length [ax] ++ [ax]).map (fun b => vs.getD b 0)).drop
              (vs.length - 1 + 1)
            = (keptAxes vs.length [ax]).map (fun b => vs.getD b 0) ++ sizes := by
          rw [List.drop_eq_nil_of_le (by simp [hklen]), List.append_nil, List.map_append,
            List.take_append_of_le_length (by simp [hklen]), List.take_of_length_le (by simp [hklen])]
        rw [hvs] at h2'
        refine (h2'.trans hT).congr h fun i b hb => ?_
        unfold takenLast takenFrom
        by_cases hba : b = ax
        · subst hba
          rw [if_pos rfl, List.idxOf_append_of_notMem (by simp [keptAxes])]
          simp [hklen]
        · have hbk : b ∈ keptAxes vs.length [ax] := mem_keptAxes.2 ⟨hb, by simpa using hba⟩
          have := List.idxOf_lt_length_iff.2 hbk
          rw [if_neg hba, List.idxOf_append_of_mem hbk, if_pos (by omega)]

end Take

end Cmomy
