import Verif.Model.IntervalNd
import Verif.Spec.IntervalNd
import Verif.Lemmas.Axes
import Mathlib.Data.List.GetD

/-! # Lemmas on confidence intervals of arrays -/

namespace Cmomy.Nd

open Axes Spec

variable {K : Type*} {α β : Type*}

theorem elementAt_eq (a : Arr α) (c : List ℕ) : elementAt a c = a.get (at_ c) := rfl

theorem insertAt_at {ax : ℕ} (s : ℕ) {c : List ℕ} (h : ax ≤ c.length) :
    insertAt ax s (at_ c) = at_ (c.take ax ++ s :: c.drop ax) := by
  funext p
  unfold insertAt at_
  have hl : (c.take ax).length = ax := by simp [h]
  by_cases h1 : p < ax
  · rw [if_pos h1, List.getD_append _ _ _ _ (by omega)]
    simp [List.getD, List.getElem?_take, h1]
  · rw [if_neg h1, List.getD_append_right _ _ _ _ (by omega), hl]
    by_cases h2 : p = ax
    · subst h2; simp
    · rw [if_neg h2]
      obtain ⟨q, rfl⟩ : ∃ q, p = ax + q + 1 := ⟨p - ax - 1, by omega⟩
      have : ax + q + 1 - ax = q + 1 := by omega
      rw [this]
      simp [List.getD, List.getElem?_drop]

theorem dropAt_insertAt (ax s : ℕ) (i : ℕ → ℕ) : dropAt ax (insertAt ax s i) = i := by
  funext p
  unfold dropAt insertAt
  by_cases h : p < ax
  · simp [h]
  · rw [if_neg h, if_neg (by omega), if_neg (by omega)]; simp

theorem lineAt_eq {a : Arr α} {pre post c : List ℕ} {n : ℕ} (ha : a.shape = pre ++ n :: post)
    (hc : c.length = (pre ++ post).length) :
    a.lineAt pre.length (at_ c) = elementsAlong a pre.length n c := by
  unfold Arr.lineAt elementsAlong
  have : a.shape.getD pre.length 0 = n := by rw [ha]; simp
  rw [this]
  refine List.map_congr_left fun s _ => ?_
  rw [elementAt_eq, insertAt_at s (by rw [hc]; simp)]

theorem inShape_length {c shape : List ℕ} (h : InShape c shape) : c.length = shape.length :=
  List.Forall₂.length_eq h

theorem inShape_lt {c shape : List ℕ} (h : InShape c shape) {p : ℕ} (hp : p < shape.length) :
    at_ c p < shape.getD p 0 := by
  unfold at_
  have hl := inShape_length h
  have := (List.forall₂_iff_get.1 h).2 p (by omega) hp
  simpa [List.getD, hp, hl ▸ hp] using this

theorem mem_ndindexes {shape c : List ℕ} : c ∈ ndindexes shape ↔ InShape c shape := by
  induction shape generalizing c with
  | nil => simp [ndindexes, InShape]
  | cons n l ih =>
    simp only [ndindexes, List.mem_flatMap, List.mem_range, List.mem_map, InShape]
    constructor
    · rintro ⟨s, hs, c', hc', rfl⟩
      exact List.Forall₂.cons hs (ih.1 hc')
    · intro h
      cases h with
      | cons h1 h2 => exact ⟨_, h1, _, ih.2 h2, rfl⟩

/-- What a value with an axis of size one becomes when it is broadcast. -/
theorem fit_kept {hat : Arr α} {pre post : List ℕ} (n : ℕ) (hs : hat.shape = pre ++ 1 :: post) :
    ∃ b, fitTo hat (pre ++ n :: post) = .ok b ∧
      ∀ c, InShape c (pre ++ post) → ∀ s, b.get (insertAt pre.length s (at_ c)) =
        hat.get (insertAt pre.length 0 (at_ c)) := by
  have hl : (pre ++ 1 :: post).length = (pre ++ n :: post).length := by simp
  unfold fitTo Select.broadcastTo
  rw [hs, if_pos]
  · refine ⟨_, rfl, fun c hc s => ?_⟩
    show hat.get _ = _
    simp only [hl, Nat.add_sub_cancel]
    congr 1
    have hcl := inShape_length hc
    have one : ∀ q, (pre ++ post).getD q 0 = 1 → at_ c q = 0 := by
      intro q h1
      have hp : q < (pre ++ post).length := by
        by_contra hcon
        rw [List.getD_eq_default _ _ (by omega)] at h1
        omega
      have := inShape_lt hc hp
      omega
    funext p
    unfold insertAt
    by_cases h : p < pre.length
    · rw [List.getD_append _ _ _ _ h, if_pos h, if_pos h]
      split
      · rename_i h1
        rw [one p (by rw [List.getD_append _ _ _ _ h]; exact h1)]
      · rfl
    · rw [List.getD_append_right _ _ _ _ (by omega), if_neg h, if_neg h]
      by_cases h2 : p = pre.length
      · subst h2; simp
      · rw [if_neg h2, if_neg h2]
        obtain ⟨q, hq⟩ : ∃ q, p = pre.length + q + 1 := ⟨p - pre.length - 1, by omega⟩
        subst hq
        have e1 : pre.length + q + 1 - pre.length = q + 1 := by omega
        have e2 : pre.length + q + 1 - 1 = pre.length + q := by omega
        rw [e1, e2, List.getD_cons_succ]
        split
        · rename_i h1
          rw [one (pre.length + q) (by
            rw [List.getD_append_right _ _ _ _ (by omega), Nat.add_sub_cancel_left]; exact h1)]
        · rfl
  · intro ax hax
    by_cases h : ax = pre.length
    · left; subst h; simp
    · right
      refine ⟨by omega, ?_⟩
      rw [hl, Nat.add_sub_cancel]
      by_cases h' : ax < pre.length
      · rw [List.getD_append _ _ _ _ h', List.getD_append _ _ _ _ h']
      · rw [List.getD_append_right _ _ _ _ (by omega), List.getD_append_right _ _ _ _ (by omega)]
        obtain ⟨q, hq⟩ : ∃ q, ax - pre.length = q + 1 := ⟨ax - pre.length - 1, by omega⟩
        rw [hq]; simp

/-- What a value that has `theta_boot`'s other axes becomes when it is broadcast. -/
theorem fit_hat {hat : Arr α} {pre post : List ℕ} (n : ℕ) (hh : hat.shape = pre ++ post) :
    ∃ b, fitTo (hat.expandAt pre.length) (pre ++ n :: post) = .ok b ∧
      ∀ c, InShape c (pre ++ post) → ∀ s, b.get (insertAt pre.length s (at_ c)) = hat.get (at_ c) := by
  obtain ⟨b, h1, h2⟩ := fit_kept (hat := hat.expandAt pre.length) (pre := pre) (post := post) n
    (by simp [Arr.expandAt, hh])
  refine ⟨b, h1, fun c hc s => ?_⟩
  rw [h2 c hc s]
  show hat.get (dropAt _ (insertAt _ _ _)) = _
  rw [dropAt_insertAt]

theorem fit_same {a : Arr α} {shape : List ℕ} (ha : a.shape = shape) :
    ∃ b, fitTo a shape = .ok b ∧
      ∀ i : ℕ → ℕ, (∀ p < shape.length, i p < shape.getD p 0) → b.get i = a.get i := by
  unfold fitTo Select.broadcastTo
  rw [ha, if_pos]
  · refine ⟨_, rfl, fun i hi => ?_⟩
    show a.get _ = _
    congr 1
    funext p
    rw [Nat.add_sub_cancel]
    by_cases h1 : shape.getD p 0 = 1
    · rw [if_pos h1]
      have hp : p < shape.length := by
        by_contra hcon
        rw [List.getD_eq_default _ _ (by omega)] at h1
        omega
      have := hi p hp
      omega
    · rw [if_neg h1]
  · intro ax hax
    right
    exact ⟨by omega, by rw [Nat.add_sub_cancel]⟩

theorem fit_cons {a : Arr α} {shape : List ℕ} (L : ℕ) (ha : a.shape = shape) :
    ∃ b, fitTo a (L :: shape) = .ok b ∧
      ∀ c, InShape c shape → ∀ j, b.get (at_ (j :: c)) = a.get (at_ c) := by
  have hsub : ∀ p, p + (L :: shape).length - shape.length = p + 1 := by intro p; simp; omega
  unfold fitTo Select.broadcastTo
  rw [ha, if_pos]
  · refine ⟨_, rfl, fun c hc j => ?_⟩
    show a.get _ = _
    congr 1
    funext p
    rw [hsub]
    by_cases h1 : shape.getD p 0 = 1
    · rw [if_pos h1]
      have hp : p < shape.length := by
        by_contra hcon
        rw [List.getD_eq_default _ _ (by omega)] at h1
        omega
      have := inShape_lt hc hp
      omega
    · rw [if_neg h1]
      simp [at_]
  · intro ax hax
    right
    refine ⟨by simp; omega, ?_⟩
    rw [hsub]; simp

variable [Field K] [LinearOrder K] [FloorRing K]

omit [Field K] [LinearOrder K] [FloorRing K] in
/-- The estimates as the code uses them: compared with the replicates, and squeezed. -/
theorem hat_removed {hat : Arr K} {pre post : List ℕ} {axis : ℤ} (n L : ℕ)
    (hh : hat.shape = pre ++ post) (hr : InRange (pre ++ n :: post).length axis)
    (hw : wrap (pre ++ n :: post).length axis = pre.length) :
    ∃ h' b sq s, hatArr hat (pre ++ n :: post).length axis = .ok h' ∧
      fitTo h' (pre ++ n :: post) = .ok b ∧
      (∀ c, InShape c (pre ++ post) → ∀ s, b.get (insertAt pre.length s (at_ c)) = hat.get (at_ c)) ∧
      npNormalize axis h'.shape.length = .ok pre.length ∧ h'.squeezeAt pre.length = .ok sq ∧
      fitTo sq (L :: (pre ++ post)) = .ok s ∧
      ∀ c, InShape c (pre ++ post) → ∀ j, s.get (at_ (j :: c)) = hat.get (at_ c) := by
  have hlen : (pre ++ n :: post).length = (pre ++ post).length + 1 := by simp; omega
  by_cases he : pre ++ post = []
  · obtain ⟨rfl, rfl⟩ := List.append_eq_nil_iff.1 he
    have h0 : (fun _ => 0 : ℕ → ℕ) = at_ [] := by funext p; simp [at_]
    obtain ⟨s, hs1, hs2⟩ := fit_cons (a := (⟨[], fun _ => hat.get (fun _ => 0)⟩ : Arr K)) L rfl
    refine ⟨⟨[1], fun _ => hat.get (fun _ => 0)⟩, ⟨[n], fun _ => hat.get (fun _ => 0)⟩,
      ⟨[], fun _ => hat.get (fun _ => 0)⟩, s, ?_, ?_, ?_, ?_, ?_, hs1, ?_⟩
    · simp [hatArr, hh]
    · simp [fitTo, Select.broadcastTo]
    · intro c hc s
      have : c = [] := by simpa [InShape] using hc
      rw [this, h0]
    · rw [show (([1] : List ℕ).length : ℤ) = ((([] : List ℕ) ++ n :: []).length : ℕ) by simp]
      exact (npNormalize_int _ _ _).2 ⟨hr, hw.symm⟩
    · simp [Arr.squeezeAt]
    · intro c hc j
      have : c = [] := by simpa [InShape] using hc
      rw [hs2 c hc j, this, h0]
  · obtain ⟨b, hb1, hb2⟩ := fit_hat n hh
    have hs : (hat.expandAt pre.length).shape = pre ++ 1 :: post := by simp [Arr.expandAt, hh]
    obtain ⟨s, hs1, hs2⟩ := fit_cons
      (a := (⟨pre ++ post, fun i => (hat.expandAt pre.length).get (insertAt pre.length 0 i)⟩ : Arr K)) L rfl
    refine ⟨hat.expandAt pre.length, b, _, s, ?_, hb1, hb2, ?_, ?_, hs1, ?_⟩
    · unfold hatArr
      simp only [hh, if_neg he]
      rw [if_pos (by omega), ← hlen, (npNormalize_int _ _ _).2 ⟨hr, hw.symm⟩]
      rfl
    · rw [hs, show (pre ++ 1 :: post).length = (pre ++ n :: post).length by simp]
      exact (npNormalize_int _ _ _).2 ⟨hr, hw.symm⟩
    · unfold Arr.squeezeAt
      rw [hs, if_pos (by simp)]
      simp [List.eraseIdx_append_of_length_le]
    · intro c hc j
      rw [hs2 c hc j]
      show hat.get (dropAt _ (insertAt _ _ _)) = _
      rw [dropAt_insertAt]

omit [Field K] [LinearOrder K] [FloorRing K] in
/-- The same for estimates that keep the axis with size one, or do not. -/
theorem hat_ready {hat : Arr K} {pre post : List ℕ} {axis : ℤ} (n L : ℕ)
    (hh : hat.shape = pre ++ post ∨ hat.shape = pre ++ 1 :: post)
    (hr : InRange (pre ++ n :: post).length axis)
    (hw : wrap (pre ++ n :: post).length axis = pre.length) :
    ∃ h' b sq s, hatArr hat (pre ++ n :: post).length axis = .ok h' ∧
      fitTo h' (pre ++ n :: post) = .ok b ∧
      (∀ c, InShape c (pre ++ post) → ∀ s, b.get (insertAt pre.length s (at_ c)) =
        estimateAt hat pre.length c) ∧
      npNormalize axis h'.shape.length = .ok pre.length ∧ h'.squeezeAt pre.length = .ok sq ∧
      fitTo sq (L :: (pre ++ post)) = .ok s ∧
      ∀ c, InShape c (pre ++ post) → ∀ j, s.get (at_ (j :: c)) = estimateAt hat pre.length c := by
  rcases hh with hh | hh
  · obtain ⟨h', b, sq, s, e1, e2, e3, e4, e5, e6, e7⟩ := hat_removed n L hh hr hw
    have he : ∀ c, InShape c (pre ++ post) → estimateAt hat pre.length c = hat.get (at_ c) := by
      intro c hc
      unfold estimateAt
      rw [if_pos (by rw [hh, inShape_length hc]), elementAt_eq]
    exact ⟨h', b, sq, s, e1, e2, fun c hc s => (e3 c hc s).trans (he c hc).symm, e4, e5, e6,
      fun c hc j => (e7 c hc j).trans (he c hc).symm⟩
  · obtain ⟨b, hb1, hb2⟩ := fit_kept n hh
    have hl : (pre ++ 1 :: post).length = (pre ++ n :: post).length := by simp
    have he : ∀ c, InShape c (pre ++ post) →
        estimateAt hat pre.length c = hat.get (insertAt pre.length 0 (at_ c)) := by
      intro c hc
      have hcl := inShape_length hc
      unfold estimateAt
      rw [if_neg (by rw [hh, hcl]; simp), elementAt_eq, insertAt_at _ (by rw [hcl]; simp)]
    obtain ⟨s, hs1, hs2⟩ := fit_cons
      (a := (⟨pre ++ post, fun i => hat.get (insertAt pre.length 0 i)⟩ : Arr K)) L rfl
    refine ⟨hat, b, _, s, ?_, hb1, fun c hc s => (hb2 c hc s).trans (he c hc).symm, ?_, ?_, hs1,
      fun c hc j => (hs2 c hc j).trans (he c hc).symm⟩
    · unfold hatArr
      have hne : ¬ pre ++ 1 :: post = [] := by simp
      simp only [hh, if_neg hne]
      rw [if_neg (by rw [hl]; exact lt_irrefl _)]
    · rw [hh, hl]
      exact (npNormalize_int _ _ _).2 ⟨hr, hw.symm⟩
    · unfold Arr.squeezeAt
      rw [hh, if_pos (by simp)]
      simp [List.eraseIdx_append_of_length_le]

omit [FloorRing K] in
theorem percentile_eq {boot score : Arr K} {pre post c : List ℕ} {n : ℕ} {v : K}
    (hb : boot.shape = pre ++ n :: post) (hc : c.length = (pre ++ post).length)
    (hv : ∀ s, score.get (insertAt pre.length s (at_ c)) = v) :
    (percentileNd boot score pre.length).get (at_ c) =
      percentileOfScore (elementsAlong boot pre.length n c) v := by
  have hn : boot.shape.getD pre.length 0 = n := by rw [hb]; simp
  rw [← lineAt_eq hb hc]
  unfold percentileNd percentileOfScore Arr.lineAt
  simp only [hv, hn, List.filter_map, List.length_map, List.length_range]
  rfl

theorem mapM_levels (N : NormalFns K) (a z : Option K) {alphas : List K} (h : alphas ≠ []) :
    (((List.range alphas.length).map (fun j => a.bind fun av => z.bind fun zv =>
      (alphas[j]?).bind (bcaLevel N av zv))).mapM id : Option (List K)) =
    match a, z with
    | some av, some zv => alphas.mapM (bcaLevel N av zv)
    | _, _ => none := by
  have hl : (List.range alphas.length).map (fun j => a.bind fun av => z.bind fun zv =>
      (alphas[j]?).bind (bcaLevel N av zv)) =
      alphas.map (fun x => a.bind fun av => z.bind fun zv => bcaLevel N av zv x) := by
    refine List.ext_getElem (by simp) fun k h1 h2 => ?_
    have : k < alphas.length := by simpa using h1
    simp [this]
  rw [hl, List.mapM_map]
  obtain ⟨x, xs, rfl⟩ := List.exists_cons_of_ne_nil h
  cases a with
  | none => simp [List.mapM_cons]
  | some av =>
    cases z with
    | none => simp [List.mapM_cons]
    | some zv => rfl

/-- The row `_quantile_along_axis` fills at an index. -/
theorem row_eq (N : NormalFns K) {boot jack : Arr K} {pre post c : List ℕ} {n m : ℕ} {alphas : List K}
    (hL : alphas ≠ []) (hb : boot.shape = pre ++ n :: post) (hj : jack.shape = pre ++ m :: post)
    (hc : InShape c (pre ++ post)) {score : Arr K} {v : K}
    (hv : ∀ s, score.get (insertAt pre.length s (at_ c)) = v) {a' al : Arr (Option K)}
    (ha' : ∀ j, a'.get (insertAt (pre ++ post).length j (at_ c)) =
      (jack.along pre.length (computeA N)).get (at_ c)) 
    (hal0 : al.shape = pre ++ post ++ [alphas.length])
    (hal : ∀ j < alphas.length, al.get (insertAt (pre ++ post).length j (at_ c)) =
      (a'.get (insertAt (pre ++ post).length j (at_ c))).bind fun av =>
      (N.ndtri ((percentileNd boot score pre.length).get (at_ c))).bind fun zv =>
        (alphas[j]?).bind (bcaLevel N av zv)) :
    quantileRow (al.lineAt (pre ++ post).length (at_ c))
      ((boot.toLast pre.length).lineAt (pre ++ post).length (at_ c)) =
    (match computeA N (elementsAlong jack pre.length m c),
        computeZ0 N v (elementsAlong boot pre.length n c) with
      | some a, some z0 =>
        match alphas.mapM (bcaLevel N a z0) with
        | some avals => (npQuantile (elementsAlong boot pre.length n c) avals).map some
        | none => .ok none
      | _, _ => (.ok none : Py (Option (List K)))) := by
  have hcl := inShape_length hc
  have h1 : al.lineAt (pre ++ post).length (at_ c) =
      (List.range alphas.length).map (fun j =>
        (computeA N (elementsAlong jack pre.length m c)).bind fun av =>
        (computeZ0 N v (elementsAlong boot pre.length n c)).bind fun zv =>
          (alphas[j]?).bind (bcaLevel N av zv)) := by
    unfold Arr.lineAt
    have : al.shape.getD (pre ++ post).length 0 = alphas.length := by
      rw [hal0, List.getD_append_right _ _ _ _ (le_refl _)]; simp
    rw [this]
    refine List.map_congr_left fun j hjm => ?_
    rw [hal j (List.mem_range.1 hjm), ha' j, percentile_eq hb hcl hv]
    unfold Arr.along computeZ0
    beta_reduce
    simp only [lineAt_eq hj hcl]
  have hbl : boot.shape.length = (pre ++ post).length + 1 := by rw [hb]; simp; omega
  have h2 : (boot.toLast pre.length).lineAt (pre ++ post).length (at_ c) =
      elementsAlong boot pre.length n c := by
    rw [← lineAt_eq hb hcl]
    unfold Arr.lineAt
    have hs : (boot.toLast pre.length).shape = pre ++ post ++ [n] := by
      unfold Arr.toLast
      rw [hb]; simp [List.eraseIdx_append_of_length_le]
    have e1 : (boot.toLast pre.length).shape.getD (pre ++ post).length 0 = n := by
      rw [hs, List.getD_append_right _ _ _ _ (le_refl _)]; simp
    have e2 : boot.shape.getD pre.length 0 = n := by rw [hb]; simp
    rw [e1, e2]
    refine List.map_congr_left fun s _ => ?_
    show boot.get (insertAt _ _ (dropAt _ _)) = _
    rw [hbl, Nat.add_sub_cancel, dropAt_insertAt]
    congr 2
    simp [insertAt]
  unfold quantileRow
  rw [h1, h2, mapM_levels N _ _ hL]
  cases computeA N (elementsAlong jack pre.length m c) with
  | none => rfl
  | some a =>
    cases computeZ0 N v (elementsAlong boot pre.length n c) with
    | none => rfl
    | some z =>
      simp only
      cases alphas.mapM (bcaLevel N a z) <;> rfl

end Cmomy.Nd
