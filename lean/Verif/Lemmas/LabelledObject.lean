import Verif.Spec.LabelledObject
import Verif.Lemmas.LabelledPush
import Verif.Lemmas.ObjectIndex
import Verif.Props.Labelled

/-!
# Lemmas about labelled objects made from others
-/

set_option linter.unusedSectionVars false

namespace Cmomy.Labelled

open Spec ObjectIndex

variable {δ : Type} [DecidableEq δ] {α : Type}

/-! ## Selecting -/

theorem positions_pick {n : ℕ} {s : Sel} {l : List ℕ} (h : Positions n s l) :
    (∃ f, s.pick n = .ok (if isPosition s then none else some l.length, f) ∧
      ∀ j, (isPosition s = true ∨ j < l.length) → f j = l.getD (if isPosition s then 0 else j) 0) ∧
    (isPosition s = true → l.length = 1) ∧ ∀ p ∈ l, p < n := by
  cases s with
  | int z =>
    obtain ⟨h1, rfl⟩ := h
    refine ⟨⟨_, if_pos h1, fun j _ => by simp [isPosition, Nd.pyIdx_eq h1]⟩, fun _ => rfl, ?_⟩
    intro p hp
    rw [List.mem_singleton.1 hp]
    exact wrap_lt h1
  | slice a b c =>
    obtain ⟨r, hr⟩ := sliceIndices_ok (n := n) (start := a) (stop := b) (step := c) h.1
    have e := Spec.IsSlice.unique h (sliceIndices_isSlice hr)
    have hl : l.length = r.2.1 := by rw [e]; simp
    refine ⟨⟨fun j => (r.1 + (j : ℤ) * r.2.2).toNat, ?_, ?_⟩, by simp [isPosition], h.lt⟩
    · simp only [Sel.pick, hr, isPosition]
      rw [hl]; rfl
    · intro j hj
      have hj : j < l.length := by simpa [isPosition] using hj
      have hj' : j < r.2.1 := by omega
      subst e
      simp [isPosition, List.getD_eq_getElem?_getD, hj']
  | list zs =>
    obtain ⟨h1, rfl⟩ := h
    refine ⟨⟨fun j => Nd.pyIdx n (zs.getD j 0), ?_, ?_⟩, by simp [isPosition], ?_⟩
    · have h1' : ∀ z ∈ zs, -(n : ℤ) ≤ z ∧ z < n := h1
      simp only [Sel.pick]
      rw [if_pos h1']
      simp [isPosition]
    · intro j hj
      have hj : j < zs.length := by simpa [isPosition] using hj
      have := Nd.pyIdx_eq (h1 _ (List.getElem_mem hj))
      simpa [isPosition, List.getD_eq_getElem?_getD, hj] using this
    · intro p hp
      obtain ⟨z, hz, rfl⟩ := List.mem_map.1 hp
      exact wrap_lt (h1 z hz)
  | mask bs =>
    obtain ⟨h1, h2, h3⟩ := h
    have e := eq_truePlaces h2 h3
    subst e
    refine ⟨⟨_, by simp only [Sel.pick]; rw [if_pos h1]; rfl, fun j _ => rfl⟩, by simp [isPosition], ?_⟩
    intro p hp
    have := (h3 p).1 hp
    rw [← h1]
    exact (List.getElem?_eq_some_iff.1 this).1

theorem pick_full (n : ℕ) : Sel.full.pick n = .ok (some n, id) := by
  simp only [Sel.pick, sliceIndices_full, Except.map]
  congr 2
  funext j
  simp

theorem lookup_mem {sel : List (δ × Sel)} (hn : (sel.map Prod.fst).Nodup) {d : δ} {s : Sel}
    (h : (d, s) ∈ sel) : sel.lookup d = some s := by
  induction sel with
  | nil => simp at h
  | cons p sel ih =>
    obtain ⟨e, t⟩ := p
    rw [List.map_cons, List.nodup_cons] at hn
    rcases List.mem_cons.1 h with h | h
    · cases h
      simp [List.lookup]
    · have hne : d ≠ e := by
        rintro rfl
        exact hn.1 (List.mem_map.2 ⟨(d, s), ‹(d, s) ∈ sel›, rfl⟩)
      rw [List.lookup_cons, beq_false_of_ne hne]
      exact ih hn.2 h

theorem lookup_none {sel : List (δ × Sel)} {d : δ} (h : d ∉ sel.map Prod.fst) :
    sel.lookup d = none := by
  induction sel with
  | nil => rfl
  | cons p sel ih =>
    obtain ⟨e, t⟩ := p
    rw [List.map_cons, List.mem_cons, not_or] at h
    rw [List.lookup_cons, beq_false_of_ne h.1]
    exact ih h.2

theorem drops_mem {sel : List (δ × Sel)} (hn : (sel.map Prod.fst).Nodup) {d : δ} {s : Sel}
    (h : (d, s) ∈ sel) : drops sel d = isPosition s := by
  unfold drops
  rw [Bool.eq_iff_iff, List.any_eq_true]
  constructor
  · rintro ⟨⟨e, t⟩, hp, hq⟩
    simp only [Bool.and_eq_true, decide_eq_true_eq] at hq
    obtain ⟨rfl, hq⟩ := hq
    have h1 := lookup_mem hn hp
    rw [lookup_mem hn h] at h1
    cases h1
    exact hq
  · intro hs
    exact ⟨_, h, by simpa using hs⟩

theorem drops_none {sel : List (δ × Sel)} {d : δ} (h : d ∉ sel.map Prod.fst) :
    drops sel d = false := by
  unfold drops
  rw [List.any_eq_false]
  rintro ⟨e, t⟩ hp hq
  simp only [Bool.and_eq_true, decide_eq_true_eq] at hq
  exact h (List.mem_map.2 ⟨_, hp, hq.1⟩)

theorem isel_ok (obj : DataArray δ α) {sel : List (δ × Sel)} {pos : δ → List ℕ}
    (g : GoodSel obj sel pos) : ∃ y, obj.isel sel = .ok y ∧
      y.dims = obj.dims.filter (fun d => ! drops sel d) ∧
      (∀ d ∈ y.dims, y.size d = if d ∈ sel.map Prod.fst then (pos d).length else obj.size d) ∧
      ∀ c, (∀ d ∈ y.dims, d ∈ sel.map Prod.fst → c d < (pos d).length) →
        entry y c = entry obj (takenAt sel pos c) := by
  have hex : ∀ d, ∃ r : Option ℕ × (ℕ → ℕ), d ∈ obj.dims →
      ((sel.lookup d).getD .full).pick (obj.size d) = .ok r ∧
      r.1 = (if drops sel d then none
        else some (if d ∈ sel.map Prod.fst then (pos d).length else obj.size d)) ∧
      ∀ c : δ → ℕ, (drops sel d = false → d ∈ sel.map Prod.fst → c d < (pos d).length) →
        r.2 (if drops sel d then 0 else c d) = takenAt sel pos c d := by
    intro d
    by_cases hk : d ∈ sel.map Prod.fst
    · obtain ⟨⟨e, s⟩, hp, rfl⟩ := List.mem_map.1 hk
      obtain ⟨⟨f, hf, hj⟩, -, -⟩ := positions_pick (g.positions _ hp)
      refine ⟨_, fun _ => ⟨by rw [lookup_mem g.distinct hp]; exact hf, ?_, ?_⟩⟩
      · simp only [drops_mem g.distinct hp, if_pos hk]
      · intro c hc
        rw [drops_mem g.distinct hp] at hc ⊢
        unfold takenAt
        rw [if_pos hk, drops_mem g.distinct hp]
        cases hs : isPosition s with
        | true => simpa [hs] using hj 0 (.inl hs)
        | false => simpa [hs] using hj (c e) (.inr (hc hs hk))
    · refine ⟨(some (obj.size d), id), fun _ => ⟨?_, ?_, ?_⟩⟩
      · rw [lookup_none hk]; exact pick_full _
      · simp [drops_none hk, hk]
      · intro c _
        simp [drops_none hk, takenAt, hk]
  choose r hr using hex
  have hm : obj.dims.mapM (fun d => ((sel.lookup d).getD .full).pick (obj.size d))
      = .ok (obj.dims.map r) := Nd.mapM_ok_of_forall _ _ _ fun d hd => (hr d hd).1
  have hget : ∀ d ∈ obj.dims, (obj.dims.map r).getD (obj.dims.idxOf d) (none, id) = r d := by
    intro d hd
    have := List.idxOf_lt_length_iff.2 hd
    simp [List.getD_eq_getElem?_getD, this]
  have hdims : obj.dims.filter (fun d => ((obj.dims.map r).getD (obj.dims.idxOf d) (none, id)).1.isSome)
      = obj.dims.filter (fun d => ! drops sel d) := by
    refine List.filter_congr fun d hd => ?_
    rw [hget d hd, (hr d hd).2.1]
    cases drops sel d <;> simp
  unfold DataArray.isel
  rw [if_neg (by simpa using fun d s hp => g.present _ hp), hm]
  refine ⟨_, rfl, ?_, ?_, ?_⟩
  · exact hdims
  · intro d hd
    have hd : d ∈ obj.dims.filter (fun d => ! drops sel d) := by rw [← hdims]; exact hd
    rw [List.mem_filter] at hd
    show ((obj.dims.map r).getD (obj.dims.idxOf d) (none, id)).1.getD 0 = _
    rw [hget d hd.1, (hr d hd.1).2.1]
    have : drops sel d = false := by simpa using hd.2
    simp [this]
  · intro c hc
    unfold entry
    refine congrArg obj.data (List.map_congr_left fun d hd => ?_)
    simp only
    rw [hget d hd]
    simp only [hdims] at hc ⊢
    rw [← (hr d hd).2.2 c fun h1 h2 => hc d (List.mem_filter.2 ⟨hd, by simp [h1]⟩) h2]
    congr 1
    cases h : drops sel d with
    | true =>
      rw [List.getD_eq_getElem?_getD, List.idxOf_of_notMem (by simp [List.mem_filter, h])]
      simp
    | false =>
      have := List.idxOf_lt_length_iff.2
        (show d ∈ obj.dims.filter (fun d => ! drops sel d) from List.mem_filter.2 ⟨hd, by simp [h]⟩)
      rw [List.getD_eq_getElem?_getD, List.getElem?_map, List.getElem?_eq_getElem this]
      simp

theorem checkLike_ok {moms : List δ} {self y : DataArray δ α} (hp : ∀ d ∈ moms, d ∈ y.dims)
    (hs : ∀ d ∈ moms, y.size d = self.size d) : checkLike moms self y = .ok y := by
  unfold checkLike
  rw [if_neg (by simpa using hp), if_neg (by simpa using hs)]

theorem newLikeX_ok {moms : List δ} {self y : DataArray δ α} (hp : ∀ d ∈ moms, d ∈ y.dims)
    (hs : ∀ d ∈ moms, y.size d = self.size d) (h2 : ∀ d ∈ moms, 2 ≤ self.size d) :
    newLikeX moms self y = .ok y := by
  unfold newLikeX
  rw [checkLike_ok hp hs]
  show constructX moms y = _
  unfold constructX
  rw [if_neg (by simpa using hp), if_neg]
  rintro ⟨d, hd, h⟩
  have := h2 d hd
  rw [hs d hd] at h
  omega

theorem checkLike_fails {moms : List δ} {self y : DataArray δ α}
    (h : ∃ d ∈ moms, d ∉ y.dims ∨ y.size d ≠ self.size d) :
    checkLike moms self y = .error .valueError := by
  unfold checkLike
  split_ifs with h1 h2
  · rfl
  · rfl
  · exfalso
    obtain ⟨d, hd, h | h⟩ := h
    · exact h1 ⟨d, hd, h⟩
    · exact h2 fun e => h (List.map_inj_left.1 e d hd)

theorem newLikeX_fails {moms : List δ} {self y : DataArray δ α}
    (h : ∃ d ∈ moms, d ∉ y.dims ∨ y.size d ≠ self.size d) :
    newLikeX moms self y = .error .valueError := by
  unfold newLikeX
  rw [checkLike_fails h]
  rfl

theorem isel_keeps {obj : DataArray δ α} {moms : List δ} {nd : ℕ} (g : LabelledObject obj moms nd)
    {sel : List (δ × Sel)} {pos : δ → List ℕ} (hk : KeepsMoments obj moms sel pos)
    {y : DataArray δ α} (h1 : y.dims = obj.dims.filter (fun d => ! drops sel d))
    (h2 : ∀ d ∈ y.dims, y.size d = if d ∈ sel.map Prod.fst then (pos d).length else obj.size d) :
    (∀ d ∈ moms, d ∈ y.dims) ∧ ∀ d ∈ moms, y.size d = obj.size d := by
  have hp : ∀ d ∈ moms, d ∈ y.dims := by
    intro d hd
    rw [h1, List.mem_filter]
    refine ⟨g.momPresent d hd, ?_⟩
    by_cases h : d ∈ sel.map Prod.fst
    · simp [(hk d hd h).1]
    · simp [drops_none h]
  refine ⟨hp, fun d hd => ?_⟩
  rw [h2 d (hp d hd)]
  split_ifs with h
  · exact (hk d hd h).2
  · rfl

theorem takenAt_lt {obj : DataArray δ α} {sel : List (δ × Sel)} {pos : δ → List ℕ}
    (gs : GoodSel obj sel pos) {c : δ → ℕ} {d : δ}
    (hc : drops sel d = false →
      c d < if d ∈ sel.map Prod.fst then (pos d).length else obj.size d) :
    takenAt sel pos c d < obj.size d := by
  unfold takenAt
  by_cases hk : d ∈ sel.map Prod.fst
  · rw [if_pos hk] at hc ⊢
    obtain ⟨⟨e, s⟩, hp, rfl⟩ := List.mem_map.1 hk
    obtain ⟨-, h1, h2⟩ := positions_pick (gs.positions _ hp)
    have key : ∀ j < (pos e).length, (pos e).getD j 0 < obj.size e := by
      intro j hj
      rw [List.getD_eq_getElem?_getD, List.getElem?_eq_getElem hj]
      exact h2 _ (List.getElem_mem hj)
    split_ifs with hd
    · rw [drops_mem gs.distinct hp] at hd
      exact key 0 (by rw [h1 hd]; omega)
    · exact key _ (hc (by simpa using hd))
  · rw [if_neg hk] at hc ⊢
    exact hc (drops_none hk)

theorem cells_isel {obj : DataArray δ α} {moms : List δ} {nd : ℕ} (g : LabelledObject obj moms nd)
    {sel : List (δ × Sel)} {pos : δ → List ℕ} (gs : GoodSel obj sel pos)
    (hm : ∀ p ∈ sel, p.1 ∉ moms)
    {y : DataArray δ α} (h1 : y.dims = obj.dims.filter (fun d => ! drops sel d))
    (h2 : ∀ d ∈ y.dims, y.size d = if d ∈ sel.map Prod.fst then (pos d).length else obj.size d)
    (h3 : ∀ c, (∀ d ∈ y.dims, d ∈ sel.map Prod.fst → c d < (pos d).length) →
        entry y c = entry obj (takenAt sel pos c)) :
    CellsNamed y obj moms nd (takenAt sel pos) := by
  have hmk : ∀ d ∈ moms, d ∉ sel.map Prod.fst := by
    intro d hd hk
    obtain ⟨p, hp, rfl⟩ := List.mem_map.1 hk
    exact hm p hp hd
  have hk : KeepsMoments obj moms sel pos := fun d hd h => absurd h (hmk d hd)
  obtain ⟨hp, hs⟩ := isel_keeps g hk h1 h2
  refine ⟨⟨by rw [h1]; exact g.distinct.filter _, g.momDistinct, hp, g.momCount⟩, hs, ?_, ?_⟩
  · intro c hc d hd
    have hd' := (List.mem_filter.1 hd)
    refine takenAt_lt gs fun hdr => ?_
    have hy : d ∈ y.dims := by rw [h1, List.mem_filter]; exact ⟨hd'.1, by simp [hdr]⟩
    rw [← h2 d hy]
    exact hc d (List.mem_filter.2 ⟨hy, hd'.2⟩)
  · intro c hc ms
    rw [h3]
    · refine entry_congr _ fun d _ => ?_
      by_cases hd : d ∈ moms
      · unfold takenAt withNames
        rw [if_neg (hmk d hd), if_pos hd, if_pos hd]
      · unfold takenAt withNames
        simp only [if_neg hd]
    · intro d hd hdk
      have hdm : d ∉ moms := fun h => hmk d h hdk
      unfold withNames
      rw [if_neg hdm]
      have := hc d (List.mem_filter.2 ⟨hd, by simpa using hdm⟩)
      rwa [h2 d hd, if_pos hdk] at this

theorem pick_fails {n : ℕ} {s : Sel} (h : ¬ ∃ l, Positions n s l) :
    s.pick n = .error (match s with | .slice .. => .valueError | _ => .indexError) := by
  cases s with
  | int z =>
    refine if_neg fun hz => h ⟨_, hz, rfl⟩
  | slice a b c =>
    have hc : c = some 0 := by
      by_contra hc
      obtain ⟨r, hr⟩ := sliceIndices_ok (n := n) (start := a) (stop := b) (step := c) hc
      exact h ⟨_, sliceIndices_isSlice hr⟩
    subst hc
    rfl
  | list zs => exact if_neg fun hz => h ⟨_, hz, rfl⟩
  | mask bs =>
    exact if_neg fun hz => h ⟨_, hz, truePlaces_sorted bs, mem_truePlaces bs⟩

theorem mapM_congr {A B : Type} {f f' : A → Py B} {l : List A} (h : ∀ a ∈ l, f a = f' a) :
    l.mapM f = l.mapM f' := by
  induction l with
  | nil => rfl
  | cons a l ih =>
    rw [List.mapM_cons, List.mapM_cons, h a (by simp), ih fun b hb => h b (by simp [hb])]

theorem isel_congr {obj : DataArray δ α} {sel sel' : List (δ × Sel)}
    (h1 : ∀ p ∈ sel, p.1 ∈ obj.dims) (h1' : ∀ p ∈ sel', p.1 ∈ obj.dims)
    (h : ∀ d ∈ obj.dims, (sel.lookup d).getD .full = (sel'.lookup d).getD .full) :
    obj.isel sel = obj.isel sel' := by
  unfold DataArray.isel
  rw [if_neg (by simpa using fun d s hp => h1 _ hp), if_neg (by simpa using fun d s hp => h1' _ hp)]
  congr 1
  exact mapM_congr fun d hd => by rw [h d hd]

theorem lookup_zip {dims : List δ} (hd : dims.Nodup) (ks : List Sel) {i : ℕ} (hi : i < dims.length) :
    (dims.zip ks).lookup dims[i] = ks[i]? := by
  induction dims generalizing ks i with
  | nil => simp at hi
  | cons d dims ih =>
    rw [List.nodup_cons] at hd
    cases ks with
    | nil => simp
    | cons k ks =>
      rw [List.zip_cons_cons, List.lookup_cons]
      cases i with
      | zero => simp
      | succ i =>
        have hi' : i < dims.length := by simpa using hi
        have : dims[i] ≠ d := fun e => hd.1 (e ▸ List.getElem_mem hi')
        rw [List.getElem_cons_succ, beq_false_of_ne this, List.getElem?_cons_succ]
        exact ih hd.2 ks hi'

theorem lookup_keyPairs {dims : List δ} (hd : dims.Nodup) {front back : List Sel}
    (hl : front.length + back.length ≤ dims.length) {i : ℕ} (hi : i < dims.length) :
    ((keyPairs dims front back).lookup dims[i]).getD .full =
      (front ++ List.replicate (dims.length - front.length - back.length) .full ++ back)[i]?.getD .full := by
  unfold keyPairs
  rw [List.lookup_append, lookup_zip hd _ hi]
  set m := dims.length - front.length - back.length with hm
  by_cases h1 : i < front.length
  · rw [List.append_assoc, List.getElem?_append_left h1, List.getElem?_eq_getElem h1]
    rfl
  · rw [List.getElem?_eq_none (by omega), Option.none_or]
    by_cases h2 : dims.length - back.length ≤ i
    · have hi' : i - (dims.length - back.length) < (dims.drop (dims.length - back.length)).length := by
        rw [List.length_drop]; omega
      have e : dims[i] = (dims.drop (dims.length - back.length))[i - (dims.length - back.length)] := by
        rw [List.getElem_drop]
        congr 1
        omega
      rw [e, lookup_zip (hd.sublist (List.drop_sublist _ _)) _ hi', List.getElem?_append_right
        (by simp; omega)]
      congr 2
      simp only [List.length_append, List.length_replicate]
      omega
    · rw [lookup_none, List.append_assoc, List.getElem?_append_right (by omega),
        List.getElem?_append_left (by simp; omega), List.getElem?_replicate]
      · split_ifs <;> rfl
      · intro h
        obtain ⟨⟨e, t⟩, hp, he⟩ := List.mem_map.1 h
        have hmem := (List.of_mem_zip hp).1
        simp only at he
        subst he
        rw [List.mem_drop_iff_getElem] at hmem
        obtain ⟨j, hj, he⟩ := hmem
        have := (List.Nodup.getElem_inj_iff hd).1 he
        omega

theorem keyPairs_fst {dims : List δ} {front back : List Sel}
    (hl : front.length + back.length ≤ dims.length) :
    (keyPairs dims front back).map Prod.fst =
      dims.take front.length ++ dims.drop (dims.length - back.length) := by
  unfold keyPairs
  rw [List.map_append]
  congr 1
  · have hl' : front.length ≤ dims.length := by omega
    clear hl
    induction front generalizing dims with
    | nil => simp
    | cons k front ih =>
      cases dims with
      | nil => simp at hl'
      | cons d dims => simpa using ih (by simpa using hl')
  · rw [List.map_fst_zip]
    rw [List.length_drop]
    omega

theorem keyPairs_distinct {dims : List δ} (hd : dims.Nodup) {front back : List Sel}
    (hl : front.length + back.length ≤ dims.length) :
    ((keyPairs dims front back).map Prod.fst).Nodup := by
  rw [keyPairs_fst hl]
  refine hd.sublist ?_
  conv_rhs => rw [← List.take_append_drop front.length dims]
  refine List.Sublist.append (List.Sublist.refl _) ?_
  rw [show dims.length - back.length = front.length + (dims.length - back.length - front.length) by
    omega, ← List.drop_drop]
  exact List.drop_sublist _ _

theorem keyPairs_present {dims : List δ} {front back : List Sel} :
    ∀ p ∈ keyPairs dims front back, p.1 ∈ dims := by
  rintro ⟨d, s⟩ hp
  rcases List.mem_append.1 hp with h | h
  · exact (List.of_mem_zip h).1
  · exact List.mem_of_mem_drop (List.of_mem_zip h).1

theorem isel_expanded {obj : DataArray δ α} (hd : obj.dims.Nodup) {front back : List Sel}
    (hl : front.length + back.length ≤ obj.dims.length) :
    obj.isel (obj.dims.zip (front ++
      List.replicate (obj.dims.length - front.length - back.length) .full ++ back))
      = obj.isel (keyPairs obj.dims front back) := by
  refine isel_congr (fun p hp => (List.of_mem_zip hp).1) keyPairs_present fun d hmem => ?_
  obtain ⟨i, hi, rfl⟩ := List.getElem_of_mem hmem
  rw [lookup_keyPairs hd hl hi, lookup_zip hd _ hi]

theorem expandedIndexer_ellipsis {n : ℕ} {front back : List Sel} :
    expandedIndexer n (front.map some ++ none :: back.map some) =
      if front.length + back.length ≤ n then
        .ok (front ++ List.replicate (n - front.length - back.length) .full ++ back)
      else .error .indexError := by
  have hi : (front.map some ++ none :: back.map some).idxOf none = front.length := by
    rw [List.idxOf_append_of_notMem (by simp), List.idxOf_cons_self]
    simp
  have hm : ∀ l : List Sel, (l.map some).map (fun o : Option Sel => o.getD .full) = l := by
    intro l
    rw [List.map_map]
    exact List.map_id _
  unfold expandedIndexer
  have hin : none ∈ front.map some ++ none :: back.map some := by simp
  simp only [hi, if_pos hin]
  rw [List.take_left' (by simp), show (front.map some ++ none :: back.map some).drop
    (front.length + 1) = back.map some by
      rw [← List.drop_drop, List.drop_left' (by simp)]; rfl, hm, hm]
  have hn : n + 1 - (front.map some ++ none :: back.map some).length = n - front.length - back.length := by
    simp; omega
  rw [hn]
  by_cases hl : front.length + back.length ≤ n
  · rw [if_pos hl, if_neg (by simp; omega), show n - (front ++ List.replicate (n - front.length -
      back.length) Sel.full ++ back).length = 0 by simp; omega]
    simp
  · rw [if_neg hl, if_pos (by simp; omega)]

theorem expandedIndexer_plain {n : ℕ} {front : List Sel} :
    expandedIndexer n (front.map some) =
      if front.length ≤ n then .ok (front ++ List.replicate (n - front.length) .full)
      else .error .indexError := by
  have hm : (front.map some).map (fun o : Option Sel => o.getD .full) = front := by
    rw [List.map_map]
    exact List.map_id _
  unfold expandedIndexer
  have hin : none ∉ front.map some := by simp
  simp only [if_neg hin, hm]
  by_cases hl : front.length ≤ n
  · rw [if_pos hl, if_neg (by omega)]
  · rw [if_neg hl, if_pos (by omega)]

/-! ## Dimensions -/

theorem infix_middle {dims A B : List δ} (hd : dims.Nodup) (h : ∀ d ∈ A ++ B, d ∈ dims) :
    infixDims (A.map some ++ none :: B.map some) dims = .ok (middle dims A B) := by
  have hex : (A.map some ++ none :: B.map some).filter (fun o : Option δ => o.all (fun d => decide (d ∈ dims)))
      = A.map some ++ none :: B.map some := by
    rw [List.filter_eq_self]
    intro o ho
    cases o with
    | none => rfl
    | some d =>
      have : d ∈ A ++ B := by simpa using ho
      simpa using h d this
  have hf : ∀ (l other : List δ), (l.map some).flatMap (fun o : Option δ => o.elim other (fun d => [d])) = l := by
    intro l other
    induction l with
    | nil => rfl
    | cons d l ih => simpa using ih
  unfold infixDims
  simp only [hex]
  rw [if_pos (by simp), if_neg]
  · rw [List.flatMap_append, List.flatMap_cons, hf, hf]
    unfold middle
    simp
  · rintro (h | h)
    · exact h hd
    · rw [List.count_append, List.count_cons_self, List.count_eq_zero.2 (by simp),
        List.count_eq_zero.2 (by simp)] at h
      omega

theorem infix_all {dims A : List δ} (h : A.Perm dims) : infixDims (A.map some) dims = .ok A := by
  have hex : (A.map some).filter (fun o : Option δ => o.all (fun d => decide (d ∈ dims)))
      = A.map some := by
    rw [List.filter_eq_self]
    intro o ho
    obtain ⟨d, hd, rfl⟩ := List.mem_map.1 ho
    simpa using h.mem_iff.1 hd
  unfold infixDims
  simp only [hex]
  rw [if_neg (by simp)]
  simp only [List.filterMap_map, Function.comp_def, id, List.filterMap_some]
  rw [if_pos]
  rw [Bool.and_eq_true, List.all_eq_true, List.all_eq_true]
  exact ⟨fun d hd => by simpa using h.mem_iff.1 hd, fun d hd => by simpa using h.mem_iff.2 hd⟩

theorem middle_perm {dims A B : List δ} (hd : dims.Nodup) (h : ∀ d ∈ A ++ B, d ∈ dims)
    (hn : (A ++ B).Nodup) : (middle dims A B).Perm dims := by
  have h1 : (middle dims A B).Perm (dims.filter (fun d => decide (d ∉ A ++ B)) ++ (A ++ B)) := by
    unfold middle
    rw [List.append_assoc]
    refine List.perm_append_comm.trans ?_
    rw [List.append_assoc]
    exact List.Perm.append_left _ List.perm_append_comm
  refine h1.trans ((List.perm_ext_iff_of_nodup ?_ hd).2 fun d => mem_filter_append h d)
  rw [List.nodup_append]
  refine ⟨hd.filter _, hn, fun a ha b hb hab => ?_⟩
  rw [List.mem_filter] at ha
  subst hab
  simp only [decide_eq_true_eq] at ha
  exact ha.2 hb

theorem transposeStrict_ok {x : DataArray δ α} (hx : x.dims.Nodup) {supplied : List (Option δ)}
    {ds : List δ} (hne : supplied ≠ []) (hin : ∀ d ∈ supplied.filterMap id, d ∈ x.dims)
    (hi : infixDims supplied x.dims = .ok ds) (hp : ds.Perm x.dims) :
    ∃ y, x.transposeStrict supplied = .ok y ∧ y.dims = ds ∧ y.size = x.size ∧
      ∀ c, entry y c = entry x c := by
  unfold DataArray.transposeStrict DataArray.step transpose
  rw [if_neg (by simpa using hin)]
  simp only [if_neg hne, hi]
  rw [if_pos (hp.nodup_iff.2 hx)]
  exact ⟨_, rfl, rfl, rfl, fun c => (values_transpose x.toArr hx hp c).symm⟩

theorem cells_same {obj : DataArray δ α} {moms : List δ} {nd : ℕ} (g : LabelledObject obj moms nd)
    {y : DataArray δ α} (hp : y.dims.Perm obj.dims) (hs : y.size = obj.size)
    (he : ∀ c, entry y c = entry obj c) : CellsNamed y obj moms nd id :=
  ⟨⟨hp.nodup_iff.2 g.distinct, g.momDistinct, fun d hd => hp.mem_iff.2 (g.momPresent d hd),
    g.momCount⟩, fun d _ => by rw [hs], fun c hc d hd => by
      rw [← hs]
      exact hc d (((hp.filter _).mem_iff).2 hd), fun c _ ms => he _⟩

theorem getElem?_flatMap_blocks {A : Type} {F : ℕ → List A} {L : ℕ} :
    ∀ (m : ℕ), (∀ s < m, (F s).length = L) → ∀ j < m * L,
      ((List.range m).flatMap F)[j]? = (F (j / L))[j % L]? := by
  intro m
  induction m with
  | zero => intro _ j hj; omega
  | succ m ih =>
    intro hF j hj
    have hlen : ((List.range m).flatMap F).length = m * L := by
      rw [List.length_flatMap, List.map_congr_left (g := fun _ => L)
        (fun s hs => hF s (by have := List.mem_range.1 hs; omega))]
      simp
    have hL : 0 < L := by
      rcases Nat.eq_zero_or_pos L with h | h
      · rw [h] at hj; omega
      · exact h
    rw [List.range_succ, List.flatMap_append]
    by_cases h : j < m * L
    · rw [List.getElem?_append_left (by omega)]
      exact ih (fun s hs => hF s (by omega)) j h
    · rw [List.getElem?_append_right (by omega), hlen]
      have h1 : j < m * L + L := by rw [Nat.succ_mul] at hj; exact hj
      have e : j = (j - m * L) + L * m := by rw [Nat.mul_comm L m]; omega
      have e1 : j / L = m := by
        rw [e, Nat.add_mul_div_left _ _ hL, Nat.div_eq_of_lt (by omega), Nat.zero_add]
      have e2 : j % L = j - m * L := by
        conv_lhs => rw [e]
        rw [Nat.add_mul_mod_self_left, Nat.mod_eq_of_lt (by omega)]
      rw [e1, e2]
      simp

theorem length_allCoords (size : δ → ℕ) (ds : List δ) (c : δ → ℕ) :
    (allCoords size ds c).length = (ds.map size).prod := by
  induction ds generalizing c with
  | nil => rfl
  | cons d ds ih =>
    simp only [allCoords, List.length_flatMap, ih, List.map_cons, List.prod_cons]
    simp

theorem allCoords_getElem? (size : δ → ℕ) {ds : List δ} (hn : ds.Nodup) (c : δ → ℕ) {j : ℕ}
    (hj : j < (ds.map size).prod) :
    (allCoords size ds c)[j]? = some (fun d =>
      if d ∈ ds then (unravel (ds.map size) j).getD (ds.idxOf d) 0 else c d) := by
  induction ds generalizing c j with
  | nil =>
    have : j = 0 := by simpa using hj
    subst this
    simp [allCoords]
  | cons d ds ih =>
    rw [List.nodup_cons] at hn
    simp only [allCoords]
    rw [List.map_cons, List.prod_cons] at hj
    have hL : 0 < (ds.map size).prod := by
      rcases Nat.eq_zero_or_pos (ds.map size).prod with h | h
      · rw [h] at hj; omega
      · exact h
    rw [getElem?_flatMap_blocks _ (fun s _ => length_allCoords size ds _) j hj,
      ih hn.2 _ (Nat.mod_lt _ hL)]
    congr 1
    funext e
    by_cases he : e = d
    · subst he
      simp [hn.1, unravel]
    · simp only [List.mem_cons, he, false_or, List.map_cons, unravel,
        List.idxOf_cons_ne _ (Ne.symm he), List.getD_cons_succ, Function.update_of_ne he]

theorem unstacked_apply {size : δ → ℕ} {ds : List δ} (hn : ds.Nodup) {new : δ} {c : δ → ℕ}
    (hj : c new < (ds.map size).prod) (d : δ) :
    unstacked size ds new c d =
      if d ∈ ds then (unravel (ds.map size) (c new)).getD (ds.idxOf d) 0 else c d := by
  unfold unstacked
  rw [List.getD_eq_getElem?_getD, allCoords_getElem? size hn c hj]
  rfl

theorem unravel_lt {sizes : List ℕ} {j : ℕ} (hj : j < sizes.prod) {i : ℕ} (hi : i < sizes.length) :
    (unravel sizes j).getD i 0 < sizes.getD i 0 := by
  induction sizes generalizing i j with
  | nil => simp at hi
  | cons n ns ih =>
    rw [List.prod_cons] at hj
    have hL : 0 < ns.prod := by
      rcases Nat.eq_zero_or_pos ns.prod with h | h
      · rw [h] at hj; omega
      · exact h
    cases i with
    | zero => simpa [unravel] using (Nat.div_lt_iff_lt_mul hL).2 hj
    | succ i => simpa [unravel] using ih (Nat.mod_lt _ hL) (by simpa using hi)

theorem stack_ok {x : DataArray δ α} {ds : List δ} {new : δ} (hne : ds ≠ []) (hn : ds.Nodup)
    (hp : ∀ d ∈ ds, d ∈ x.dims) (hnew : new ∉ x.dims) :
    ∃ y, x.stack new ds = .ok y ∧ y.dims = x.dims.filter (fun d => decide (d ∉ ds)) ++ [new] ∧
      y.size new = (ds.map x.size).prod ∧ (∀ d ∈ x.dims, y.size d = x.size d) ∧
      ∀ c, c new < (ds.map x.size).prod → entry y c = entry x (unstacked x.size ds new c) := by
  unfold DataArray.stack
  rw [if_neg (by simp [hne, hn]), if_neg (by simpa using hp), if_neg hnew]
  refine ⟨_, rfl, rfl, by simp, ?_, ?_⟩
  · intro d hd
    exact if_neg fun h : d = new => hnew (h ▸ hd)
  · intro c hc
    show x.data _ = x.data _
    refine congrArg x.data (List.map_congr_left fun d hd => ?_)
    rw [unstacked_apply hn hc]
    set others := x.dims.filter (fun d => decide (d ∉ ds)) with ho
    by_cases h : d ∈ ds
    · rw [if_pos h, if_pos h]
      congr 3
      simp [List.getD_eq_getElem?_getD]
    · rw [if_neg h, if_neg h]
      have hm : d ∈ others := List.mem_filter.2 ⟨hd, by simpa using h⟩
      have := List.idxOf_lt_length_iff.2 hm
      rw [List.map_append, List.getD_eq_getElem?_getD, List.getElem?_append_left (by simpa using this),
        List.getElem?_map, List.getElem?_eq_getElem this]
      simp

theorem cells_trans {x y z : DataArray δ α} {moms : List δ} {nd : ℕ} {f f' : (δ → ℕ) → δ → ℕ}
    (h : CellsNamed y x moms nd f) (h' : CellsNamed z y moms nd f') :
    CellsNamed z x moms nd (fun c => f (f' c)) :=
  ⟨h'.object, fun d hd => (h'.momSize d hd).trans (h.momSize d hd),
    fun c hc => h.source _ (h'.source c hc),
    fun c hc ms => (h'.cell c hc ms).trans (h.cell _ (h'.source c hc) ms)⟩

theorem cells_stack {obj : DataArray δ α} {moms : List δ} {nd : ℕ} (g : LabelledObject obj moms nd)
    {ds : List δ} {new : δ} (hn : ds.Nodup) (hp : ∀ d ∈ ds, d ∈ valDims obj moms)
    (hnew : new ∉ obj.dims) {y : DataArray δ α}
    (h1 : y.dims = obj.dims.filter (fun d => decide (d ∉ ds)) ++ [new])
    (h2 : y.size new = (ds.map obj.size).prod) (h3 : ∀ d ∈ obj.dims, y.size d = obj.size d)
    (h4 : ∀ c, c new < (ds.map obj.size).prod → entry y c = entry obj (unstacked obj.size ds new c)) :
    CellsNamed y obj moms nd (unstacked obj.size ds new) := by
  have hds : ∀ d ∈ ds, d ∈ obj.dims ∧ d ∉ moms := fun d hd => by
    simpa [valDims] using hp d hd
  have hnm : new ∉ moms := fun h => hnew (g.momPresent _ h)
  have hnv : new ∈ valDims y moms := by
    rw [valDims, List.mem_filter, h1]
    simp [hnm]
  refine ⟨⟨?_, g.momDistinct, ?_, g.momCount⟩, fun d hd => h3 d (g.momPresent d hd), ?_, ?_⟩
  · rw [h1, List.nodup_append]
    refine ⟨g.distinct.filter _, by simp, fun a ha b hb hab => ?_⟩
    rw [List.mem_singleton] at hb
    subst hb hab
    exact hnew (List.mem_filter.1 ha).1
  · intro d hd
    rw [h1, List.mem_append, List.mem_filter]
    exact .inl ⟨g.momPresent d hd, by simpa using fun h => (hds d h).2 hd⟩
  · intro c hc d hd
    have hcn := hc new hnv
    rw [h2] at hcn
    rw [unstacked_apply hn hcn]
    have hd' := List.mem_filter.1 hd
    split_ifs with h
    · have hi := List.idxOf_lt_length_iff.2 h
      have := unravel_lt hcn (i := ds.idxOf d) (by simpa using hi)
      rwa [List.getD_eq_getElem?_getD (l := ds.map obj.size), List.getElem?_map,
        List.getElem?_eq_getElem hi, List.getElem_idxOf] at this
    · rw [← h3 d hd'.1]
      refine hc d (List.mem_filter.2 ⟨?_, hd'.2⟩)
      rw [h1, List.mem_append, List.mem_filter]
      exact .inl ⟨hd'.1, by simpa using h⟩
  · intro c hc ms
    have hcn := hc new hnv
    rw [h2] at hcn
    have hw : withNames moms ms c new = c new := by
      unfold withNames
      rw [if_neg hnm]
    rw [h4 _ (by rw [hw]; exact hcn)]
    refine entry_congr _ fun d _ => ?_
    rw [unstacked_apply hn (by rw [hw]; exact hcn), hw]
    unfold withNames
    by_cases h : d ∈ moms
    · rw [if_neg (fun hd => (hds d hd).2 h), if_pos h, if_pos h]
    · rw [if_neg h, if_neg h, unstacked_apply hn hcn]

theorem cells_rename {obj : DataArray δ α} {moms : List δ} {nd : ℕ} (g : LabelledObject obj moms nd)
    {old new : δ} (ho : old ∈ valDims obj moms) (hnew : new ∉ obj.dims) :
    ∃ y, renameX obj old new = .ok y ∧ y.dims = renamed obj.dims old new ∧
      y.size new = obj.size old ∧ (∀ d ∈ obj.dims, y.size d = obj.size d) ∧
      CellsNamed y obj moms nd (fun c d => if d = old then c new else c d) := by
  obtain ⟨ho1, ho2⟩ : old ∈ obj.dims ∧ old ∉ moms := by simpa [valDims] using ho
  have hne : new ≠ old := fun h => hnew (h ▸ ho1)
  have hnm : new ∉ moms := fun h => hnew (g.momPresent _ h)
  have hmem : ∀ d ∈ obj.dims, d ≠ old → d ∈ renamed obj.dims old new := fun d hd h =>
    List.mem_map.2 ⟨d, hd, if_neg h⟩
  have hsz : ∀ d ∈ obj.dims, (if d = new then obj.size old else obj.size d) = obj.size d :=
    fun d hd => if_neg fun h : d = new => hnew (h ▸ hd)
  unfold renameX DataArray.rename
  rw [if_neg (by simpa using ho1), if_neg hne, if_neg hnew]
  refine ⟨_, rfl, rfl, if_pos rfl, hsz, ⟨⟨?_, g.momDistinct, ?_, g.momCount⟩, ?_, ?_, ?_⟩⟩
  · refine List.Nodup.map_on ?_ g.distinct
    intro a ha b hb hab
    split_ifs at hab with h1 h2 h2
    · rw [h1, h2]
    · exact absurd (hab ▸ hb) hnew
    · exact absurd (hab ▸ ha) hnew
    · exact hab
  · intro d hd
    exact hmem d (g.momPresent d hd) fun h => ho2 (h ▸ hd)
  · intro d hd
    exact hsz d (g.momPresent d hd)
  · intro c hc d hd
    have hd' := List.mem_filter.1 hd
    show (if d = old then c new else c d) < _
    split_ifs with h
    · subst h
      have := hc new (List.mem_filter.2 ⟨List.mem_map.2 ⟨d, ho1, if_pos rfl⟩, by simpa using hnm⟩)
      simpa using this
    · have := hc d (List.mem_filter.2 ⟨hmem d hd'.1 h, hd'.2⟩)
      simpa only [hsz d hd'.1] using this
  · intro c hc ms
    show obj.data _ = obj.data _
    rw [List.map_map]
    refine congrArg obj.data (List.map_congr_left fun d hd => ?_)
    unfold withNames
    by_cases h : d = old
    · subst h
      simp [hnm, ho2]
    · simp [h]

/-! ## Refusals -/

theorem step_fails {x : DataArray δ α} {f : Arr δ α → Py (Arr δ α)} {e : PyErr}
    (h : f x.toArr = .error e) : x.step f = .error e := by
  unfold DataArray.step
  rw [h]
  rfl

theorem transpose_fails {x : Arr δ α} {supplied : List (Option δ)} (hne : supplied ≠ []) {e : PyErr}
    (h : infixDims supplied x.dims = .error e) : transpose x supplied = .error e := by
  unfold transpose
  rw [if_neg hne, h]

theorem infix_missing {dims A : List δ} {d : δ} (hd : d ∈ dims) (hA : d ∉ A) :
    infixDims (A.map some) dims = .error .valueError := by
  unfold infixDims
  rw [if_neg (by simp)]
  simp only
  rw [if_neg]
  rw [Bool.and_eq_true, not_and]
  intro _ h
  rw [List.all_eq_true] at h
  have := h d hd
  simp [hA] at this

theorem names_sublist (l : List (Option δ)) (other : List δ) :
    (l.filterMap id).Sublist (l.flatMap (fun o => o.elim other (fun d => [d]))) := by
  induction l with
  | nil => simp
  | cons o l ih =>
    cases o with
    | none => simpa using ih.trans (List.sublist_append_right _ _)
    | some d => simpa using ih

theorem transpose_repeated {x : Arr δ α} {supplied : List (Option δ)} (hne : supplied ≠ [])
    (hin : ∀ d, some d ∈ supplied → d ∈ x.dims) (hn : ¬ (supplied.filterMap id).Nodup) :
    transpose x supplied = .error .valueError := by
  have hex : supplied.filter (fun o : Option δ => o.all (fun d => decide (d ∈ x.dims))) = supplied := by
    rw [List.filter_eq_self]
    intro o ho
    cases o with
    | none => rfl
    | some d => simpa using hin d ho
  unfold transpose
  rw [if_neg hne]
  unfold infixDims
  simp only [hex]
  split_ifs with h1 h2 h3
  · rfl
  · simp only
    rw [if_neg fun h => hn (h.sublist (names_sublist _ _))]
  · simp only
    rw [if_neg hn]
  · rfl

theorem transposeX_absent {x : DataArray δ α} {moms : List δ} {self : DataArray δ α} {d : δ}
    {supplied : List (Option δ)} (hs : some d ∈ supplied) (hd : d ∉ x.dims) :
    (x.transposeStrict supplied).bind (newLikeX moms self) = .error .valueError := by
  unfold DataArray.transposeStrict
  rw [if_pos ⟨d, List.mem_filterMap.2 ⟨_, hs, rfl⟩, hd⟩]
  rfl

theorem isel_dims {x y : DataArray δ α} {sel : List (δ × Sel)} (h : x.isel sel = .ok y) :
    ∀ d ∈ y.dims, d ∈ x.dims := by
  unfold DataArray.isel at h
  split_ifs at h
  cases hm : x.dims.mapM (fun d => ((sel.lookup d).getD .full).pick (x.size d)) with
  | error e => rw [hm] at h; cases h
  | ok r =>
    rw [hm] at h
    cases h
    exact fun d hd => (List.mem_filter.1 hd).1

end Cmomy.Labelled
