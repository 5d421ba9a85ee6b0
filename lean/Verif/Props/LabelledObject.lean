import Verif.Lemmas.LabelledObject
import Verif.Props.LabelledPush
import Verif.Props.ObjectCollect

/-!
# C65: rearranging, selecting from and converting labelled objects

An object is its labelled array with the names `moms` of its moment dimensions; `valDims obj moms` are its
other dimensions. `CellsNamed out obj moms nd f`: `out` is an object whose cell at the coordinates `c` is
the cell of `obj` at `f c`.
-/

set_option linter.unusedSectionVars false

namespace Cmomy

open Spec Labelled

section General

variable {δ : Type} [DecidableEq δ] {α : Type} {obj : DataArray δ α} {moms : List δ} {nd : ℕ}

/-! ## Selecting by position -/

/-- **C65** `isel` along dimensions that are no moment dimensions: an object with the cells selected. A
dimension with a single position is dropped, the order of the others stays. -/
theorem C65_isel (g : LabelledObject obj moms nd) (h2 : ∀ d ∈ moms, 2 ≤ obj.size d)
    {sel : List (δ × Sel)} {pos : δ → List ℕ} (gs : GoodSel obj sel pos) (hm : ∀ p ∈ sel, p.1 ∉ moms) :
    ∃ out, iselX moms obj sel = .ok out ∧ out.dims = obj.dims.filter (fun d => ! drops sel d) ∧
      (∀ d ∈ out.dims, out.size d = if d ∈ sel.map Prod.fst then (pos d).length else obj.size d) ∧
      CellsNamed out obj moms nd (takenAt sel pos) := by
  obtain ⟨y, h, e1, e2, e3⟩ := isel_ok obj gs
  have hc := cells_isel g gs hm e1 e2 e3
  refine ⟨y, ?_, e1, e2, hc⟩
  unfold iselX
  rw [h]
  exact newLikeX_ok hc.object.momPresent hc.momSize h2

/-- **C65** `isel` along any dimensions, as long as every moment dimension is kept with its size: the
entries selected, by name. Whether the moments are still in their places is not checked. -/
theorem C65_isel_entries (g : LabelledObject obj moms nd) (h2 : ∀ d ∈ moms, 2 ≤ obj.size d)
    {sel : List (δ × Sel)} {pos : δ → List ℕ} (gs : GoodSel obj sel pos)
    (hk : KeepsMoments obj moms sel pos) :
    ∃ out, iselX moms obj sel = .ok out ∧
      ShowsNamed out (obj.dims.filter (fun d => ! drops sel d))
        (fun d => if d ∈ sel.map Prod.fst then (pos d).length else obj.size d)
        (fun c => entry obj (takenAt sel pos c)) := by
  obtain ⟨y, h, e1, e2, e3⟩ := isel_ok obj gs
  obtain ⟨k1, k2⟩ := isel_keeps g hk e1 e2
  refine ⟨y, ?_, e1, e1 ▸ e2, fun c hc => e3 c fun d hd hs => ?_⟩
  · unfold iselX
    rw [h]
    exact newLikeX_ok k1 k2 h2
  · have := hc d (e1 ▸ hd)
    rwa [if_pos hs] at this

/-- **C65** A selection that drops a moment dimension or changes its size is refused. -/
theorem C65_isel_moments_refused {sel : List (δ × Sel)} {pos : δ → List ℕ} (gs : GoodSel obj sel pos)
    {d : δ} (hd : d ∈ moms) (hs : d ∈ sel.map Prod.fst)
    (h : drops sel d = true ∨ (pos d).length ≠ obj.size d) :
    iselX moms obj sel = .error .valueError := by
  obtain ⟨y, e, e1, e2, e3⟩ := isel_ok obj gs
  unfold iselX
  rw [e]
  refine newLikeX_fails ⟨d, hd, ?_⟩
  by_cases hy : d ∈ y.dims
  · refine .inr ?_
    rw [e2 d hy, if_pos hs]
    rcases h with h | h
    · rw [e1, List.mem_filter] at hy
      simp [h] at hy
    · exact h
  · exact .inl hy

/-- **C65** A name that is no dimension is a `ValueError`. -/
theorem C65_isel_unknown {sel : List (δ × Sel)} (h : ∃ p ∈ sel, p.1 ∉ obj.dims) :
    iselX moms obj sel = .error .valueError := by
  unfold iselX DataArray.isel
  rw [if_pos h]
  rfl

/-- **C65** Positions out of range and masks of another length are an `IndexError`, whatever else is
selected, as long as no slice has step zero. -/
theorem C65_isel_out_of_range {sel : List (δ × Sel)} (hn : (sel.map Prod.fst).Nodup)
    (hp : ∀ p ∈ sel, p.1 ∈ obj.dims) (hz : ∀ d a b, (d, Sel.slice a b (some 0)) ∉ sel)
    (h : ∃ p ∈ sel, ¬ ∃ l, Positions (obj.size p.1) p.2 l) :
    iselX moms obj sel = .error .indexError := by
  unfold iselX DataArray.isel
  rw [if_neg (by simpa using fun d s hp' => hp _ hp')]
  rw [mapM_error _ PyErr.indexError]
  · rfl
  · intro d hd e he
    by_cases hk : d ∈ sel.map Prod.fst
    · obtain ⟨⟨d, s⟩, hs, rfl⟩ := List.mem_map.1 hk
      rw [lookup_mem hn hs, Option.getD_some] at he
      by_cases hl : ∃ l, Positions (obj.size d) s l
      · obtain ⟨l, hl⟩ := hl
        obtain ⟨⟨f, hf, -⟩, -⟩ := positions_pick hl
        rw [hf] at he
        cases he
      · rw [pick_fails hl] at he
        cases s with
        | slice a b c =>
          exfalso
          have hc : c ≠ some 0 := fun h => hz d a b (h ▸ hs)
          obtain ⟨r, hr⟩ := sliceIndices_ok (n := obj.size d) (start := a) (stop := b) hc
          exact hl ⟨_, sliceIndices_isSlice hr⟩
        | _ => cases he; rfl
    · rw [lookup_none hk] at he
      rw [show ((none : Option Sel).getD .full) = Sel.full from rfl, pick_full] at he
      cases he
  · obtain ⟨⟨d, s⟩, hs, hl⟩ := h
    refine ⟨d, hp _ hs, ?_⟩
    rw [lookup_mem hn hs, Option.getD_some, pick_fails hl]
    cases s with
    | slice a b c =>
      exfalso
      have hc : c ≠ some 0 := fun h => hz d a b (h ▸ hs)
      obtain ⟨r, hr⟩ := sliceIndices_ok (n := obj.size d) (start := a) (stop := b) hc
      exact hl ⟨_, sliceIndices_isSlice hr⟩
    | _ => rfl

private theorem getitem_eq (g : LabelledObject obj moms nd) {front back : List Sel}
    (hl : front.length + back.length ≤ obj.dims.length) :
    getitemX moms obj (front.map some ++ none :: back.map some)
      = (obj.isel (keyPairs obj.dims front back)).bind (checkLike moms obj) := by
  unfold getitemX
  rw [expandedIndexer_ellipsis, if_pos hl]
  show (obj.isel _).bind _ = _
  rw [isel_expanded g.distinct hl]

private theorem getitem_plain (key : List Sel) (h : key.length ≤ obj.dims.length) :
    getitemX moms obj (key.map some) = getitemX moms obj (key.map some ++ none :: ([] : List Sel).map some) := by
  unfold getitemX
  rw [expandedIndexer_ellipsis, expandedIndexer_plain, if_pos h, if_pos (by simpa using h)]
  simp

/-- **C65** `c[front, ..., back]`: the entries in front select from the first dimensions, those behind
`...` from the last ones, by position. -/
theorem C65_getitem (g : LabelledObject obj moms nd) {front back : List Sel} {pos : δ → List ℕ}
    (hl : front.length + back.length ≤ obj.dims.length)
    (hp : ∀ p ∈ keyPairs obj.dims front back, Positions (obj.size p.1) p.2 (pos p.1))
    (hm : ∀ p ∈ keyPairs obj.dims front back, p.1 ∉ moms) :
    ∃ out, getitemX moms obj (front.map some ++ none :: back.map some) = .ok out ∧
      out.dims = obj.dims.filter (fun d => ! drops (keyPairs obj.dims front back) d) ∧
      (∀ d ∈ out.dims, out.size d =
        if d ∈ (keyPairs obj.dims front back).map Prod.fst then (pos d).length else obj.size d) ∧
      CellsNamed out obj moms nd (takenAt (keyPairs obj.dims front back) pos) := by
  have gs : GoodSel obj (keyPairs obj.dims front back) pos :=
    ⟨keyPairs_distinct g.distinct hl, keyPairs_present, hp⟩
  obtain ⟨y, h, e1, e2, e3⟩ := isel_ok obj gs
  have hc := cells_isel g gs hm e1 e2 e3
  refine ⟨y, ?_, e1, e2, hc⟩
  rw [getitem_eq g hl, h]
  exact checkLike_ok hc.object.momPresent hc.momSize

/-- **C65** Without `...` the key selects from the first dimensions. -/
theorem C65_getitem_front (g : LabelledObject obj moms nd) {key : List Sel} {pos : δ → List ℕ}
    (hl : key.length ≤ obj.dims.length)
    (hp : ∀ p ∈ obj.dims.zip key, Positions (obj.size p.1) p.2 (pos p.1))
    (hm : ∀ p ∈ obj.dims.zip key, p.1 ∉ moms) :
    ∃ out, getitemX moms obj (key.map some) = .ok out ∧
      out.dims = obj.dims.filter (fun d => ! drops (obj.dims.zip key) d) ∧
      (∀ d ∈ out.dims, out.size d =
        if d ∈ (obj.dims.zip key).map Prod.fst then (pos d).length else obj.size d) ∧
      CellsNamed out obj moms nd (takenAt (obj.dims.zip key) pos) := by
  have e : keyPairs obj.dims key [] = obj.dims.zip key := by simp [keyPairs]
  rw [getitem_plain key hl]
  have := C65_getitem g (front := key) (back := []) (pos := pos) (by simpa using hl)
  rw [e] at this
  exact this hp hm

/-- **C65** For any key that selects, reaching the moment dimensions or not: the result is accepted if
and only if every moment dimension is kept with its size. -/
theorem C65_getitem_checked (g : LabelledObject obj moms nd) {front back : List Sel} {pos : δ → List ℕ}
    (hl : front.length + back.length ≤ obj.dims.length)
    (hp : ∀ p ∈ keyPairs obj.dims front back, Positions (obj.size p.1) p.2 (pos p.1)) :
    (KeepsMoments obj moms (keyPairs obj.dims front back) pos →
      ∃ out, getitemX moms obj (front.map some ++ none :: back.map some) = .ok out ∧
        ShowsNamed out (obj.dims.filter (fun d => ! drops (keyPairs obj.dims front back) d))
          (fun d => if d ∈ (keyPairs obj.dims front back).map Prod.fst then (pos d).length
            else obj.size d)
          (fun c => entry obj (takenAt (keyPairs obj.dims front back) pos c))) ∧
    (¬ KeepsMoments obj moms (keyPairs obj.dims front back) pos →
      getitemX moms obj (front.map some ++ none :: back.map some) = .error .valueError) := by
  have gs : GoodSel obj (keyPairs obj.dims front back) pos :=
    ⟨keyPairs_distinct g.distinct hl, keyPairs_present, hp⟩
  obtain ⟨y, h, e1, e2, e3⟩ := isel_ok obj gs
  rw [getitem_eq g hl, h]
  constructor
  · intro hk
    obtain ⟨k1, k2⟩ := isel_keeps g hk e1 e2
    refine ⟨y, checkLike_ok k1 k2, e1, e1 ▸ e2, fun c hc => e3 c fun d hd hs => ?_⟩
    have := hc d (e1 ▸ hd)
    rwa [if_pos hs] at this
  · intro hk
    refine checkLike_fails ?_
    unfold KeepsMoments at hk
    push Not at hk
    obtain ⟨d, hd, hs, hne⟩ := hk
    refine ⟨d, hd, ?_⟩
    by_cases hy : d ∈ y.dims
    · refine .inr ?_
      rw [e2 d hy, if_pos hs]
      rw [e1, List.mem_filter] at hy
      exact hne (by simpa using hy.2)
    · exact .inl hy

/-- **C65** More entries than dimensions are an `IndexError`. -/
theorem C65_getitem_too_many {front back : List Sel}
    (hl : obj.dims.length < front.length + back.length) :
    getitemX moms obj (front.map some ++ none :: back.map some) = .error .indexError := by
  unfold getitemX
  rw [expandedIndexer_ellipsis, if_neg (by omega)]
  rfl

/-- **C65** The same without `...`. -/
theorem C65_getitem_front_too_many {key : List Sel} (hl : obj.dims.length < key.length) :
    getitemX moms obj (key.map some) = .error .indexError := by
  unfold getitemX
  rw [expandedIndexer_plain, if_neg (by omega)]
  rfl

/-- **C65** Iterating runs through the first dimension: the `k`-th object has the cells found at position
`k` of it. -/
theorem C65_iter (g : LabelledObject obj moms nd) (h2 : ∀ d ∈ moms, 2 ≤ obj.size d) {d : δ}
    {rest : List δ} (hd : obj.dims = d :: rest) (hm : d ∉ moms) :
    ∃ outs, iterX moms obj = .ok outs ∧ outs.length = obj.size d ∧
      ∀ (k : ℕ) (out : DataArray δ α), outs[k]? = some out → out.dims = rest ∧
        (∀ e ∈ rest, out.size e = obj.size e) ∧
        CellsNamed out obj moms nd (fun c => Function.update c d k) := by
  have hdr : d ∉ rest := by
    have := g.distinct
    rw [hd, List.nodup_cons] at this
    exact this.1
  have hex : ∀ k : ℕ, ∃ out, k < obj.size d → (obj.isel [(d, .int k)]).bind (newLikeX moms obj) = .ok out ∧
      out.dims = rest ∧ (∀ e ∈ rest, out.size e = obj.size e) ∧
        CellsNamed out obj moms nd (fun c => Function.update c d k) := by
    intro k
    by_cases hk : k < obj.size d
    · have gs : GoodSel obj [(d, .int k)] (fun _ => [k]) := by
        refine ⟨by simp, ?_, ?_⟩
        · intro p hp
          rw [List.mem_singleton.1 hp, hd]
          simp
        · intro p hp
          rw [List.mem_singleton.1 hp]
          exact ⟨Nd.inRange_natCast hk, by rw [Nd.wrap_natCast hk]⟩
      obtain ⟨out, h, e1, e2, e3⟩ := C65_isel g h2 gs (by
        intro p hp
        rw [List.mem_singleton.1 hp]
        exact hm)
      have ed : out.dims = rest := by
        rw [e1, hd, List.filter_cons_of_neg (by simp [drops, isPosition]), List.filter_eq_self]
        intro e he
        have : d ≠ e := fun h => hdr (h ▸ he)
        simp [drops, this]
      refine ⟨out, fun _ => ⟨h, ed, ?_, ?_⟩⟩
      · intro e he
        rw [e2 e (ed ▸ he), if_neg]
        simpa using fun h : e = d => hdr (h ▸ he)
      · have : takenAt [(d, Sel.int k)] (fun _ => [k]) = fun c => Function.update c d k := by
          funext c e
          unfold takenAt
          by_cases he : e = d
          · subst he
            simp [drops, isPosition]
          · simp [he]
        rwa [this] at e3
    · exact ⟨obj, fun h => absurd h hk⟩
  choose out hout using hex
  refine ⟨(List.range (obj.size d)).map out, ?_, by simp, ?_⟩
  · unfold iterX
    rw [if_neg]
    · simp only [hd]
      exact Nd.mapM_ok_of_forall _ _ _ fun k hk => (hout k (List.mem_range.1 hk)).1
    · have := (valDims_perm g).length_eq
      rw [List.length_append] at this
      have hv : 0 < (valDims obj moms).length := List.length_pos_of_mem (a := d)
        (List.mem_filter.2 ⟨by rw [hd]; simp, by simpa using hm⟩)
      omega
  · intro k y hk
    obtain ⟨h1, h3⟩ := List.getElem?_eq_some_iff.1 hk
    have h1' : k < obj.size d := by simpa using h1
    rw [List.getElem_map, List.getElem_range] at h3
    subst h3
    exact (hout k h1').2

/-- **C65** An object without further dimensions cannot be iterated. -/
theorem C65_iter_scalar (h : valDims obj moms = []) (g : LabelledObject obj moms nd) :
    iterX moms obj = .error .valueError := by
  have := (valDims_perm g).length_eq
  rw [h] at this
  unfold iterX
  rw [if_pos (by simp at this; omega)]

/-- **C65** An object whose first dimension is a moment dimension cannot be iterated either. -/
theorem C65_iter_moment_first (g : LabelledObject obj moms nd) {d : δ} {rest : List δ}
    (hd : obj.dims = d :: rest) (hm : d ∈ moms) (h0 : obj.size d ≠ 0) :
    iterX moms obj = .error .valueError := by
  unfold iterX
  split_ifs
  · rfl
  · have key : ∀ k < obj.size d,
        (obj.isel [(d, .int k)]).bind (newLikeX moms obj) = .error .valueError := by
      intro k hk
      have gs : GoodSel obj [(d, .int k)] (fun _ => [k]) := by
        refine ⟨by simp, ?_, ?_⟩
        · intro p hp
          rw [List.mem_singleton.1 hp, hd]
          simp
        · intro p hp
          rw [List.mem_singleton.1 hp]
          exact ⟨Nd.inRange_natCast hk, by rw [Nd.wrap_natCast hk]⟩
      exact C65_isel_moments_refused gs hm (by simp) (.inl (by simp [drops, isPosition]))
    simp only [hd]
    refine mapM_error _ _ _ ?_ ⟨0, List.mem_range.2 (by omega), key 0 (by omega)⟩
    intro k hk e he
    rw [key k (List.mem_range.1 hk)] at he
    cases he
    rfl

/-! ## Dimensions -/

private theorem filter_names (l : List δ) :
    (l.map some).filter (fun o : Option δ => o.all (fun d => decide (d ∉ moms)))
      = (l.filter (fun d => decide (d ∉ moms))).map some := by
  rw [List.filter_map]
  rfl

/-- **C65** `transpose` with all dimensions listed (moment dimensions may be listed too, and are ignored):
the object with the dimensions in the order listed, the moment dimensions last. -/
theorem C65_transpose (g : LabelledObject obj moms nd) (h2 : ∀ d ∈ moms, 2 ≤ obj.size d) {l : List δ}
    (hl : (l.filter (fun d => decide (d ∉ moms))).Perm (valDims obj moms)) (hne : moms ≠ []) :
    ∃ out, transposeX moms obj (l.map some) = .ok out ∧
      out.dims = l.filter (fun d => decide (d ∉ moms)) ++ moms ∧ out.size = obj.size ∧
      CellsNamed out obj moms nd id := by
  have hp : (l.filter (fun d => decide (d ∉ moms)) ++ moms).Perm obj.dims :=
    (hl.append_right _).trans (valDims_perm g)
  obtain ⟨y, h, e1, e2, e3⟩ := transposeStrict_ok (x := obj) g.distinct
    (supplied := (l.filter (fun d => decide (d ∉ moms)) ++ moms).map some) (by simp [hne])
    (by
      intro d hd
      refine hp.mem_iff.1 ?_
      rw [List.filterMap_map] at hd
      simpa using hd)
    (infix_all hp) hp
  have hc := cells_same g (e1 ▸ hp) e2 e3
  refine ⟨y, ?_, e1, e2, hc⟩
  unfold transposeX
  rw [filter_names, ← List.map_append, h]
  exact newLikeX_ok hc.object.momPresent hc.momSize h2

/-- **C65** With `...`, which stands for the dimensions not listed, in the order they had. -/
theorem C65_transpose_ellipsis (g : LabelledObject obj moms nd) (h2 : ∀ d ∈ moms, 2 ≤ obj.size d)
    {front back : List δ} (hn : ((front ++ back).filter (fun d => decide (d ∉ moms))).Nodup)
    (hp : ∀ d ∈ front ++ back, d ∈ obj.dims) :
    ∃ out, transposeX moms obj (front.map some ++ none :: back.map some) = .ok out ∧
      out.dims = middle (valDims obj moms) (front.filter (fun d => decide (d ∉ moms)))
        (back.filter (fun d => decide (d ∉ moms))) ++ moms ∧ out.size = obj.size ∧
      CellsNamed out obj moms nd id := by
  set A := front.filter (fun d => decide (d ∉ moms)) with hA
  set B := back.filter (fun d => decide (d ∉ moms)) with hB
  have hsub : ∀ d ∈ A ++ (B ++ moms), d ∈ obj.dims := by
    intro d hd
    rw [List.mem_append, List.mem_append, hA, hB, List.mem_filter, List.mem_filter] at hd
    rcases hd with h | h | h
    · exact hp d (by simp [h.1])
    · exact hp d (by simp [h.1])
    · exact g.momPresent d h
  have hnd : (A ++ (B ++ moms)).Nodup := by
    rw [← List.append_assoc, List.nodup_append]
    rw [List.filter_append] at hn
    refine ⟨hn, g.momDistinct, fun a ha b hb hab => ?_⟩
    subst hab
    rw [List.mem_append, hA, hB, List.mem_filter, List.mem_filter] at ha
    rcases ha with h | h <;> simp [hb] at h
  have hperm := middle_perm g.distinct hsub hnd
  have hm : middle obj.dims A (B ++ moms) = middle (valDims obj moms) A B ++ moms := by
    unfold middle valDims
    rw [List.filter_filter, List.append_assoc, List.append_assoc, List.append_assoc]
    congr 2
    refine List.filter_congr fun d _ => ?_
    simp only [List.mem_append]
    by_cases h1 : d ∈ A <;> by_cases h3 : d ∈ B <;> by_cases h4 : d ∈ moms <;> simp [h1, h3, h4]
  obtain ⟨y, h, e1, e2, e3⟩ := transposeStrict_ok (x := obj) g.distinct
    (supplied := A.map some ++ none :: (B ++ moms).map some) (by simp)
    (by
      intro d hd
      refine hsub d ?_
      simpa using hd)
    (infix_middle g.distinct hsub) hperm
  have hc := cells_same g (e1 ▸ hperm) e2 e3
  refine ⟨y, ?_, e1.trans hm, e2, hc⟩
  unfold transposeX
  rw [List.filter_append, List.filter_cons_of_pos (by rfl), filter_names, filter_names,
    List.append_assoc, List.cons_append, ← List.map_append, h]
  exact newLikeX_ok hc.object.momPresent hc.momSize h2

/-- **C65** Without `...` every dimension has to be listed. In particular `c.transpose()` is refused,
unless there are only moment dimensions. -/
theorem C65_transpose_incomplete {l : List δ} {d : δ} (hne : moms ≠ []) (hd : d ∈ valDims obj moms)
    (hl : d ∉ l) : transposeX moms obj (l.map some) = .error .valueError := by
  obtain ⟨hd1, hd2⟩ : d ∈ obj.dims ∧ d ∉ moms := by simpa [valDims] using hd
  unfold transposeX DataArray.transposeStrict
  split_ifs
  · rfl
  · rw [step_fails]
    · rfl
    · rw [filter_names, ← List.map_append]
      refine transpose_fails (by simp [hne]) (infix_missing hd1 ?_)
      rw [List.mem_append, List.mem_filter]
      simp [hl, hd2]

/-- **C65** A name that is no dimension is refused. -/
theorem C65_transpose_unknown {l : List (Option δ)} {d : δ} (hd : some d ∈ l) (hm : d ∉ moms)
    (hn : d ∉ obj.dims) : transposeX moms obj l = .error .valueError := by
  unfold transposeX DataArray.transposeStrict
  rw [if_pos]
  · rfl
  · refine ⟨d, List.mem_filterMap.2 ⟨some d, ?_, rfl⟩, hn⟩
    rw [List.mem_append, List.mem_filter]
    exact .inl ⟨hd, by simpa using hm⟩

/-- **C65** So is a name listed twice. -/
theorem C65_transpose_twice {l : List (Option δ)} (hm : moms ≠ [])
    (hd : ¬ ((l.filterMap id).filter (fun d => decide (d ∉ moms))).Nodup) :
    transposeX moms obj l = .error .valueError := by
  unfold transposeX DataArray.transposeStrict
  split_ifs with h
  · rfl
  · rw [step_fails]
    · rfl
    · refine transpose_repeated (by simp [hm]) (by simpa using h) fun hn => hd ?_
      rw [List.filterMap_append] at hn
      refine hn.of_append_left.sublist ?_
      clear hn h hd hm
      induction l with
      | nil => simp
      | cons o l ih =>
        cases o with
        | none => simpa using ih
        | some d =>
          by_cases h : d ∈ moms
          · simpa [h] using ih
          · simpa [h] using ih

/-- **C65** `stack`: the dimensions `ds` become one, behind the other dimensions and before the moment
dimensions; its cells are those met when the dimensions `ds` run through their sizes, the last one
running fastest. -/
theorem C65_stack (g : LabelledObject obj moms nd) (h2 : ∀ d ∈ moms, 2 ≤ obj.size d) {ds : List δ}
    {new : δ} (hne : ds ≠ []) (hn : ds.Nodup) (hp : ∀ d ∈ ds, d ∈ valDims obj moms)
    (hnew : new ∉ obj.dims) :
    ∃ out, stackX moms obj new ds = .ok out ∧
      out.dims = (valDims obj moms).filter (fun d => decide (d ∉ ds)) ++ new :: moms ∧
      out.size new = (ds.map obj.size).prod ∧ (∀ d ∈ obj.dims, out.size d = obj.size d) ∧
      CellsNamed out obj moms nd (unstacked obj.size ds new) := by
  obtain ⟨y, h, e1, e2, e3, e4⟩ := stack_ok (x := obj) hne hn
    (fun d hd => (List.mem_filter.1 (hp d hd)).1) hnew
  have hc := cells_stack g hn hp hnew e1 e2 e3 e4
  have hnm : new ∉ moms := fun h => hnew (g.momPresent _ h)
  have hperm := middle_perm (dims := y.dims) (A := []) (B := moms) hc.object.distinct
    (by simpa using hc.object.momPresent) (by simpa using g.momDistinct)
  obtain ⟨z, k, k1, k2, k3⟩ := transposeStrict_ok (x := y) hc.object.distinct
    (supplied := none :: moms.map some) (by simp) (by simpa using hc.object.momPresent)
    (infix_middle (A := []) hc.object.distinct (by simpa using hc.object.momPresent)) hperm
  have hz := cells_trans hc (cells_same hc.object (k1 ▸ hperm) k2 k3)
  refine ⟨z, ?_, ?_, ?_, ?_, hz⟩
  · unfold stackX
    rw [h]
    show reorderX moms obj y = _
    unfold reorderX
    rw [k]
    exact newLikeX_ok hz.object.momPresent hz.momSize h2
  · rw [k1]
    unfold middle valDims
    rw [List.nil_append, e1, List.filter_append, List.filter_cons_of_pos (by simpa using hnm),
      List.filter_filter, List.filter_filter]
    simp only [List.filter_nil, List.nil_append, List.append_assoc, List.cons_append]
    congr 1
    refine List.filter_congr fun d _ => ?_
    rw [Bool.and_comm]
  · rw [k2, e2]
  · intro d hd
    rw [k2, e3 d hd]

/-- **C65** The records met along the new dimension are those met when the old ones run through their
sizes. -/
theorem C65_stack_records {K M : Type} {core : Nd.Core K M} {obj : DataArray δ K}
    (g : LabelledObject obj moms core.nd) (h2 : ∀ d ∈ moms, 2 ≤ obj.size d) {ds : List δ}
    {new : δ} (hne : ds ≠ []) (hn : ds.Nodup) (hp : ∀ d ∈ ds, d ∈ valDims obj moms)
    (hnew : new ∉ obj.dims) {c : δ → ℕ} (hc : InLabelled obj moms c) :
    ∃ out, stackX moms obj new ds = .ok out ∧
      recordsAlong core out moms new c = recordsNamed core obj moms ds c := by
  obtain ⟨out, h, e1, e2, e3, e4⟩ := C65_stack g h2 hne hn hp hnew
  refine ⟨out, h, ?_⟩
  unfold recordsAlong recordsNamed
  refine List.ext_getElem (by simp [e2, length_allCoords]) fun s h1 h3 => ?_
  have hs : s < (ds.map obj.size).prod := by simpa [e2] using h1
  have hs' : s < (allCoords obj.size ds c).length := by rw [length_allCoords]; exact hs
  have hin : InLabelled out moms (Function.update c new s) := by
    intro d hd
    obtain ⟨hd1, hd2⟩ := List.mem_filter.1 hd
    by_cases hdn : d = new
    · subst hdn
      rw [Function.update_self, e2]
      exact hs
    · rw [Function.update_of_ne hdn]
      have : d ∈ (valDims obj moms).filter (fun d => decide (d ∉ ds)) ++ new :: moms := e1 ▸ hd1
      have hdm : d ∉ moms := by simpa using hd2
      have hv : d ∈ valDims obj moms := by
        rw [List.mem_append, List.mem_filter, List.mem_cons] at this
        rcases this with h | h | h
        · exact h.1
        · exact absurd h hdn
        · exact absurd h hdm
      rw [e3 d (List.mem_filter.1 hv).1]
      exact hc d hv
  rw [List.getElem_map, List.getElem_map, List.getElem_range]
  unfold recordNamed
  refine congrArg core.recd (funext fun ms => ?_)
  rw [e4.cell _ hin ms]
  refine entry_congr _ fun d hd => ?_
  have hdn : d ≠ new := fun h => hnew (h ▸ hd)
  unfold withNames
  split_ifs with hdm
  · rfl
  · have hget := allCoords_getElem? obj.size hn c hs
    rw [List.getElem?_eq_getElem hs', Option.some.injEq] at hget
    rw [hget, unstacked_apply hn (by rw [Function.update_self]; exact hs), Function.update_self,
      Function.update_of_ne hdn]

/-- **C65** A name which is in use already is refused for the stacked dimension, even if it is that of a
dimension to be stacked. -/
theorem C65_stack_name_in_use {ds : List δ} {new : δ} (hne : ds ≠ []) (hn : ds.Nodup)
    (hnew : new ∈ obj.dims) : stackX moms obj new ds = .error .valueError := by
  unfold stackX DataArray.stack
  rw [if_neg (by simp [hne, hn])]
  split_ifs
  all_goals rfl

/-- **C65** A moment dimension cannot be stacked. -/
theorem C65_stack_moment_refused (g : LabelledObject obj moms nd) {ds : List δ} {new d : δ}
    (hd : d ∈ ds) (hm : d ∈ moms) (hn : ds.Nodup) :
    stackX moms obj new ds = .error .valueError := by
  unfold stackX DataArray.stack
  have hne : ds ≠ [] := List.ne_nil_of_mem hd
  rw [if_neg (by simp [hne, hn])]
  split_ifs with h1 h2
  · rfl
  · rfl
  · refine transposeX_absent (d := d) (by simpa using hm) ?_
    have : d ≠ new := fun h => h2 (h ▸ g.momPresent d hm)
    simp [this, hd]

/-- **C65** `rename` of a dimension that is no moment dimension. -/
theorem C65_rename (g : LabelledObject obj moms nd) {old new : δ} (ho : old ∈ valDims obj moms)
    (hnew : new ∉ obj.dims) :
    ∃ out, renameX obj old new = .ok out ∧ out.dims = renamed obj.dims old new ∧
      out.size new = obj.size old ∧ (∀ d ∈ obj.dims, out.size d = obj.size d) ∧
      CellsNamed out obj moms nd (fun c d => if d = old then c new else c d) := cells_rename g ho hnew

/-- **C65** `rename` of a moment dimension is not refused, but what it gives is no object: the names of
the moment dimensions stay, and none of them is found; selecting from it and rearranging it is refused. -/
theorem C65_rename_moment_breaks (g : LabelledObject obj moms nd) {old new : δ} (ho : old ∈ moms)
    (hnew : new ∉ obj.dims) :
    ∃ out, renameX obj old new = .ok out ∧ old ∉ out.dims ∧ ¬ LabelledObject out moms nd ∧
      (∀ sel, (∃ y, out.isel sel = .ok y) → iselX moms out sel = .error .valueError) ∧
      (∀ dims, transposeX moms out dims = .error .valueError) := by
  have ho1 := g.momPresent old ho
  have hne : new ≠ old := fun h => hnew (h ▸ ho1)
  unfold renameX DataArray.rename
  rw [if_neg (by simpa using ho1), if_neg hne, if_neg hnew]
  have hout : old ∉ obj.dims.map (fun d => if d = old then new else d) := by
    intro h
    obtain ⟨d, hd, he⟩ := List.mem_map.1 h
    split_ifs at he with h1
    · exact hne he
    · exact h1 he
  refine ⟨_, rfl, hout, fun h => hout (h.momPresent old ho), ?_, ?_⟩
  · rintro sel ⟨y, hy⟩
    unfold iselX
    rw [hy]
    exact newLikeX_fails ⟨old, ho, .inl fun h => hout (isel_dims hy old h)⟩
  · intro dims
    unfold transposeX
    exact transposeX_absent (d := old) (by simp [ho]) hout

/-! ## From and to array objects -/

/-- **C65** `to_array` of an object with the moment dimensions last: an array object with the same cells,
the dimensions becoming axes in their order. -/
theorem C65_to_array (g : LabelledObject obj moms nd) (h2 : ∀ d ∈ moms, 2 ≤ obj.size d)
    (hnd : nd = 1 ∨ nd = 2) (hlast : obj.dims = valDims obj moms ++ moms) :
    IsObject (toArrayX obj) ((valDims obj moms).map obj.size) (moms.map obj.size) ∧
      ∀ i ms, (toArrayX obj).get (atMom (valDims obj moms).length i ms) =
        entry obj (withNames moms ms (fun d => i ((valDims obj moms).idxOf d))) := by
  refine ⟨⟨?_, ?_, ?_, ?_⟩, ?_⟩
  · intro i j hij
    show obj.data _ = obj.data _
    refine congrArg obj.data (List.map_congr_left fun p hp => hij p ?_)
    simpa [toArrayX, DataArray.values] using hp
  · show obj.dims.map obj.size = _
    conv_lhs => rw [hlast]
    rw [List.map_append]
  · simpa [g.momCount] using hnd
  · intro m hm
    obtain ⟨d, hd, rfl⟩ := List.mem_map.1 hm
    exact h2 d hd
  · intro i ms
    unfold toArrayX
    rw [values_get obj g.distinct]
    refine entry_congr _ fun d hd => ?_
    have hd' : d ∈ valDims obj moms ++ moms := hlast ▸ hd
    have e : obj.dims.idxOf d = (valDims obj moms ++ moms).idxOf d := by rw [← hlast]
    rw [e]
    unfold atMom withNames
    by_cases hm : d ∈ moms
    · have hv : d ∉ valDims obj moms := by simp [valDims, hm]
      rw [List.idxOf_append_of_notMem hv, if_neg (by omega), if_pos hm]
      congr 1
      omega
    · have hv : d ∈ valDims obj moms := by
        rcases List.mem_append.1 hd' with h | h
        · exact h
        · exact absurd h hm
      rw [List.idxOf_append_of_mem hv, if_pos (List.idxOf_lt_length_iff.2 hv), if_neg hm]

/-- **C65** In general the last dimensions are taken for the moment dimensions, whatever they are. -/
theorem C65_to_array_by_position (g : LabelledObject obj moms nd) :
    (toArrayX obj).shape = obj.dims.map obj.size ∧
      ∀ i ms, (toArrayX obj).get (atMom (obj.dims.length - nd) i ms) =
        entry obj (withNames (obj.dims.drop (obj.dims.length - nd)) ms
          (fun d => i (obj.dims.idxOf d))) := by
  refine ⟨rfl, fun i ms => ?_⟩
  unfold toArrayX
  rw [values_get obj g.distinct]
  refine entry_congr _ fun d hd => ?_
  set k := obj.dims.length - nd with hk
  have hi := List.idxOf_lt_length_iff.2 hd
  have hsplit := List.take_append_drop k obj.dims
  have hlen : (obj.dims.take k).length = k := by simp; omega
  unfold atMom withNames
  by_cases hm : d ∈ obj.dims.drop k
  · have hnt : d ∉ obj.dims.take k := by
      intro h
      have := g.distinct
      rw [← hsplit, List.nodup_append] at this
      exact this.2.2 d h d hm rfl
    have e : obj.dims.idxOf d = k + (obj.dims.drop k).idxOf d := by
      conv_lhs => rw [← hsplit]
      rw [List.idxOf_append_of_notMem hnt, hlen]
    rw [if_pos hm, e, if_neg (by omega)]
    congr 1
    omega
  · have ht : d ∈ obj.dims.take k := by
      rw [← hsplit, List.mem_append] at hd
      exact hd.resolve_right hm
    have e : obj.dims.idxOf d = (obj.dims.take k).idxOf d := by
      conv_lhs => rw [← hsplit]
      rw [List.idxOf_append_of_mem ht]
    have := List.idxOf_lt_length_iff.2 ht
    rw [if_neg hm, if_pos (by omega)]

/-- **C65** `to_x` with names for all dimensions, given as `dims` and `mom_dims` or all as `dims`: a
labelled object with the same cells. -/
theorem C65_to_x {a : Nd.Arr α} {vs ms : List ℕ} (h : IsObject a vs ms) {ds mds : List δ}
    (hd : ds.length = vs.length) (hm : mds.length = ms.length) (hn : (ds ++ mds).Nodup)
    (valName momName : ℕ → δ) :
    ∃ out, toX valName momName ms.length a (some ds) (some mds) = .ok (out, mds) ∧
      (∀ other, toX valName momName ms.length a (some (ds ++ mds)) other = .ok (out, mds)) ∧
      out.dims = ds ++ mds ∧ valDims out mds = ds ∧ LabelledObject out mds ms.length ∧
      ds.map out.size = vs ∧ mds.map out.size = ms ∧
      ∀ c m, m.length = ms.length →
        entry out (withNames mds m c) = a.get (atMom vs.length (coordsAlong ds c) m) := by
  have hlen : a.shape.length = vs.length + ms.length := by rw [h.shape]; simp
  have hpos : 0 < ms.length := by rcases h.count with e | e <;> omega
  have hdis : ∀ d ∈ ds, d ∉ mds := fun d h1 h2 => (List.nodup_append.1 hn).2.2 d h1 d h2 rfl
  have hdrop : (ds ++ mds).drop ((ds ++ mds).length - ms.length) = mds := by
    rw [List.drop_left']
    simp
    omega
  have hval : valDims (DataArray.ofNd (ds ++ mds) a) mds = ds := by
    unfold valDims
    show (ds ++ mds).filter _ = ds
    rw [List.filter_append, List.filter_eq_self.2 (by simpa using hdis), List.filter_eq_nil_iff.2
      (by simp), List.append_nil]
  have hsz : (ds ++ mds).map (DataArray.ofNd (ds ++ mds) a).size = a.shape := by
    refine List.ext_getElem (by simp; omega) fun p h1 h2 => ?_
    have hp : p < (ds ++ mds).length := by simpa using h1
    rw [List.getElem_map]
    show a.shape.getD ((ds ++ mds).idxOf (ds ++ mds)[p]) 0 = _
    rw [hn.idxOf_getElem p hp, List.getD_eq_getElem?_getD, List.getElem?_eq_getElem h2]
    rfl
  rw [h.shape, List.map_append] at hsz
  obtain ⟨hs1, hs2⟩ := List.append_inj hsz (by simpa using hd)
  refine ⟨DataArray.ofNd (ds ++ mds) a, ?_, ?_, rfl, hval,
    ⟨hn, (List.nodup_append.1 hn).2.1, fun d hd => List.mem_append_right _ hd, hm⟩, hs1, hs2, ?_⟩
  · unfold toX outputDims
    simp only [Option.getD_some]
    rw [if_neg (by omega), if_pos (by omega), if_neg (by omega)]
    show (if ¬ (ds ++ mds).Nodup then _ else _) = _
    rw [if_neg (by simpa using hn), hdrop]
  · intro other
    unfold toX outputDims
    simp only [Option.getD_some]
    rw [if_pos (by simp; omega)]
    show (if ¬ (ds ++ mds).Nodup then _ else _) = _
    rw [if_neg (by simpa using hn), hdrop]
  · intro c m hml
    rw [ofNd_entry]
    refine h.proper _ _ fun p hp => ?_
    rw [hlen] at hp
    have hp' : p < (ds ++ mds).length := by simp; omega
    rw [pos_lt hp']
    unfold atMom withNames coordsAlong
    by_cases hv : p < vs.length
    · have hv' : p < ds.length := by omega
      rw [List.getElem_append_left hv', if_neg (hdis _ (List.getElem_mem hv')), if_pos hv,
        List.getElem?_eq_getElem hv']
      rfl
    · have hv' : ds.length ≤ p := by omega
      rw [List.getElem_append_right hv', if_pos (List.getElem_mem _), if_neg hv,
        (List.nodup_append.1 hn).2.1.idxOf_getElem]
      rw [hd]

/-- **C65** Names left out are made up from the numbers of the axes. -/
theorem C65_to_x_default {a : Nd.Arr α} {vs ms : List ℕ} (h : IsObject a vs ms)
    (valName momName : ℕ → δ) (dims momDims : Option (List δ)) :
    toX valName momName ms.length a dims momDims = toX valName momName ms.length a
      (some (dims.getD ((List.range vs.length).map valName)))
      (some (momDims.getD ((List.range ms.length).map momName))) := by
  have hlen : a.shape.length - ms.length = vs.length := by rw [h.shape]; simp
  unfold toX outputDims
  simp only [Option.getD_some, hlen]

/-- **C65** Another number of names is refused. -/
theorem C65_to_x_dims_refused {a : Nd.Arr α} {vs ms : List ℕ} (h : IsObject a vs ms) {ds : List δ}
    (h1 : ds.length ≠ vs.length) (h2 : ds.length ≠ vs.length + ms.length) (valName momName : ℕ → δ)
    (momDims : Option (List δ)) :
    toX valName momName ms.length a (some ds) momDims = .error .valueError := by
  have hlen : a.shape.length = vs.length + ms.length := by rw [h.shape]; simp
  unfold toX outputDims
  simp only [Option.getD_some]
  rw [if_neg (by omega), if_neg (by omega)]
  rfl

/-- **C65** So is another number of names of moment dimensions. -/
theorem C65_to_x_mom_dims_refused {a : Nd.Arr α} {vs ms : List ℕ} (h : IsObject a vs ms) {ds mds : List δ}
    (h1 : ds.length = vs.length) (h2 : mds.length ≠ ms.length) (valName momName : ℕ → δ) :
    toX valName momName ms.length a (some ds) (some mds) = .error .valueError := by
  have hlen : a.shape.length = vs.length + ms.length := by rw [h.shape]; simp
  have hpos : 0 < ms.length := by rcases h.count with e | e <;> omega
  unfold toX outputDims
  simp only [Option.getD_some]
  rw [if_neg (by omega), if_pos (by omega), if_pos (by simpa using h2)]
  rfl

/-- **C65** `to_x(template=...)` takes the names of the template, which has to have the same shape. -/
theorem C65_to_x_template {a : Nd.Arr α} {vs ms : List ℕ} (h : IsObject a vs ms) {template : DataArray δ α}
    (hn : template.dims.Nodup) (valName momName : ℕ → δ) :
    (template.dims.map template.size = a.shape → toXTemplate ms.length a template =
      toX valName momName ms.length a (some template.dims) none) ∧
    (template.dims.map template.size ≠ a.shape →
      toXTemplate ms.length a template = .error .valueError) := by
  constructor
  · intro hs
    have hl : template.dims.length = a.shape.length := by rw [← hs]; simp
    unfold toXTemplate toX outputDims
    rw [if_neg (by simpa using hs.symm)]
    simp only [Option.getD_some]
    rw [if_pos hl]
    show _ = (if ¬ template.dims.Nodup then _ else _)
    rw [if_neg (by simpa using hn)]
  · intro hs
    unfold toXTemplate
    rw [if_pos (Ne.symm hs)]

/-- **C65** Converting to an array object and back gives the object. -/
theorem C65_round_trip (g : LabelledObject obj moms nd)
    (hlast : obj.dims = valDims obj moms ++ moms) (valName momName : ℕ → δ)
    (momDims : Option (List δ)) :
    ∃ out, toX valName momName nd (toArrayX obj) (some obj.dims) momDims = .ok (out, moms) ∧
      out.dims = obj.dims ∧ SameArray out obj := by
  have hdrop : obj.dims.drop (obj.dims.length - nd) = moms := by
    rw [← g.momCount, hlast, List.drop_left']
    simp
  refine ⟨DataArray.ofNd obj.dims (toArrayX obj), ?_, rfl, ⟨List.Perm.refl _, ?_, ?_⟩⟩
  · unfold toX outputDims
    simp only [Option.getD_some]
    rw [if_pos (by simp [toArrayX, DataArray.values])]
    show (if ¬ obj.dims.Nodup then _ else _) = _
    rw [if_neg (by simpa using g.distinct), hdrop]
  · intro d hd
    have hd : d ∈ obj.dims := hd
    show (obj.dims.map obj.size).getD (obj.dims.idxOf d) 0 = _
    have := List.idxOf_lt_length_iff.2 hd
    simp [List.getD_eq_getElem?_getD, this]
  · intro c
    rw [ofNd_entry]
    unfold toArrayX
    rw [values_get obj g.distinct]
    exact entry_congr _ fun d hd => pos_idxOf hd

/-- **C65** `zeros`: an object of the given sizes, with all moments up to the given orders, all of them
zero. -/
theorem C65_zeros [Zero α] {vs mom : List ℕ} (hnd : mom.length = 1 ∨ mom.length = 2)
    (hpos : ∀ m ∈ mom, 1 ≤ m) {ds mds : List δ} (hd : ds.length = vs.length)
    (hm : mds.length = mom.length) (hn : (ds ++ mds).Nodup) (valName momName : ℕ → δ) :
    ∃ out : DataArray δ α, zerosX valName momName vs mom (some ds) (some mds) = .ok (out, mds) ∧
      out.dims = ds ++ mds ∧ LabelledObject out mds mom.length ∧ ds.map out.size = vs ∧
      mds.map out.size = mom.map (· + 1) ∧ ∀ c, entry out c = 0 := by
  have hO : IsObject (⟨vs ++ mom.map (· + 1), fun _ => (0 : α)⟩ : Nd.Arr α) vs (mom.map (· + 1)) :=
    ⟨fun _ _ _ => rfl, rfl, by simpa using hnd, by simpa using hpos⟩
  obtain ⟨out, h1, -, h3, -, h5, h6, h7, h8⟩ := C65_to_x hO hd (mds := mds) (by simpa using hm) hn
    valName momName
  rw [List.length_map] at h1 h5 h8
  refine ⟨out, h1, h3, h5, h6, h7, fun c => ?_⟩
  have := h8 c (mds.map c) (by simpa using hm)
  refine Eq.trans (entry_congr _ fun d _ => ?_) this
  unfold withNames
  split_ifs with hdm
  · have := List.idxOf_lt_length_iff.2 hdm
    simp [List.getD_eq_getElem?_getD, this]
  · rfl

end General

/-! ## Samples -/

section Samples

variable {δ : Type} [DecidableEq δ] {K M σ : Type} {core : Nd.Core K M} {H : List σ → M → Prop}
  {obj : DataArray δ K} {moms : List δ} {L : (δ → ℕ) → List σ}

/-- **C65** Each cell of an object made from cells of another one stands for the samples of the cell it
was made from. -/
theorem C65_keep_samples (hS : StandsNamed core H obj moms L) {out : DataArray δ K}
    {f : (δ → ℕ) → δ → ℕ} (h : CellsNamed out obj moms core.nd f) :
    StandsNamed core H out moms (fun c => L (f c)) := by
  refine ⟨h.object, fun c hc => ?_⟩
  have : recordNamed core out moms c = recordNamed core obj moms (f c) :=
    congrArg core.recd (funext fun ms => h.cell c hc ms)
  rw [this]
  exact hS.holds _ (h.source c hc)

/-- **C65** An array object made by `to_array` stands for the samples of the labelled object. -/
theorem C65_to_array_samples (hS : StandsNamed core H obj moms L) (h2 : ∀ d ∈ moms, 2 ≤ obj.size d)
    (hnd : core.nd = 1 ∨ core.nd = 2) (hlast : obj.dims = valDims obj moms ++ moms) :
    Stands core H (toArrayX obj) ((valDims obj moms).map obj.size) (moms.map obj.size)
      (fun i => L (fun d => i ((valDims obj moms).idxOf d))) := by
  obtain ⟨h1, h3⟩ := C65_to_array hS.object h2 hnd hlast
  refine ⟨h1, by simpa using hS.object.momCount, fun i hi => ?_⟩
  have e : core.recd (fun c => (toArrayX obj).get (atMom ((valDims obj moms).map obj.size).length i c))
      = recordNamed core obj moms (fun d => i ((valDims obj moms).idxOf d)) := by
    refine congrArg core.recd (funext fun ms => ?_)
    rw [List.length_map]
    exact h3 i ms
  rw [e]
  refine hS.holds _ fun d hd => ?_
  have hil := List.idxOf_lt_length_iff.2 hd
  have := hi ((valDims obj moms).idxOf d) (by simpa using hil)
  simpa [List.getD_eq_getElem?_getD, hil] using this

/-- **C65** A labelled object made by `to_x` stands for the samples of the array object. -/
theorem C65_to_x_samples (hc : core.Ok) {a : Nd.Arr K} {vs ms : List ℕ} {L : (ℕ → ℕ) → List σ}
    (hS : Stands core H a vs ms L)
    {ds mds : List δ} (hd : ds.length = vs.length)
    (hm : mds.length = ms.length) (hn : (ds ++ mds).Nodup) (valName momName : ℕ → δ) :
    ∃ out, toX valName momName ms.length a (some ds) (some mds) = .ok (out, mds) ∧
      StandsNamed core H out mds (fun c => L (coordsAlong ds c)) := by
  obtain ⟨out, h1, -, h3, h4, h5, h6, h7, h8⟩ := C65_to_x hS.object hd hm hn valName momName
  refine ⟨out, h1, ⟨hS.nd ▸ h5, fun c hin => ?_⟩⟩
  have e : recordNamed core out mds c
      = core.recd (fun m => a.get (atMom vs.length (coordsAlong ds c) m)) :=
    hc.recd_congr _ _ fun m hml => h8 c m (by rw [hml, hS.nd])
  rw [e]
  refine hS.holds _ fun p hp => ?_
  have hp' : p < ds.length := by omega
  have hdp : ds[p] ∈ valDims out mds := by rw [h4]; exact List.getElem_mem hp'
  have := hin _ hdp
  unfold coordsAlong
  rw [List.getElem?_eq_getElem hp']
  have e2 : vs.getD p 0 = out.size ds[p] := by
    rw [← h6, List.getD_eq_getElem?_getD, List.getElem?_map, List.getElem?_eq_getElem hp']
    rfl
  first
    | exact e2 ▸ this
    | simpa [e2] using this

end Samples

/-! ## Concrete cases -/

section Examples

open ExDim
open Nd (core1 core2 core1_ok core2_ok)

/-- Two places `p` at three times `t`, with two moments. -/
def exNamedObj : DataArray ExDim ℚ where
  dims := [t, p, m]
  data idx := 100 * idx.getD 0 0 + 10 * idx.getD 1 0 + idx.getD 2 0
  size d := match d with
    | p => 2
    | _ => 3

theorem exNamedObj_good : LabelledObject exNamedObj [m] 1 := ⟨by decide, by decide, by decide, rfl⟩

theorem exNamedObj_sizes : ∀ d ∈ [m], 2 ≤ exNamedObj.size d := by decide

/-- The last place, and every other time from the end. -/
def exNamedSel : List (ExDim × Sel) := [(p, .int (-1)), (t, .slice none none (some (-2)))]

def exNamedPos : ExDim → List ℕ
  | p => [1]
  | _ => [2, 0]

theorem exNamedSel_good : GoodSel exNamedObj exNamedSel exNamedPos := by
  refine ⟨by decide, by decide, ?_⟩
  intro q hq
  simp only [exNamedSel, List.mem_cons, List.not_mem_nil, or_false] at hq
  rcases hq with rfl | rfl
  · exact ⟨by unfold InRange; decide, by decide⟩
  · have := sliceIndices_isSlice (n := 3) (start := none) (stop := none) (step := some (-2))
      (r := (2, 2, -2)) (by decide)
    exact this

example : dimEntries (iselX [m] exNamedObj exNamedSel) [[(t, 0), (m, 1)], [(t, 1), (m, 2)]]
    = some ([t, m], [2, 3], [211, 12]) := by decide +kernel

example := C65_isel exNamedObj_good exNamedObj_sizes exNamedSel_good (by decide)

/-- The moments in another order. -/
theorem exNamed_moments : GoodSel exNamedObj [(m, .list [0, 2, -2])] (fun _ => [0, 2, 1]) := by
  refine ⟨by decide, by decide, ?_⟩
  intro q hq
  rw [List.mem_singleton.1 hq]
  exact ⟨by unfold InRange; decide, by decide⟩

example : dimEntries (iselX [m] exNamedObj [(m, .list [0, 2, -2])]) [[(t, 1), (p, 1), (m, 1)]]
    = some ([t, p, m], [3, 2, 3], [112]) := by decide +kernel

example := C65_isel_entries exNamedObj_good exNamedObj_sizes exNamed_moments (fun _ _ _ => by
  constructor <;> simp_all [drops, isPosition, exNamedObj])

/-- Only the weight. -/
theorem exNamed_weight : GoodSel exNamedObj [(m, .int 0)] (fun _ => [0]) := by
  refine ⟨by decide, by decide, ?_⟩
  intro q hq
  rw [List.mem_singleton.1 hq]
  exact ⟨by unfold InRange; decide, by decide⟩

example := C65_isel_moments_refused exNamed_weight (moms := [m]) (d := m) (by decide) (by decide)
  (.inl (by decide))
example := C65_isel_unknown (obj := exNamedObj) (moms := [m]) (sel := [(b, .int 0)]) (by decide)
example := C65_isel_out_of_range (obj := exNamedObj) (moms := [m]) (sel := [(p, .int 2)]) (by decide)
  (by decide) (by simp) ⟨_, List.mem_cons_self, by
    rintro ⟨l, h, -⟩
    unfold InRange at h
    revert h
    decide⟩

theorem exNamed_key : ∀ q ∈ keyPairs exNamedObj.dims [.int 1, .list [1, 1, 0]] [],
    Positions (exNamedObj.size q.1) q.2 ((fun d => if d = t then [1] else [1, 1, 0]) q.1) := by
  intro q hq
  have : q = (t, .int 1) ∨ q = (p, .list [1, 1, 0]) := by
    simpa [keyPairs, exNamedObj] using hq
  rcases this with rfl | rfl
  · exact ⟨by unfold InRange; decide, by decide⟩
  · exact ⟨by unfold InRange; decide, by decide⟩

example : dimEntries (getitemX [m] exNamedObj [some (.int 1), some (.list [1, 1, 0]), none])
    [[(p, 1), (m, 2)], [(p, 2), (m, 2)]] = some ([p, m], [3, 3], [112, 102]) := by decide +kernel

example := C65_getitem exNamedObj_good (front := [.int 1, .list [1, 1, 0]]) (back := [])
  (pos := fun d => if d = t then [1] else [1, 1, 0]) (by decide) exNamed_key (by decide)
example := C65_getitem_checked exNamedObj_good (front := [.int 1, .list [1, 1, 0]]) (back := [])
  (pos := fun d => if d = t then [1] else [1, 1, 0]) (by decide) exNamed_key
example := C65_getitem_front exNamedObj_good (key := [.int 1, .list [1, 1, 0]])
  (pos := fun d => if d = t then [1] else [1, 1, 0]) (by decide) exNamed_key (by decide)
example := C65_getitem_too_many (obj := exNamedObj) (moms := [m]) (front := [.int 0, .int 0])
  (back := [.full, .full]) (by decide)
example := C65_getitem_front_too_many (obj := exNamedObj) (moms := [m])
  (key := [.int 0, .int 0, .full, .full]) (by decide)

example := C65_iter exNamedObj_good exNamedObj_sizes (d := t) rfl (by decide)
example : dimEntries ((iterX [m] exNamedObj).map (fun l => l.getD 2 exNamedObj)) [[(p, 1), (m, 2)]]
    = some ([p, m], [2, 3], [212]) := by decide +kernel
example := C65_iter_scalar (obj := (⟨⟨[m], fun idx => (idx.getD 0 0 : ℚ)⟩, fun _ => 3⟩ :
  DataArray ExDim ℚ)) (moms := [m]) (nd := 1) (by decide) ⟨by decide, by decide, by decide, rfl⟩
example := C65_iter_moment_first exLabObj_good (d := m) (rest := [p]) rfl (by decide) (by decide)

example : dimEntries (transposeX [m] exNamedObj [some m, some p, some t])
    [[(t, 2), (p, 1), (m, 1)]] = some ([p, t, m], [2, 3, 3], [211]) := by decide +kernel
example := C65_transpose exNamedObj_good exNamedObj_sizes (l := [m, p, t]) (by decide) (by decide)
example := C65_transpose_ellipsis exNamedObj_good exNamedObj_sizes (front := [p]) (back := [])
  (by decide) (by decide)
example := C65_transpose_incomplete (obj := exNamedObj) (moms := [m]) (l := []) (d := t) (by decide)
  (by decide) (by decide)
example := C65_transpose_unknown (obj := exNamedObj) (moms := [m]) (l := [some b, none]) (d := b)
  (by decide) (by decide) (by decide)
example := C65_transpose_twice (obj := exNamedObj) (moms := [m]) (l := [some p, none, some p])
  (by decide) (by decide)

example : dimEntries (stackX [m] exNamedObj b [p, t]) [[(b, 4), (m, 2)]]
    = some ([b, m], [6, 3], [112]) := by decide +kernel
example := C65_stack exNamedObj_good exNamedObj_sizes (ds := [p, t]) (new := b) (by decide) (by decide)
  (by decide) (by decide)
example := C65_stack_records (core := core1) exNamedObj_good exNamedObj_sizes (ds := [p, t]) (new := b)
  (by decide) (by decide) (by decide) (by decide) (c := fun _ => 1) (by unfold InLabelled; decide)
example := C65_stack_name_in_use (moms := [m]) (obj := exNamedObj) (ds := [p, t]) (new := t) (by decide)
  (by decide) (by decide)
example := C65_stack_moment_refused exNamedObj_good (ds := [t, m]) (new := b) (d := m) (by decide)
  (by decide) (by decide)

example := C65_rename exNamedObj_good (old := p) (new := b) (by decide) (by decide)
example := C65_rename_moment_breaks exNamedObj_good (old := m) (new := b) (by decide) (by decide)

example := C65_to_array exNamedObj_good exNamedObj_sizes (.inl rfl) rfl
example := C65_to_array_by_position exLabObj_good

/-- The moment dimension comes first: what `to_array` gives for a record is a mixture of records. -/
example : (toArrayX exLabObj).shape = [3, 2] ∧
    (List.range 2).map (fun k => (toArrayX exLabObj).get (fun p => [0, k].getD p 0))
      = [entry exLabObj (fun d => if d = p then 0 else 0), entry exLabObj (fun d => if d = p then 1 else 0)] := by
  decide +kernel

/-- Made up names. -/
def exName (i : ℕ) : ExDim := if i = 0 then p else q
def exMomName (i : ℕ) : ExDim := if i = 0 then m else n

example := C65_to_x exStat_object.stands.object (ds := [b]) (mds := [n]) rfl rfl (by decide) exName exMomName
example := C65_to_x exColl2_stands.object (ds := [b]) (mds := [n, m]) rfl rfl (by decide) exName exMomName
example := C65_to_x_default exColl2_stands.object exName exMomName none none
example := C65_to_x_dims_refused exColl2_stands.object (ds := [p, q]) (by decide) (by decide) exName
  exMomName none
example := C65_to_x_mom_dims_refused exColl2_stands.object (ds := [p]) (mds := [m]) (by decide)
  (by decide) exName exMomName
example := C65_to_x_template exColl2_stands.object (template := ⟨⟨[p, m, n], fun _ => 0⟩, fun _ => 2⟩)
  (by decide) exName exMomName
example : exNamedObj.dims.map exNamedObj.size = [3, 2, 3] := by decide
example := C65_round_trip exNamedObj_good rfl exName exMomName none
example := C65_zeros (α := ℚ) (vs := [2]) (mom := [2, 3]) (by decide) (by decide) (ds := [t])
  (mds := [m, n]) rfl rfl (by decide) exName exMomName

/-- A labelled object with known samples. -/
theorem exStat_named : ∃ out : DataArray ExDim ℚ, StandsNamed core1 (Holds 3) out [m]
    (fun c => exStatL (coordsAlong [p] c)) ∧ valDims out [m] = [p] ∧ out.size m = 4 := by
  obtain ⟨out, h1, -, h3, h4, h5, h6, h7, h8⟩ := C65_to_x exStat_object.stands.object (ds := [p])
    (mds := [m]) rfl rfl (by decide) exName exMomName
  obtain ⟨out', k1, k2⟩ := C65_to_x_samples core1_ok exStat_object.stands (ds := [p]) (mds := [m]) rfl rfl
    (by decide) exName exMomName
  rw [k1] at h1
  cases h1
  exact ⟨out, k2, h4, by simpa using h7⟩

example := C65_to_x_samples core2_ok exColl2_stands (ds := [p]) (mds := [m, n]) rfl rfl (by decide)
  exName exMomName

example : ∃ out : DataArray ExDim ℚ, StandsNamed core1 (Holds 3) out [m]
    (fun c => exStatL (coordsAlong [p] (fun d => if d = p then c b else c d))) := by
  obtain ⟨obj, hS, hv, -⟩ := exStat_named
  obtain ⟨out, h1, h2, h3, h4, h5⟩ := C65_rename hS.object (old := p) (new := b) (by rw [hv]; decide) (by
    intro h
    have : b ∈ valDims obj [m] := List.mem_filter.2 ⟨h, by decide⟩
    rw [hv] at this
    revert this
    decide)
  exact ⟨out, C65_keep_samples hS h5⟩

example : ∃ (obj : DataArray ExDim ℚ) (L : (ℕ → ℕ) → List (Sample ℚ)),
    obj.dims = [p, m] ∧ Stands core1 (Holds 3) (toArrayX obj) [obj.size p] [obj.size m] L := by
  obtain ⟨obj, k1, -, h3, h4, h5, h6, h7, h8⟩ := C65_to_x exStat_object.stands.object (ds := [p])
    (mds := [m]) rfl rfl (by decide) exName exMomName
  obtain ⟨obj', k1', hS⟩ := C65_to_x_samples core1_ok exStat_object.stands (ds := [p]) (mds := [m]) rfl rfl
    (by decide) exName exMomName
  rw [k1'] at k1
  cases k1
  have h4' : obj.size m = 4 := by simpa using h7
  have := C65_to_array_samples hS (fun d hd => by rw [List.mem_singleton.1 hd]; omega) (.inl rfl)
    (by rw [h3, h4])
  rw [h4] at this
  exact ⟨obj, _, h3, this⟩

end Examples

end Cmomy
