import Verif.Spec.Coords
import Verif.Lemmas.Dataset
import Verif.Lemmas.LabelledCollect

/-!
# Coordinates of the results
-/

set_option linter.unusedSectionVars false

namespace Cmomy

open Spec Axes Labelled

variable {δ : Type} [DecidableEq δ] {α γ : Type}

namespace Labelled

theorem Alike.trans' {a b c : DataArray δ γ} (h : Alike a b) (h' : Alike b c) : Alike a c :=
  ⟨h.dims_eq.trans h'.dims_eq, fun d hd => (h.size_eq d hd).trans (h'.size_eq d (h.dims_eq ▸ hd)),
    fun p => (h.entry_eq p).trans (h'.entry_eq p)⟩

theorem map_update_set {dims : List δ} (hn : dims.Nodup) (p : δ → ℕ) {d : δ} (hd : d ∈ dims) (v : ℕ) :
    (dims.map p).set (dims.idxOf d) v = dims.map (Function.update p d v) := by
  apply List.ext_getElem
  · simp
  · intro i h1 h2
    have hi : i < dims.length := by simpa using h2
    rw [List.getElem_set, List.getElem_map]
    by_cases h : dims.idxOf d = i
    · subst h
      rw [if_pos rfl, List.getElem_map, List.getElem_idxOf, Function.update_self]
    · rw [if_neg h, List.getElem_map, Function.update_of_ne]
      intro e
      exact h (by rw [← e]; exact hn.idxOf_getElem i hi)

theorem entry_takeAlong {c : DataArray δ γ} (hn : c.dims.Nodup) {d : δ} (hd : d ∈ c.dims) (sel : List ℕ)
    (p : δ → ℕ) : entry (takeAlong c d sel) p = entry c (Function.update p d (sel.getD (p d) 0)) := by
  show c.data _ = c.data _
  have : (c.dims.map p).getD (c.dims.idxOf d) 0 = p d := by
    have hl := List.idxOf_lt_length_of_mem hd
    rw [List.getD_eq_getElem _ _ (by simpa using hl), List.getElem_map, List.getElem_idxOf]
  show c.data ((c.dims.map p).set _ (sel.getD ((c.dims.map p).getD _ 0) 0)) = _
  rw [this, map_update_set hn p hd]

/-- Selecting positions. -/
theorem replace_picked {coords : CoordList δ γ} (hn : ∀ c ∈ coords, c.2.dims.Nodup) (d : δ)
    (sel : List ℕ) :
    CoordsPicked coords (replaceCoords coords d sel) d d sel.length (fun j => sel.getD j 0) := by
  induction coords with
  | nil => exact List.Forall₂.nil
  | cons c coords ih =>
    refine List.Forall₂.cons ⟨?_, ?_, ?_⟩ (ih fun c hc => hn c (List.mem_cons_of_mem _ hc))
    · show c.1 = _
      split_ifs with h
      · exact h
      · rfl
    · intro hd
      show Alike (if d ∈ c.2.dims then _ else _) _
      rw [if_neg hd]
      exact alike_refl _
    · intro hd
      show ShowsNamed (if d ∈ c.2.dims then _ else _) _ _ _
      rw [if_pos hd]
      refine ⟨?_, fun e _ => rfl, fun p _ => entry_takeAlong (hn c List.mem_cons_self) hd sel p⟩
      show c.2.dims = _
      unfold renamed
      conv_lhs => rw [← List.map_id c.2.dims]
      refine List.map_congr_left fun e _ => ?_
      by_cases h : e = d
      · rw [if_pos h]; exact h
      · rw [if_neg h]; rfl

/-- Keeping all positions. -/
theorem keep_picked {coords : CoordList δ γ} {d : δ} {n : ℕ}
    (hs : ∀ c ∈ coords, d ∈ c.2.dims → c.2.size d = n) : CoordsPicked coords coords d d n id := by
  induction coords with
  | nil => exact List.Forall₂.nil
  | cons c coords ih =>
    refine List.Forall₂.cons ⟨?_, fun _ => alike_refl _, fun hd => ⟨?_, fun e _ => ?_, fun p _ => ?_⟩⟩
      (ih fun c hc => hs c (List.mem_cons_of_mem _ hc))
    · split_ifs with h
      · exact h
      · rfl
    · unfold renamed
      conv_lhs => rw [← List.map_id c.2.dims]
      refine List.map_congr_left fun e _ => ?_
      by_cases h : e = d
      · rw [if_pos h]; exact h
      · rw [if_neg h]; rfl
    · by_cases h : e = d
      · rw [h]
        show _ = if d = d then n else _
        rw [if_pos rfl]
        exact hs c List.mem_cons_self hd
      · show _ = if e = d then n else _
        rw [if_neg h]
    · rw [id, Function.update_eq_self]

theorem renamed_self (dims : List δ) (d : δ) : renamed dims d d = dims := by
  unfold renamed
  conv_rhs => rw [← List.map_id dims]
  refine List.map_congr_left fun e _ => ?_
  by_cases h : e = d
  · rw [if_pos h]; exact h.symm
  · rw [if_neg h]; rfl

/-- One coordinate after `rename`. -/
def renamedCoord (c : DataArray δ γ) (old new : δ) : DataArray δ γ :=
  { dims := c.dims.map (fun d => if d = old then new else d), data := c.data,
    size := fun d => if d = new then c.size old else c.size d }

theorem renamedCoord_alike {c : DataArray δ γ} {old new : δ} (ho : old ∉ c.dims) (hw : new ∉ c.dims) :
    Alike (renamedCoord c old new) c := by
  have hd : (renamedCoord c old new).dims = c.dims := by
    show c.dims.map _ = _
    conv_rhs => rw [← List.map_id c.dims]
    refine List.map_congr_left fun e he => ?_
    rw [if_neg (show ¬ e = old from fun h => ho (h ▸ he))]
    rfl
  refine ⟨hd, fun d hd' => ?_, fun p => ?_⟩
  · rw [hd] at hd'
    show (if d = new then _ else _) = _
    rw [if_neg (show ¬ d = new from fun h => hw (h ▸ hd'))]
  · show c.data ((renamedCoord c old new).dims.map p) = _
    rw [hd]
    rfl

theorem renameCoords_some {coords : CoordList δ γ} {old new : δ} (hne : new ≠ old)
    (hc : ∀ c ∈ coords, c.1 ≠ new) :
    renameCoords coords old (some new) = .ok (coords.map (fun c =>
      (if c.1 = old then new else c.1, renamedCoord c.2 old new))) := by
  unfold renameCoords
  show (if new = old then _ else _) = _
  rw [if_neg hne, if_neg]
  · rfl
  · rintro ⟨c, h1, h2⟩
    exact hc c h1 h2

/-- Renaming after a selection. -/
theorem rename_picked {coords cs : CoordList δ γ} {d : δ} {n : ℕ} {pick : ℕ → ℕ}
    (h : CoordsPicked coords cs d d n pick) {group : Option δ}
    (hg : ∀ g, group = some g → g = d ∨ ∀ c ∈ coords, c.1 ≠ g ∧ g ∉ c.2.dims) :
    ∃ out, renameCoords cs d group = .ok out ∧ CoordsPicked coords out d (group.getD d) n pick := by
  cases group with
  | none => exact ⟨cs, rfl, h⟩
  | some g =>
    by_cases hgd : g = d
    · subst hgd
      refine ⟨cs, ?_, h⟩
      unfold renameCoords
      show (if g = g then _ else _) = _
      rw [if_pos rfl]
    · have hg' := (hg g rfl).resolve_left hgd
      have hnm : ∀ c ∈ cs, c.1 ≠ g := by
        intro c hc
        clear hg
        induction h with
        | nil => cases hc
        | cons hd _ ih =>
          rcases List.mem_cons.1 hc with rfl | hc
          · rw [hd.1]
            split_ifs with h1
            · exact fun h2 => hgd h2.symm
            · exact (hg' _ List.mem_cons_self).1
          · exact ih (fun c hc => hg' c (List.mem_cons_of_mem _ hc)) hc
      refine ⟨_, renameCoords_some hgd hnm, ?_⟩
      clear hg hnm
      show CoordsPicked coords _ d g n pick
      unfold CoordsPicked at h ⊢
      induction h with
      | nil => exact List.Forall₂.nil
      | @cons c c' _ _ hd _ ih =>
        obtain ⟨h1, h2, h3⟩ := hd
        obtain ⟨-, hgc⟩ := hg' c List.mem_cons_self
        refine List.Forall₂.cons ⟨?_, ?_, ?_⟩ (ih fun c hc => hg' c (List.mem_cons_of_mem _ hc))
        · show (if c'.1 = d then g else c'.1) = _
          rw [h1]
          by_cases h : c.1 = d
          · rw [if_pos h, if_pos rfl, if_pos h]
          · rw [if_neg h, if_neg h]
        · intro hdc
          have ha := h2 hdc
          exact Alike.trans' (renamedCoord_alike (ha.dims_eq ▸ hdc) (ha.dims_eq ▸ hgc)) ha
        · intro hdc
          obtain ⟨s1, s2, s3⟩ := h3 hdc
          rw [renamed_self] at s1 s2 s3
          refine ⟨?_, fun e he => ?_, fun p hp => ?_⟩
          · show c'.2.dims.map _ = _
            rw [s1]
            rfl
          · show (if e = g then c'.2.size d else c'.2.size e) = if e = g then n else c.2.size e
            by_cases heg : e = g
            · rw [if_pos heg, if_pos heg, s2 d hdc]
              show (if d = d then n else _) = n
              rw [if_pos rfl]
            · rw [if_neg heg, if_neg heg]
              obtain ⟨e', he', e2⟩ := List.mem_map.1 he
              by_cases h : e' = d
              · rw [if_pos h] at e2; exact absurd e2.symm heg
              · rw [if_neg h] at e2
                subst e2
                rw [s2 e' he']
                show (if e' = d then n else _) = _
                rw [if_neg h]
          · have hmap : (c'.2.dims.map (fun e => if e = d then g else e)).map p
                = c'.2.dims.map (Function.update p d (p g)) := by
              rw [List.map_map]
              refine List.map_congr_left fun e _ => ?_
              show p (if e = d then g else e) = _
              by_cases h : e = d
              · rw [if_pos h, h, Function.update_self]
              · rw [if_neg h, Function.update_of_ne h]
            show c'.2.data ((c'.2.dims.map (fun e => if e = d then g else e)).map p) = _
            rw [hmap]
            have := s3 (Function.update p d (p g)) (fun e he => by
              by_cases h : e = d
              · subst h
                rw [Function.update_self]
                have := hp g (List.mem_map.2 ⟨e, he, if_pos rfl⟩)
                show p g < if e = e then n else _
                rw [if_pos rfl]
                simpa using this
              · rw [Function.update_of_ne h]
                have := hp e (List.mem_map.2 ⟨e, he, if_neg h⟩)
                show p e < if e = d then n else c.2.size e
                rw [if_neg h]
                have hne : e ≠ g := fun h => hgc (h ▸ he)
                simpa [hne] using this)
            rw [show c'.2.data (c'.2.dims.map (Function.update p d (p g)))
              = entry c'.2 (Function.update p d (p g)) from rfl, this, Function.update_self,
              Function.update_idem]

/-- The coordinates which `apply_ufunc` keeps. -/
theorem ufunc_without {coords : CoordList δ γ} (hn : (coords.map Prod.fst).Nodup)
    {inCore outCore exclude ds : List δ}
    (h : ∀ c ∈ coords, ∀ d ∈ c.2.dims, (d ∉ exclude ∧ (d ∈ inCore → d ∈ outCore)) ↔ d ∉ ds) :
    CoordsWithout coords (ufuncCoords coords inCore outCore exclude) ds := by
  have hmem : ∀ c, c ∈ ufuncCoords coords inCore outCore exclude ↔
      c ∈ coords ∧ ∀ d ∈ ds, d ∉ c.2.dims := by
    intro c
    unfold ufuncCoords
    rw [List.mem_filter]
    refine and_congr_right fun hc => ?_
    simp only [List.all_eq_true, decide_eq_true_eq]
    constructor
    · intro h1 d hd hdc
      exact (h c hc d hdc).1 (h1 d hdc) hd
    · intro h1 d hdc
      exact (h c hc d hdc).2 fun hd => h1 d hd hdc
  refine ⟨fun c hc hd => ⟨c, (hmem c).2 ⟨hc, hd⟩, rfl, alike_refl _⟩, fun c' hc' => ?_, ?_⟩
  · obtain ⟨h1, h2⟩ := (hmem c').1 hc'
    exact ⟨c', h1, h2, rfl, alike_refl _⟩
  · exact List.Nodup.sublist (List.Sublist.map _ List.filter_sublist) hn

theorem ufunc_all {coords : CoordList δ γ} (core : List δ) : ufuncCoords coords core core [] = coords := by
  unfold ufuncCoords
  rw [List.filter_eq_self]
  intro c _
  simp

/-- Renaming what is left when `d` has gone. -/
theorem rename_without {coords cs : CoordList δ γ} {d : δ} (h : CoordsWithout coords cs [d])
    (hown : ∀ c ∈ coords, c.1 = d → d ∈ c.2.dims) {group : Option δ}
    (hg : ∀ g, group = some g → g = d ∨ ∀ c ∈ coords, c.1 ≠ g ∧ g ∉ c.2.dims) :
    ∃ out, renameCoords cs d group = .ok out ∧ CoordsWithout coords out [d] := by
  cases group with
  | none => exact ⟨cs, rfl, h⟩
  | some g =>
    by_cases hgd : g = d
    · subst hgd
      refine ⟨cs, ?_, h⟩
      unfold renameCoords
      show (if g = g then _ else _) = _
      rw [if_pos rfl]
    · have hg' := (hg g rfl).resolve_left hgd
      have hnm : ∀ c ∈ cs, c.1 ≠ g := by
        intro c' hc'
        obtain ⟨c, hc, -, e, -⟩ := h.2.1 c' hc'
        rw [e]
        exact (hg' c hc).1
      have hnd : ∀ c ∈ cs, c.1 ≠ d := by
        intro c' hc' e'
        obtain ⟨c, hc, h1, e, -⟩ := h.2.1 c' hc'
        exact h1 d (by simp) (hown c hc (e ▸ e'))
      have hal : ∀ c' ∈ cs, Alike (renamedCoord c'.2 d g) c'.2 := by
        intro c' hc'
        obtain ⟨c, hc, h1, -, ha⟩ := h.2.1 c' hc'
        exact renamedCoord_alike (ha.dims_eq ▸ h1 d (by simp)) (ha.dims_eq ▸ (hg' c hc).2)
      refine ⟨_, renameCoords_some hgd hnm, fun c hc hd => ?_, fun c'' hc'' => ?_, ?_⟩
      · obtain ⟨c', hc', e, ha⟩ := h.1 c hc hd
        refine ⟨_, List.mem_map.2 ⟨c', hc', rfl⟩, ?_, Alike.trans' (hal c' hc') ha⟩
        show (if c'.1 = d then g else c'.1) = _
        rw [if_neg (hnd c' hc'), e]
      · obtain ⟨c', hc', rfl⟩ := List.mem_map.1 hc''
        obtain ⟨c, hc, h1, e, ha⟩ := h.2.1 c' hc'
        refine ⟨c, hc, h1, ?_, Alike.trans' (hal c' hc') ha⟩
        show (if c'.1 = d then g else c'.1) = _
        rw [if_neg (hnd c' hc'), e]
      · rw [List.map_map]
        have : cs.map (Prod.fst ∘ fun c => (if c.1 = d then g else c.1, renamedCoord c.2 d g))
            = cs.map Prod.fst := by
          refine List.map_congr_left fun c hc => ?_
          show (if c.1 = d then g else c.1) = c.1
          rw [if_neg (hnd c hc)]
        rw [this]
        exact h.2.2

/-- The coordinate which `assign_coords` makes. -/
def freshCoord [Inhabited γ] (d : δ) (n : ℕ) (labels : List γ) : DataArray δ γ where
  dims := [d]
  data := fun idx => labels.getD (idx.headD 0) default
  size := fun _ => n

/-- Labels put on the new dimension, and its name changed. -/
theorem assign_labelled [Inhabited γ] {coords cs : CoordList δ γ} {d : δ}
    (h : CoordsWithout coords cs [d]) (hown : ∀ c ∈ coords, c.1 = d → d ∈ c.2.dims) {group : Option δ}
    (hg : ∀ g, group = some g → g = d ∨ ∀ c ∈ coords, c.1 ≠ g ∧ g ∉ c.2.dims) (n : ℕ)
    (labels : List γ) :
    (labels.length ≠ n → assignCoord cs d n labels = .error .valueError) ∧
    (labels.length = n → ∃ out, ((assignCoord cs d n labels).bind fun cs => renameCoords cs d group)
      = .ok out ∧ CoordsLabelled coords out d (group.getD d) labels) := by
  refine ⟨fun hl => if_pos hl, fun hl => ?_⟩
  have hnd : ∀ c ∈ cs, c.1 ≠ d := by
    intro c' hc' e'
    obtain ⟨c, hc, h1, e, -⟩ := h.2.1 c' hc'
    exact h1 d (by simp) (hown c hc (e ▸ e'))
  have hf : cs.filter (fun c => decide (c.1 ≠ d)) = cs := by
    rw [List.filter_eq_self]
    intro c hc
    exact decide_eq_true (hnd c hc)
  have ea : assignCoord cs d n labels = .ok (cs ++ [(d, freshCoord d n labels)]) := by
    unfold assignCoord
    rw [if_neg (not_not.2 hl), hf]
    rfl
  rw [ea]
  show ∃ out, renameCoords _ d group = _ ∧ _
  have hsame : ∀ g, g = d → CoordsLabelled coords (cs ++ [(d, freshCoord d n labels)]) d g labels := by
    rintro g rfl
    refine ⟨cs, _, rfl, h, ?_, rfl, hl.symm, fun j hj => ?_⟩
    · intro hm
      obtain ⟨c, hc, e⟩ := List.mem_map.1 hm
      exact hnd c hc e
    · show labels.getD j default = _
      exact List.getD_eq_getElem _ _ hj
  cases group with
  | none => exact ⟨_, rfl, hsame d rfl⟩
  | some g =>
    by_cases hgd : g = d
    · subst hgd
      refine ⟨_, ?_, hsame g rfl⟩
      unfold renameCoords
      show (if g = g then _ else _) = _
      rw [if_pos rfl]
    · obtain ⟨rest, er, hr⟩ := rename_without h hown hg
      have hg' := (hg g rfl).resolve_left hgd
      have hnm : ∀ c ∈ cs, c.1 ≠ g := by
        intro c' hc'
        obtain ⟨c, hc, -, e, -⟩ := h.2.1 c' hc'
        rw [e]
        exact (hg' c hc).1
      rw [renameCoords_some hgd hnm, Except.ok.injEq] at er
      rw [renameCoords_some hgd (by
        intro c hc
        rcases List.mem_append.1 hc with hc | hc
        · exact hnm c hc
        · rw [List.mem_singleton.1 hc]
          exact fun h => hgd h.symm), List.map_append, er]
      refine ⟨_, rfl, rest, renamedCoord (freshCoord d n labels) d g, ?_, hr, ?_, ?_, ?_, ?_⟩
      · show _ = rest ++ [(g, renamedCoord (freshCoord d n labels) d g)]
        rw [List.map_singleton]
        show rest ++ [(if d = d then g else d, _)] = _
        rw [if_pos rfl]
      · intro hm
        obtain ⟨c', hc', e⟩ := List.mem_map.1 hm
        obtain ⟨c, hc, -, e2, -⟩ := hr.2.1 c' hc'
        exact (hg' c hc).1 (e2 ▸ e)
      · show [if d = d then g else d] = [g]
        rw [if_pos rfl]
      · show (if g = g then n else n) = _
        rw [if_pos rfl, hl]
      · intro j hj
        show labels.getD j default = _
        exact List.getD_eq_getElem _ _ hj

theorem bind_map {β β' β'' : Type} (a : Py β) (f : β → Py β') (g : β' → β'') :
    (a.bind fun v => (f v).map g) = (a.bind f).map g := by
  cases a <;> rfl

theorem picked_congr {coords out : CoordList δ γ} {old new : δ} {n : ℕ} {pick pick' : ℕ → ℕ}
    (h : CoordsPicked coords out old new n pick) (hp : ∀ j < n, pick j = pick' j) :
    CoordsPicked coords out old new n pick' := by
  refine List.Forall₂.imp (fun c c' h => ⟨h.1, h.2.1, fun hd => ?_⟩) h
  obtain ⟨h1, h2, h3⟩ := h.2.2 hd
  refine ⟨h1, h2, fun p hb => ?_⟩
  have := hb new (new_mem_renamed hd)
  rw [h3 p hb, hp _ (by simpa using this)]

/-! ### Places in the index -/

theorem dimSelect_ok (last : Bool) {n : ℕ} {index start stop : List ℤ}
    (hv : Indexed.validateIndex n index start stop = .ok ()) (hi : index ≠ []) :
    dimSelect last index start stop = .ok ((List.range start.length).map
      (fun j => (index.getD (pickPlace last index start stop j) 0).toNat)) := by
  obtain ⟨hl, -, h⟩ := (C35_acceptance _ _ _ _).1 hv
  obtain ⟨-, -, -, -, ha, hb⟩ := h.resolve_left fun h => hi h.1
  have hpos : 0 < index.length := List.length_pos_of_ne_nil hi
  have key : ∀ {l : List ℤ} {f : ℕ → ℕ}, l.length = start.length →
      (∀ j (hj : j < l.length), npItem index l[j] = .ok (index.getD (f j) 0)) →
      (l.mapM (npItem index)).map (·.map Int.toNat)
        = .ok ((List.range start.length).map (fun j => (index.getD (f j) 0).toNat)) := by
    intro l f hll hf
    have : l.mapM (npItem index) = .ok ((List.range start.length).map (fun j => index.getD (f j) 0)) := by
      rw [mapM_ok_iff]
      apply List.ext_getElem
      · simp [hll]
      · intro j h1 h2
        have hj : j < l.length := by simpa using h1
        simp [hf j hj]
    rw [this]
    show Except.ok (List.map Int.toNat (List.map _ _)) = _
    rw [List.map_map]
    rfl
  unfold dimSelect
  cases last with
  | false =>
    show (start.mapM (npItem index)).map _ = _
    refine key (f := fun j => pickPlace false index start stop j) rfl fun j hj => ?_
    obtain ⟨h1, h2⟩ := ha _ (List.getElem_mem hj)
    unfold npItem pickPlace
    rw [if_pos ⟨h1, h2⟩]
    simp [hj]
  | true =>
    show ((stop.map (· - 1)).mapM (npItem index)).map _ = _
    refine key (f := fun j => pickPlace true index start stop j) (by simp [hl]) fun j hj => ?_
    have hj' : j < stop.length := by simpa using hj
    obtain ⟨h1, h2⟩ := hb _ (List.getElem_mem hj')
    rw [List.getElem_map]
    unfold npItem pickPlace
    rw [if_pos rfl, List.getD_eq_getElem _ _ hj']
    by_cases h0 : stop[j] = 0
    · rw [if_neg (by omega), if_pos (by omega), if_pos h0]
      congr 2
      omega
    · rw [if_pos (by omega), if_neg h0]

theorem dimSelect_empty (last : Bool) {start stop : List ℤ} (hs : start ≠ []) (hl : start.length = stop.length) :
    dimSelect last [] start stop = .error .indexError := by
  have key : ∀ {l : List ℤ}, l ≠ [] → (l.mapM (npItem [])).map (·.map Int.toNat) = .error .indexError := by
    intro l hl
    cases l with
    | nil => exact absurd rfl hl
    | cons a l =>
      rw [List.mapM_cons]
      have : npItem [] a = .error .indexError := by
        unfold npItem
        rw [if_neg (by simp), if_neg (by simp)]
      rw [this]
      rfl
  have ht : stop ≠ [] := by
    rintro rfl
    exact hs (List.length_eq_zero_iff.1 hl)
  unfold dimSelect
  cases last with
  | false => exact key hs
  | true => exact key (by simpa using ht)

/-! ### Stable sorts -/

theorem isArgsort_of_stable {argsort : List ℤ → List ℕ} (h : IsStableArgsort argsort) :
    IsArgsort argsort := by
  intro l
  refine ⟨(h l).1, ?_⟩
  rw [List.pairwise_map]
  exact (h l).2.imp fun h => h.elim le_of_lt fun h => le_of_eq h.1

/-- A stable sort leaves the positions of equal codes in order. -/
theorem codesToIndex_stable {argsort : List ℤ → List ℕ} (h : IsStableArgsort argsort) (codes : List ℤ) :
    (Factor.codesToIndex argsort codes).1.Pairwise (fun i j =>
      Factor.codeAt codes i = Factor.codeAt codes j → i < j) := by
  have hst : ∀ l : List ℤ, (argsort l).Pairwise (fun i j =>
      (l[i]?).getD 0 = (l[j]?).getD 0 → i < j) := by
    intro l
    refine (h l).2.imp fun h e => ?_
    rcases h with h | h
    · exact absurd e (ne_of_lt h)
    · exact h.2
  unfold Factor.codesToIndex
  by_cases hall : codes.all (fun c => decide (0 ≤ c)) = true
  · simp only [hall, if_true]
    exact hst codes
  · simp only [hall, if_false, Bool.false_eq_true]
    set kc := codes.filter (fun c => decide (0 ≤ c)) with hkc
    have hkc' : kc = (Factor.keptPositions codes).map (Factor.codeAt codes) := Factor.filter_eq_map_kept codes
    rw [List.pairwise_map]
    have hlt : ∀ i ∈ argsort kc, i < (Factor.keptPositions codes).length := by
      intro i hi
      have := (h kc).1.mem_iff.1 hi
      rw [List.mem_range, hkc', List.length_map] at this
      exact this
    have hsorted : (Factor.keptPositions codes).Pairwise (· < ·) :=
      List.Pairwise.filter _ List.pairwise_lt_range
    refine List.Pairwise.imp_of_mem (fun {i j} hi hj hij e => ?_) (hst kc)
    have hi := hlt i hi
    have hj := hlt j hj
    simp only [List.getElem?_eq_getElem hi, List.getElem?_eq_getElem hj, Option.getD_some] at e ⊢
    have := hij (by
      rw [hkc']
      simpa [hi, hj] using e)
    exact List.pairwise_iff_getElem.1 hsorted _ _ hi hj this

theorem slice_getElem_mem {β : Type*} {l : List β} {a b q : ℕ} (h1 : a ≤ q) (h2 : q < b) (hq : q < l.length) :
    l[q] ∈ slice l a b := by
  unfold slice
  rw [List.mem_iff_getElem]
  refine ⟨q - a, by simp; omega, ?_⟩
  rw [List.getElem_drop, List.getElem_take]
  congr 1
  omega

theorem slice_mem_getElem {β : Type*} {l : List β} {a b : ℕ} {x : β} (h : x ∈ slice l a b) :
    ∃ q, ∃ hq : q < l.length, a ≤ q ∧ q < b ∧ l[q] = x := by
  unfold slice at h
  obtain ⟨i, hi, e⟩ := List.getElem_of_mem h
  have hi' : i + a < l.length ∧ i + a < b := by
    simp at hi
    omega
  refine ⟨i + a, hi'.1, by omega, hi'.2, ?_⟩
  rw [List.getElem_drop, List.getElem_take] at e
  rw [← e]
  congr 1
  omega

/-- The sample at the beginning, or before the end, of each group of `factor_by_to_index`. -/
theorem index_ends {argsort : List ℤ → List ℕ} (ha : IsArgsort argsort) {labels : List (Option ℤ)}
    {gs : List ℤ} (hg : GroupsOf labels gs) {index start stop : List ℕ}
    (e : Factor.factorByToIndex argsort false labels = (gs, index, start, stop)) (last : Bool) {j : ℕ}
    (hj : j < gs.length) :
    let i := ((index.map (fun i : ℕ => (i : ℤ))).getD (pickPlace last (index.map (fun i : ℕ => (i : ℤ)))
      (start.map (fun i : ℕ => (i : ℤ))) (stop.map (fun i : ℕ => (i : ℤ))) j) 0).toNat
    labels[i]? = some (some gs[j]) ∧ (IsStableArgsort argsort → EndWith last labels gs[j] i) := by
  intro i
  obtain ⟨groups', index', start', stop', e', h4, h5, h6, -⟩ := C34_index_slices argsort ha false labels
  rw [e] at e'
  obtain ⟨rfl, rfl, rfl, rfl⟩ : gs = groups' ∧ index = index' ∧ start = start' ∧ stop = stop' := by
    simpa using e'
  obtain ⟨index', start', stop', e', -, -, -, hval⟩ := index_table (α := ℕ) ha hg
  rw [e] at e'
  obtain ⟨rfl, rfl, rfl⟩ : index = index' ∧ start = start' ∧ stop = stop' := by simpa using e'
  have hv := (hval labels.length).1 fun i z h _ => by
    by_contra hc
    rw [List.getElem?_eq_none (by omega)] at h
    cases h
  obtain ⟨a, b, ea, eb, hperm⟩ := h6 j hj
  obtain ⟨hjs, ea'⟩ := List.getElem?_eq_some_iff.1 ea
  obtain ⟨hjt, eb'⟩ := List.getElem?_eq_some_iff.1 eb
  have hmem : ∀ q, q ∈ slice index a b ↔ labels[q]? = some (some gs[j]) := by
    intro q
    rw [hperm.mem_iff]
    unfold positionsWhere
    rw [List.mem_filter, List.mem_range]
    constructor
    · rintro ⟨h1, h2⟩
      rw [List.getElem?_eq_getElem h1, Option.any_some] at h2
      rw [List.getElem?_eq_getElem h1, of_decide_eq_true h2]
    · intro h
      obtain ⟨h1, h2⟩ := List.getElem?_eq_some_iff.1 h
      refine ⟨h1, ?_⟩
      rw [h]
      simp
  have hne : ∃ q, q ∈ slice index a b := by
    obtain ⟨q, hq, h⟩ := List.getElem_of_mem ((hg.2 gs[j]).1 (List.getElem_mem hj)).1
    exact ⟨q, (hmem q).2 (by rw [List.getElem?_eq_getElem hq, h])⟩
  obtain ⟨q0, hq0⟩ := hne
  obtain ⟨p0, hp0, hp1, hp2, -⟩ := slice_mem_getElem hq0
  have hne : index ≠ [] := by
    rintro rfl
    simp at hp0
  obtain ⟨-, -, h⟩ := (C35_acceptance _ _ _ _).1 hv
  obtain ⟨-, -, -, -, -, hb⟩ := h.resolve_left fun h => hne (by simpa using h.1)
  have hbl : b ≤ index.length := by
    have := (hb (b : ℤ) (List.mem_map.2 ⟨b, List.mem_of_getElem? eb, rfl⟩)).2
    rw [List.length_map] at this
    omega
  -- the place
  have hplace : ∃ q, ∃ hq : q < index.length, i = index[q] ∧ a ≤ q ∧ q < b ∧
      (if last then q = b - 1 else q = a) := by
    have hcast : ∀ q (hq : q < index.length),
        ((index.map (fun i : ℕ => (i : ℤ))).getD q 0).toNat = index[q] := by
      intro q hq
      rw [List.getD_eq_getElem _ _ (by simpa using hq), List.getElem_map]
      exact Int.toNat_natCast _
    cases hlast : last with
    | false =>
      refine ⟨a, by omega, ?_, le_refl _, by omega, by simp⟩
      show ((index.map (fun i : ℕ => (i : ℤ))).getD (pickPlace last _ _ _ j) 0).toNat = _
      have : pickPlace last (index.map (fun i : ℕ => (i : ℤ))) (start.map (fun i : ℕ => (i : ℤ)))
          (stop.map (fun i : ℕ => (i : ℤ))) j = a := by
        unfold pickPlace
        rw [hlast, if_neg (by simp), List.getD_eq_getElem _ _ (by simpa using hjs), List.getElem_map, ea']
        exact Int.toNat_natCast _
      rw [this, hcast]
    | true =>
      refine ⟨b - 1, by omega, ?_, by omega, by omega, by simp⟩
      show ((index.map (fun i : ℕ => (i : ℤ))).getD (pickPlace last _ _ _ j) 0).toNat = _
      have : pickPlace last (index.map (fun i : ℕ => (i : ℤ))) (start.map (fun i : ℕ => (i : ℤ)))
          (stop.map (fun i : ℕ => (i : ℤ))) j = b - 1 := by
        unfold pickPlace
        rw [hlast, if_pos rfl, List.getD_eq_getElem _ _ (by simpa using hjt), List.getElem_map, eb',
          if_neg (by omega)]
        omega
      rw [this, hcast]
  obtain ⟨q, hq, hiq, hq1, hq2, hqe⟩ := hplace
  have hil : labels[i]? = some (some gs[j]) := by
    rw [← hmem, hiq]
    exact slice_getElem_mem hq1 hq2 hq
  refine ⟨hil, fun hst => ⟨hil, fun i' hi' => ?_⟩⟩
  obtain ⟨q', hq', h1, h2, rfl⟩ := slice_mem_getElem ((hmem i').2 hi')
  -- equal labels have equal codes
  obtain ⟨groups, codes, e1, hnd, -, -, hlen, hcode⟩ := C34_codes true false labels
  have hix : index = (Factor.codesToIndex argsort codes).1 := by
    have := congrArg (fun t => t.2.1) e
    simp only [Factor.factorByToIndex, e1] at this
    exact this.symm
  have hpw := codesToIndex_stable hst codes
  rw [← hix] at hpw
  have hceq : ∀ u v : ℕ, labels[u]? = some (some gs[j]) → labels[v]? = some (some gs[j]) →
      Factor.codeAt codes u = Factor.codeAt codes v := by
    have h0 := ((hg.2 gs[j]).1 (List.getElem_mem hj)).2
    have hc : ∀ u : ℕ, labels[u]? = some (some gs[j]) → 0 ≤ Factor.codeAt codes u ∧
        groups[(Factor.codeAt codes u).toNat]? = some gs[j] := by
      intro u hu
      obtain ⟨hu1, hu2⟩ := List.getElem?_eq_some_iff.1 hu
      have hu3 : u < codes.length := by omega
      have := (hcode u hu1 hu3).2 gs[j] hu2 (.inr h0)
      unfold Factor.codeAt
      rw [List.getElem?_eq_getElem hu3]
      exact this
    intro u v hu hv
    obtain ⟨u1, u2⟩ := hc u hu
    obtain ⟨v1, v2⟩ := hc v hv
    obtain ⟨u3, u4⟩ := List.getElem?_eq_some_iff.1 u2
    obtain ⟨v3, v4⟩ := List.getElem?_eq_some_iff.1 v2
    have := (hnd.getElem_inj_iff (hi := u3) (hj := v3)).1 (u4.trans v4.symm)
    omega
  have hmono : ∀ u v (hu : u < index.length) (hv : v < index.length), u < v → a ≤ u → v < b →
      index[u] < index[v] := by
    intro u v hu hv huv hau hvb
    refine List.pairwise_iff_getElem.1 hpw u v hu hv huv (hceq _ _ ?_ ?_)
    · exact (hmem _).1 (slice_getElem_mem hau (by omega) hu)
    · exact (hmem _).1 (slice_getElem_mem (by omega) hvb hv)
  rw [hiq]
  cases last with
  | false =>
    simp only [Bool.false_eq_true, if_false] at hqe ⊢
    rcases Nat.lt_or_eq_of_le (show q ≤ q' by omega) with h | h
    · exact le_of_lt (hmono q q' hq hq' h hq1 h2)
    · subst h; exact le_refl _
  | true =>
    simp only [if_true] at hqe ⊢
    rcases Nat.lt_or_eq_of_le (show q' ≤ q by omega) with h | h
    · exact le_of_lt (hmono q' q hq' hq h h1 hq2)
    · subst h; exact le_refl _

theorem mem_of_lookup {β : Type} {l : List (δ × β)} {a : δ} {b : β} (h : l.lookup a = some b) :
    (a, b) ∈ l := by
  induction l with
  | nil => cases h
  | cons p l ih =>
    rw [List.lookup_cons] at h
    by_cases hp : (a == p.1) = true
    · rw [hp] at h
      have h1 : a = p.1 := by simpa using hp
      have h2 : p.2 = b := Option.some.inj h
      rw [h1, ← h2]
      exact List.mem_cons_self
    · rw [Bool.eq_false_iff.2 hp] at h
      exact List.mem_cons_of_mem _ (ih h)

/-- The codes of `factor_by`, in terms of the labels. -/
theorem codes_table {β : Type*} {labels : List (Option ℤ)} {gs : List ℤ} (hg : GroupsOf labels gs) :
    ∃ codes, Factor.factorBy true false labels = (gs, codes) ∧ codes.length = labels.length ∧
      (labels ≠ [] → (gs.length : ℤ) - 1 ∈ codes) ∧ (∀ c ∈ codes, c ≤ (gs.length : ℤ) - 1) ∧
      ∀ j (hj : j < gs.length) (l : List β), groupRows j codes l = withLabel gs[j] labels l := by
  obtain ⟨groups, codes, e1, hnd, h2, h3, hlen, hcode⟩ := C34_codes true false labels
  have hgr : groups = gs := groupsOf_unique ⟨h2 rfl, fun z => by rw [h3]; simp⟩ hg
  subst hgr
  -- the code of a position
  have hat : ∀ i (hi : i < labels.length) (hc : i < codes.length) j (hj : j < groups.length),
      codes[i] = (j : ℤ) ↔ labels[i] = some groups[j] := by
    intro i hi hc j hj
    obtain ⟨c1, c2⟩ := hcode i hi hc
    constructor
    · intro h
      cases hz : labels[i] with
      | none =>
        have := c1 (.inl hz)
        omega
      | some z =>
        by_cases h0 : z < 0
        · have := c1 (.inr ⟨rfl, z, hz, h0⟩)
          omega
        · have := (c2 z hz (.inr (by omega))).2
          rw [h, Int.toNat_natCast, List.getElem?_eq_getElem hj] at this
          rw [Option.some.inj this]
    · intro h
      have h0 := ((h3 groups[j]).1 (List.getElem_mem hj)).2
      obtain ⟨c3, c4⟩ := c2 groups[j] h h0
      obtain ⟨c5, c6⟩ := List.getElem?_eq_some_iff.1 c4
      have := (hnd.getElem_inj_iff (hi := c5) (hj := hj)).1 c6
      omega
  refine ⟨codes, e1, hlen, fun hne => ?_, fun c hc => ?_, fun j hj l => ?_⟩
  · rcases Nat.eq_zero_or_pos groups.length with h0 | h0
    · have hp : 0 < labels.length := List.length_pos_of_ne_nil hne
      have hpc : 0 < codes.length := by omega
      obtain ⟨c1, c2⟩ := hcode 0 hp hpc
      have : codes[0] = -1 := by
        cases hz : labels[0] with
        | none => exact c1 (.inl hz)
        | some z =>
          by_cases hz0 : z < 0
          · exact c1 (.inr ⟨rfl, z, hz, hz0⟩)
          · have := (c2 z hz (.inr (by omega))).2
            rw [List.getElem?_eq_none (by omega)] at this
            cases this
      have he : ((groups.length : ℤ) - (1 : ℤ) : ℤ) = (codes[0]'hpc : ℤ) := by omega
      rw [he]
      exact List.getElem_mem _
    · obtain ⟨i, hi, e⟩ := List.getElem_of_mem
        ((h3 (groups[groups.length - 1]'(by omega))).1 (List.getElem_mem _)).1
      have hic : i < codes.length := by omega
      have := (hat i hi hic (groups.length - 1) (by omega)).2 e
      rw [show (groups.length : ℤ) - 1 = ((groups.length - 1 : ℕ) : ℤ) by omega, ← this]
      exact List.getElem_mem _
  · obtain ⟨i, hi, rfl⟩ := List.getElem_of_mem hc
    have hil : i < labels.length := by omega
    obtain ⟨c1, c2⟩ := hcode i hil hi
    cases hz : labels[i] with
    | none =>
      have := c1 (.inl hz)
      omega
    | some z =>
      by_cases h0 : z < 0
      · have := c1 (.inr ⟨rfl, z, hz, h0⟩)
        omega
      · obtain ⟨c3, c4⟩ := c2 z hz (.inr (by omega))
        obtain ⟨c5, -⟩ := List.getElem?_eq_some_iff.1 c4
        omega
  · have gen : ∀ (cs : List ℤ) (ls : List (Option ℤ)) (l : List β), cs.length = ls.length →
        (∀ i (hi : i < ls.length) (hc : i < cs.length), cs[i] = (j : ℤ) ↔ ls[i] = some groups[j]) →
        groupRows j cs l = withLabel groups[j] ls l := by
      intro cs
      induction cs with
      | nil =>
        intro ls l hl _
        rw [List.length_eq_zero_iff.1 hl.symm]
        rfl
      | cons c cs ih =>
        intro ls l hl h
        cases ls with
        | nil => cases hl
        | cons a ls =>
          cases l with
          | nil => rfl
          | cons b l =>
            have h0 := h 0 (by simp) (by simp)
            have := ih ls l (by simpa using hl) fun i hi hc =>
              h (i + 1) (by simpa using hi) (by simpa using hc)
            unfold groupRows withLabel at this ⊢
            rw [List.zip_cons_cons, List.zip_cons_cons, List.filterMap_cons, List.filterMap_cons, this]
            simp only [List.getElem_cons_zero] at h0
            by_cases hc : c = (j : ℤ)
            · rw [if_pos hc, if_pos (h0.1 hc)]
            · rw [if_neg hc, if_neg fun h => hc (h0.2 h)]
    exact gen codes labels l hlen fun i hi hc => hat i hi hc j hj

end Labelled

end Cmomy
