import Verif.Props.Rearrange

/-!
# Operations along one dimension leave the others apart: lemmas
-/

namespace Cmomy

open Labelled Spec ExDim
open Nd (core1 core1_ok)
open Axes (AxisArg)

variable {δ : Type} [DecidableEq δ] {K V M : Type} [Field K] [DecidableEq K] {core : Nd.Core K M} {obj : DataArray δ K}
  {moms : List δ} {d : δ}

theorem mem_along {dims : List δ} (hd : d ∈ dims) (hm : ∀ e ∈ moms, e ∈ dims) (axesToEnd : Bool) (rep e : δ) :
    e ∈ renamed (dimsAfter dims d moms axesToEnd) d rep ↔ e = rep ∨ (e ∈ dims ∧ e ≠ d) := by
  have h1 : ∀ e, e ∈ dimsAfter dims d moms axesToEnd ↔ e ∈ dims := fun e => by
    cases axesToEnd
    · rfl
    · unfold dimsAfter
      rw [if_pos rfl, List.mem_append, List.mem_filter]
      constructor
      · rintro (h | h)
        · exact h.1
        · rcases List.mem_cons.1 h with rfl | h
          exacts [hd, hm e h]
      · intro h
        by_cases h' : e ∈ d :: moms
        · exact .inr h'
        · exact .inl ⟨h, by simpa using h'⟩
  unfold renamed
  rw [List.mem_map]
  constructor
  · rintro ⟨a, ha, rfl⟩
    split_ifs with h
    · exact .inl rfl
    · exact .inr ⟨(h1 a).1 ha, h⟩
  · rintro (rfl | h)
    · exact ⟨d, (h1 d).2 hd, if_pos rfl⟩
    · exact ⟨e, (h1 e).2 h.1, if_neg h.2⟩

theorem along_nodup {α : Type} {x : DataArray δ α} (g : GoodNamed x moms d) {rep : δ} (hrep : rep = d ∨ rep ∉ x.dims)
    (axesToEnd : Bool) : (renamed (dimsAfter x.dims d moms axesToEnd) d rep).Nodup := by
  have h1 : ∀ e, e ∈ dimsAfter x.dims d moms axesToEnd → e ∈ x.dims := fun e he => by
    cases axesToEnd
    · exact he
    · unfold dimsAfter at he
      rw [if_pos rfl, List.mem_append, List.mem_filter] at he
      rcases he with h | h
      · exact h.1
      · rcases List.mem_cons.1 h with rfl | h
        exacts [g.present, g.momPresent e h]
  have h2 : (dimsAfter x.dims d moms axesToEnd).Nodup := by
    cases axesToEnd
    · exact g.distinct
    · unfold dimsAfter
      rw [if_pos rfl]
      refine List.nodup_append.2 ⟨g.distinct.filter _, List.nodup_cons.2 ⟨g.notMom, g.momDistinct⟩, fun a ha b hb hab => ?_⟩
      have := (List.mem_filter.1 ha).2
      rw [hab] at this
      simp only [decide_eq_true_eq] at this
      exact this hb
  refine List.Nodup.map_on ?_ h2
  intro a ha b hb hab
  split_ifs at hab with ha' hb' hb'
  · rw [ha', hb']
  · rcases hrep with h | h
    · rw [ha', ← h, hab]
    · exact absurd (hab ▸ h1 b hb) h
  · rcases hrep with h | h
    · rw [hb', ← h, hab]
    · exact absurd (hab ▸ h1 a ha) h
  · exact hab

theorem along_filter {dims : List δ} {p : δ → Bool} {rep : δ} (hd : p d = true) (hr : p rep = true)
    (hm : ∀ e ∈ moms, p e = true) (axesToEnd : Bool) :
    renamed (dimsAfter (dims.filter p) d moms axesToEnd) d rep =
      (renamed (dimsAfter dims d moms axesToEnd) d rep).filter p := by
  have h1 : dimsAfter (dims.filter p) d moms axesToEnd = (dimsAfter dims d moms axesToEnd).filter p := by
    have h2 : moms.filter p = moms := List.filter_eq_self.2 hm
    cases axesToEnd <;> simp [dimsAfter, List.filter_append, List.filter_filter, h2, hd, List.filter_cons, Bool.and_comm]
  rw [h1]
  unfold renamed
  rw [List.filter_map]
  congr 1
  refine List.filter_congr fun e _ => ?_
  simp only [Function.comp]
  split_ifs with h
  · rw [h, hd, hr]
  · rfl

omit [Field K] [DecidableEq K] in
theorem isel_aside (g : GoodNamed obj moms d) {nd : ℕ} (hm : moms.length = nd) (h2 : ∀ e ∈ moms, 2 ≤ obj.size e)
    {sel : List (δ × Sel)} {pos : δ → List ℕ} (gs : SelectsAside obj moms d sel pos) :
    ∃ y, iselX moms obj sel = .ok y ∧ GoodNamed y moms d ∧ y.size d = obj.size d ∧ (∀ e ∈ y.dims, e ∈ obj.dims) ∧
      y.dims = obj.dims.filter (fun d => ! drops sel d) ∧
      (∀ d ∈ y.dims, y.size d = if d ∈ sel.map Prod.fst then (pos d).length else obj.size d) ∧
      CellsNamed y obj moms nd (takenAt sel pos) := by
  obtain ⟨y, ey, y1, y2, y3⟩ := C65_isel ⟨g.distinct, g.momDistinct, g.momPresent, hm⟩ h2 gs.good gs.notMom
  have hdn : d ∉ sel.map Prod.fst := fun h => by
    obtain ⟨p, hp, h'⟩ := List.mem_map.1 h
    exact gs.aside p hp h'
  have hdrop : drops sel d = false := by
    unfold drops
    rw [List.any_eq_false]
    intro p hp
    simp [gs.aside p hp]
  have hdy : d ∈ y.dims := by
    rw [y1, List.mem_filter]
    exact ⟨g.present, by rw [hdrop]; rfl⟩
  exact ⟨y, ey, ⟨y3.object.distinct, g.momDistinct, y3.object.momPresent, hdy, g.notMom⟩,
    by rw [y2 d hdy, if_neg hdn], fun e he => (List.mem_filter.1 (y1 ▸ he)).1, y1, y2, y3⟩

omit [Field K] [DecidableEq K] in
theorem isel_along (g : GoodNamed obj moms d) (hm : moms.length = core.nd) (h2 : ∀ e ∈ moms, 2 ≤ obj.size e)
    {sel : List (δ × Sel)} {pos : δ → List ℕ} (gs : SelectsAside obj moms d sel pos)
    {op : DataArray δ K → Py (DataArray δ (Option K))} {rep : δ} (hrep : rep = d ∨ rep ∉ obj.dims) {n : ℕ} {axesToEnd : Bool}
    {R : List M → ℕ → List ℕ → Option K}
    (hop : ∀ x, GoodNamed x moms d → x.size d = obj.size d → (∀ e ∈ x.dims, e ∈ obj.dims) →
      (x = obj ∨ ∀ e ∈ x.dims, x.size e = if e ∈ sel.map Prod.fst then (pos e).length else obj.size e) →
      ∃ w, op x = .ok w ∧ ShowsNamed w (renamed (dimsAfter x.dims d moms axesToEnd) d rep) (sizesWith x rep n)
        (fun c => R (recordsAlong core x moms d c) (c rep) (moms.map c))) :
    ∃ y z w v, iselX moms obj sel = .ok y ∧ op y = .ok z ∧ op obj = .ok w ∧ iselX moms w sel = .ok v ∧
      z.dims = v.dims ∧ AgreeNamed z v := by
  obtain ⟨y, ey, gy, ys, yo, y1, y2, y3⟩ := isel_aside g hm h2 gs
  obtain ⟨z, ez, hz⟩ := hop y gy ys yo (.inr y2)
  obtain ⟨w, ew, hw⟩ := hop obj g rfl (fun _ h => h) (.inl rfl)
  have hk : ∀ e, e ∈ sel.map Prod.fst → e ∉ moms ∧ e ≠ d ∧ e ≠ rep ∧ e ∈ obj.dims := fun e he => by
    obtain ⟨p, hp, rfl⟩ := List.mem_map.1 he
    refine ⟨gs.notMom p hp, gs.aside p hp, ?_, gs.good.present p hp⟩
    rintro h
    rcases hrep with h' | h'
    · exact gs.aside p hp (h.trans h')
    · exact h' (h ▸ gs.good.present p hp)
  have hrm : rep ∉ moms := fun h => hrep.elim (fun h' => g.notMom (h' ▸ h)) (fun h' => h' (g.momPresent _ h))
  have hdrop : ∀ e, e ∉ sel.map Prod.fst → drops sel e = false := fun e he => by
    unfold drops
    rw [List.any_eq_false]
    intro p hp
    have : p.1 ≠ e := fun h => he (h ▸ List.mem_map_of_mem hp)
    simp [this]
  have hdm : ∀ e ∈ moms, e ∉ sel.map Prod.fst := fun e he h => (hk e h).1 he
  have hdd : d ∉ sel.map Prod.fst := fun h => (hk d h).2.1 rfl
  have hdr : rep ∉ sel.map Prod.fst := fun h => (hk rep h).2.2.1 rfl
  have hmemw : ∀ e, e ∈ w.dims ↔ e = rep ∨ (e ∈ obj.dims ∧ e ≠ d) := fun e => by
    rw [hw.dims_eq]
    exact mem_along g.present g.momPresent _ _ _
  have hmemz : ∀ e, e ∈ z.dims ↔ e = rep ∨ (e ∈ y.dims ∧ e ≠ d) := fun e => by
    rw [hz.dims_eq]
    exact mem_along gy.present gy.momPresent _ _ _
  have hws : ∀ e ∈ w.dims, w.size e = if e = rep then n else obj.size e := fun e he => hw.size_eq e (hw.dims_eq ▸ he)
  have hzs : ∀ e ∈ z.dims, z.size e = if e = rep then n else y.size e := fun e he => hz.size_eq e (hz.dims_eq ▸ he)
  have hmw : ∀ e ∈ moms, e ∈ w.dims ∧ e ≠ rep := fun e he =>
    ⟨(hmemw e).2 (.inr ⟨g.momPresent e he, fun h => g.notMom (h ▸ he)⟩), fun h => hrm (h ▸ he)⟩
  have wo : LabelledObject w moms core.nd :=
    ⟨hw.dims_eq ▸ along_nodup g hrep _, g.momDistinct, fun e he => (hmw e he).1, hm⟩
  have gw : GoodSel w sel pos := ⟨gs.good.distinct, fun p hp => by
      have := hk _ (List.mem_map_of_mem (f := Prod.fst) hp)
      exact (hmemw _).2 (.inr ⟨this.2.2.2, this.2.1⟩), fun p hp => by
      have := hk _ (List.mem_map_of_mem (f := Prod.fst) hp)
      rw [hws _ ((hmemw _).2 (.inr ⟨this.2.2.2, this.2.1⟩)), if_neg this.2.2.1]
      exact gs.good.positions p hp⟩
  obtain ⟨v, ev, v1, v2, v3⟩ := C65_isel wo (fun e he => by
    rw [hws e (hmw e he).1, if_neg (hmw e he).2]
    exact h2 e he) gw gs.notMom
  have hdims : z.dims = v.dims := by
    rw [hz.dims_eq, v1, hw.dims_eq, y1]
    exact along_filter (by rw [hdrop d hdd]; rfl) (by rw [hdrop rep hdr]; rfl) (fun e he => by rw [hdrop e (hdm e he)]; rfl) _
  have hsize : ∀ e ∈ z.dims, z.size e = v.size e := fun e he => by
    have hev : e ∈ v.dims := hdims ▸ he
    have hew : e ∈ w.dims := (List.mem_filter.1 (v1 ▸ hev)).1
    rw [hzs e he, v2 e hev, hws e hew]
    by_cases h : e = rep
    · rw [if_pos h, if_pos h, if_neg (h ▸ hdr)]
    · rw [if_neg h, if_neg h, y2 e (((hmemz e).1 he).resolve_left h).1]
  refine ⟨y, z, w, v, ey, ez, ew, ev, hdims, hdims ▸ .refl _, hsize, fun c hcc => ?_⟩
  have hmt : ∀ e ∈ moms, takenAt sel pos c e = c e := fun e he => if_neg (hdm e he)
  have hct : withNames moms (moms.map c) (takenAt sel pos c) = takenAt sel pos c := by
    rw [← List.map_congr_left hmt, withNames_self]
  have hin : InLabelled v moms c := fun e he => by
    have := (List.mem_filter.1 he).1
    rw [← hsize e (hdims ▸ this)]
    exact hcc e (hdims ▸ this)
  have hv := v3.cell c hin (moms.map c)
  rw [withNames_self, hct] at hv
  have hzc := hz.entry_eq c fun e he => by
    have he' : e ∈ z.dims := hz.dims_eq ▸ he
    rw [← hz.size_eq e he]
    exact hcc e he'
  have hwc := hw.entry_eq (takenAt sel pos c) fun e he => by
    have he' : e ∈ w.dims := hw.dims_eq ▸ he
    rw [← hw.size_eq e he]
    by_cases hem : e ∈ moms
    · have hez : e ∈ z.dims := (hmemz e).2 (.inr ⟨gy.momPresent e hem, fun h => g.notMom (h ▸ hem)⟩)
      rw [hmt e hem, ← v3.momSize e hem, ← hsize e hez]
      exact hcc e hez
    · exact v3.source c hin e (List.mem_filter.2 ⟨he', by simpa using hem⟩)
  have hrec : recordsAlong core y moms d c = recordsAlong core obj moms d (takenAt sel pos c) := by
    have key : ∀ (x : DataArray δ K) c, recordsAlong core x moms d c = recordsNamed core x moms [d] c := fun x c => by
      have : allCoords x.size [d] c = (List.range (x.size d)).map (fun s => Function.update c d s) :=
        List.map_eq_flatMap.symm
      rw [recordsNamed, this, List.map_map]
      rfl
    rw [key, key]
    refine records_rearranged y3 (by simp) (by simpa using ys) (fun e he hed => ?_) fun c' hc' _ e he hem => ?_
    · have hey := (List.mem_filter.1 he).1
      have hne : e ≠ d := by simpa using hed
      have her : e ≠ rep := fun h => hrep.elim (fun h' => hne (h.trans h')) (fun h' => h' (h ▸ yo e hey))
      have hez := (hmemz e).2 (.inr ⟨hey, hne⟩)
      have := hcc e hez
      rwa [hzs e hez, if_neg her] at this
    · unfold takenAt
      by_cases h : e ∈ [d]
      · rw [if_pos h, if_neg (by rw [List.mem_singleton.1 h]; exact hdd)]
      · rw [if_neg h, hc' e h]
  rw [hv, hzc, hwc, hrec, List.map_congr_left hmt]
  congr 1
  exact (if_neg hdr).symm

end Cmomy
