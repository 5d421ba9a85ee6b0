import Verif.Lemmas.Rearrange
import Verif.Props.LabelledStats

/-!
# C84: rearranging before or after reducing

Selecting, stacking and unstacking along some dimensions, and reducing along others, give the same in either order;
reducing along a stacked dimension is reducing along those it is made of.
-/

namespace Cmomy

open Labelled Spec ExDim
open Nd (core1 core1_ok)

variable {δ : Type} [DecidableEq δ] {K V M : Type} [Field K] [DecidableEq K] {core : Nd.Core K M} {obj : DataArray δ K} {moms ds : List δ}

theorem object_of_reduce {α : Type} {x : DataArray δ α} (g : GoodReduce x moms ds) {nd : ℕ} (hm : moms.length = nd) :
    LabelledObject x moms nd := ⟨g.distinct, g.momDistinct, g.momPresent, hm⟩

/-- What `reduce_data` gives is an object again. -/
theorem reduced_object (hc : core.Ok) (k : Kernel K V M) (gr : GoodReduce obj moms ds) (hm : moms.length = core.nd)
    (keepdims axesToEnd : Bool) :
    ∃ w, reduceX core k obj moms none (some (some ds)) keepdims axesToEnd = .ok w ∧ LabelledObject w moms core.nd ∧
      w.dims = dimsReduced obj.dims ds moms keepdims axesToEnd ∧
      (∀ d ∈ w.dims, w.size d = if d ∈ ds then 1 else obj.size d) ∧ (∀ d ∈ moms, w.size d = obj.size d) ∧
      ∀ c, entry w c = (k.reduceDataFromZero (recordsNamed core obj moms ds c)).map
        (fun r => core.ent r (moms.map c)) := by
  obtain ⟨w, e, e1, e2, e3⟩ := reduceX_strong hc k gr hm (axis := none) (.inl ⟨rfl, rfl⟩) keepdims axesToEnd
  have hmem : ∀ d ∈ moms, d ∈ w.dims := fun d hd => by
    rw [e1]
    exact mem_reduced _ _ (gr.momPresent d hd) fun h => gr.notMom d h hd
  exact ⟨w, e, ⟨e1 ▸ reduced_nodup gr _ _, gr.momDistinct, hmem, hm⟩, e1, e2, fun d hd => by
    rw [e2 d (hmem d hd), if_neg fun h => gr.notMom d h hd], e3⟩

/-- **C84** Selecting positions along some dimensions and reducing along others can be exchanged. The entries are the same
for every arithmetic, not only up to rounding. -/
theorem C84_isel_reduce (hc : core.Ok) (k : Kernel K V M) (gr : GoodReduce obj moms ds) (hm : moms.length = core.nd)
    (h2 : ∀ d ∈ moms, 2 ≤ obj.size d) {sel : List (δ × Sel)} {pos : δ → List ℕ} (gs : GoodSel obj sel pos)
    (hsm : ∀ p ∈ sel, p.1 ∉ moms) (hsd : ∀ p ∈ sel, p.1 ∉ ds) (hne : ∀ p ∈ sel, pos p.1 ≠ [])
    (keepdims axesToEnd : Bool) :
    ∃ y z w v, iselX moms obj sel = .ok y ∧
      reduceX core k y moms none (some (some ds)) keepdims axesToEnd = .ok z ∧
      reduceX core k obj moms none (some (some ds)) keepdims axesToEnd = .ok w ∧ iselX moms w sel = .ok v ∧
      z.dims = v.dims ∧ AgreeNamed z v := by
  have hk : ∀ d, d ∈ sel.map Prod.fst → d ∉ moms ∧ d ∉ ds ∧ pos d ≠ [] ∧ d ∈ obj.dims := fun d hd => by
    obtain ⟨p, hp, rfl⟩ := List.mem_map.1 hd
    exact ⟨hsm p hp, hsd p hp, hne p hp, gs.present p hp⟩
  have hdrop : ∀ d, d ∉ sel.map Prod.fst → drops sel d = false := fun d hd => by
    unfold drops
    rw [List.any_eq_false]
    intro p hp
    have : p.1 ≠ d := fun h => hd (h ▸ List.mem_map_of_mem hp)
    simp [this]
  have hdm : ∀ d ∈ moms, d ∉ sel.map Prod.fst := fun d hd h => (hk d h).1 hd
  have hdd : ∀ d ∈ ds, d ∉ sel.map Prod.fst := fun d hd h => (hk d h).2.1 hd
  obtain ⟨y, ey, y1, y2, y3⟩ := C65_isel (object_of_reduce gr hm) h2 gs hsm
  have gy : GoodReduce y moms ds :=
    { distinct := y3.object.distinct, momDistinct := gr.momDistinct, momPresent := y3.object.momPresent
      dsDistinct := gr.dsDistinct, notMom := gr.notMom, some_dim := gr.some_dim
      present := fun d hd => by
        rw [y1, List.mem_filter]
        exact ⟨gr.present d hd, by rw [hdrop d (hdd d hd)]; rfl⟩
      nonempty := fun d hd hds => by
        rw [y2 d hd]
        split_ifs with h
        · simpa using (hk d h).2.2.1
        · exact gr.nonempty d (List.mem_filter.1 (y1 ▸ hd)).1 hds }
  obtain ⟨z, ez, zo, z1, z2, z3, z4⟩ := reduced_object hc k gy hm keepdims axesToEnd
  obtain ⟨w, ew, wo, w1, w2, w3, w4⟩ := reduced_object hc k gr hm keepdims axesToEnd
  have hkw : ∀ d, d ∈ sel.map Prod.fst → d ∈ w.dims ∧ w.size d = obj.size d := fun d hd => by
    have : d ∈ w.dims := by rw [w1]; exact mem_reduced _ _ (hk d hd).2.2.2 (hk d hd).2.1
    exact ⟨this, by rw [w2 d this, if_neg (hk d hd).2.1]⟩
  have gw : GoodSel w sel pos := ⟨gs.distinct, fun p hp => (hkw _ (List.mem_map_of_mem hp)).1, fun p hp => by
    rw [(hkw _ (List.mem_map_of_mem hp)).2]
    exact gs.positions p hp⟩
  obtain ⟨v, ev, v1, v2, v3⟩ := C65_isel wo (fun d hd => by rw [w3 d hd]; exact h2 d hd) gw hsm
  have hdims : z.dims = v.dims := by
    rw [z1, v1, w1, y1]
    exact reduced_filter (fun d hd => by rw [hdrop d (hdd d hd)]; rfl) (fun d hd => by rw [hdrop d (hdm d hd)]; rfl) _ _
  have hsize : ∀ d ∈ z.dims, z.size d = v.size d := fun d hd => by
    have hdv : d ∈ v.dims := hdims ▸ hd
    have hdw : d ∈ w.dims := (List.mem_filter.1 (v1 ▸ hdv)).1
    rw [z2 d hd, v2 d hdv]
    split_ifs with h h' h'
    · exact absurd h' (hdd d h)
    · rw [w2 d hdw, if_pos h]
    · rw [y2 d (of_mem_reduced gy.present gy.momPresent _ _ (z1 ▸ hd)), if_pos h']
    · rw [y2 d (of_mem_reduced gy.present gy.momPresent _ _ (z1 ▸ hd)), if_neg h', w2 d hdw, if_neg h]
  refine ⟨y, z, w, v, ey, ez, ew, ev, hdims, hdims ▸ .refl _, hsize, fun c hcc => ?_⟩
  have hmt : ∀ d ∈ moms, takenAt sel pos c d = c d := fun d hd => if_neg (hdm d hd)
  have hct : withNames moms (moms.map c) (takenAt sel pos c) = takenAt sel pos c := by
    rw [← List.map_congr_left hmt, withNames_self]
  have hv := v3.cell c (fun d hd => by
    have := (List.mem_filter.1 hd).1
    rw [← hsize d (hdims ▸ this)]
    exact hcc d (hdims ▸ this)) (moms.map c)
  rw [withNames_self, hct] at hv
  rw [hv, z4, w4, List.map_congr_left hmt]
  congr 2
  refine records_rearranged y3 gr.dsDistinct (fun d hd => ?_) (fun d hd hds => ?_) fun c' hc' _ e he hem => ?_
  · rw [y2 d (gy.present d hd), if_neg (hdd d hd)]
  · have hdy := (List.mem_filter.1 hd).1
    have hdz : d ∈ z.dims := by rw [z1]; exact mem_reduced _ _ hdy hds
    have := hcc d hdz
    rwa [z2 d hdz, if_neg hds] at this
  · unfold takenAt
    by_cases h : e ∈ ds
    · rw [if_neg (hdd e h), if_pos h]
    · rw [if_neg h, hc' e h]

/-- **C84** Reducing along a stacked dimension is reducing along the dimensions it is made of. -/
theorem C84_stack_reduce (hc : core.Ok) (k : Kernel K V M) (gr : GoodReduce obj moms ds) (hm : moms.length = core.nd)
    (h2 : ∀ d ∈ moms, 2 ≤ obj.size d) {new : δ} (hnew : new ∉ obj.dims) (axesToEnd axesToEnd' : Bool) :
    ∃ y z w, stackX moms obj new ds = .ok y ∧
      reduceX core k y moms none (some (some [new])) false axesToEnd = .ok z ∧
      reduceX core k obj moms none (some (some ds)) false axesToEnd' = .ok w ∧
      z.dims = (valDims obj moms).filter (fun d => decide (d ∉ ds)) ++ moms ∧ AgreeNamed z w := by
  have go := object_of_reduce gr hm
  have hp : ∀ d ∈ ds, d ∈ valDims obj moms := fun d hd =>
    List.mem_filter.2 ⟨gr.present d hd, by simpa using gr.notMom d hd⟩
  have hnm : new ∉ moms := fun h => hnew (gr.momPresent _ h)
  obtain ⟨y, ey, y1, y2, y3, y4⟩ := C65_stack go h2 gr.some_dim gr.dsDistinct hp hnew
  have hy : ∀ d ∈ y.dims, d ≠ new → d ∈ obj.dims ∧ d ∉ ds := fun d hd hdn => by
    rw [y1, List.mem_append, List.mem_filter, List.mem_cons] at hd
    rcases hd with h | h | h
    · exact ⟨(List.mem_filter.1 h.1).1, by simpa using h.2⟩
    · exact absurd h hdn
    · exact ⟨gr.momPresent d h, fun h' => gr.notMom d h' h⟩
  have gy : GoodReduce y moms [new] :=
    { distinct := y4.object.distinct, momDistinct := gr.momDistinct, momPresent := y4.object.momPresent
      dsDistinct := by simp
      notMom := by simpa using hnm
      some_dim := by simp
      present := by simp [y1]
      nonempty := fun d hd hds => by
        obtain ⟨a, b⟩ := hy d hd (by simpa using hds)
        rw [y3 d a]
        exact gr.nonempty d a b }
  obtain ⟨z, ez, zo, z1, z2, z3, z4⟩ := reduced_object hc k gy hm false axesToEnd
  obtain ⟨w, ew, wo, w1, w2, w3, w4⟩ := reduced_object hc k gr hm false axesToEnd'
  have hvn : new ∉ (valDims obj moms) := fun h => hnew (List.mem_filter.1 h).1
  have hv0 : ∀ d ∈ (valDims obj moms).filter (fun d => decide (d ∉ ds)), d ≠ new ∧ d ∉ moms := fun d hd => by
    have := (List.mem_filter.1 hd).1
    exact ⟨fun h => hvn (h ▸ this), by simpa using (List.mem_filter.1 this).2⟩
  have hzd : z.dims = (valDims obj moms).filter (fun d => decide (d ∉ ds)) ++ moms := by
    rw [z1, y1]
    cases axesToEnd
    · simp only [dimsReduced]
      rw [List.filter_append, List.filter_eq_self.2 (fun d hd => by simpa using (hv0 d hd).1),
        List.filter_cons_of_neg (by simp), (List.filter_eq_self (l := moms)).2 (fun d hd => by
          simpa using fun h : d = new => hnm (h ▸ hd))]
    · simp only [dimsReduced]
      rw [List.filter_append, List.filter_eq_self.2 (fun d hd => by simpa using hv0 d hd),
        List.filter_cons_of_neg (by simp), (List.filter_eq_nil_iff (l := moms)).2 (fun d hd => by simp [hd]), List.append_nil]
  have hmemw : ∀ d, d ∈ w.dims ↔ d ∈ obj.dims ∧ d ∉ ds := fun d => by
    rw [w1]
    refine ⟨fun h => ⟨of_mem_reduced gr.present gr.momPresent _ _ h, ?_⟩, fun h => mem_reduced _ _ h.1 h.2⟩
    cases axesToEnd' <;> simp [dimsReduced] at h
    · exact h.2
    · rcases h with h | h
      exacts [h.2.1, fun h' => gr.notMom d h' h]
  have hmemz : ∀ d, d ∈ z.dims ↔ d ∈ obj.dims ∧ d ∉ ds := fun d => by
    rw [hzd, List.mem_append, List.mem_filter]
    unfold valDims
    rw [List.mem_filter]
    by_cases h : d ∈ moms
    · simp [h, gr.momPresent d h, show d ∉ ds from fun h' => gr.notMom d h' h]
    · simp [h]
  have hdn : ∀ d ∈ obj.dims, d ≠ new := fun d hd h => hnew (h ▸ hd)
  have hzy : ∀ d ∈ z.dims, z.size d = obj.size d := fun d hd => by
    have := (hmemz d).1 hd
    rw [z2 d hd, if_neg (by simpa using hdn d this.1), y3 d this.1]
  refine ⟨y, z, w, ey, ez, ew, hzd, ?_, fun d hd => ?_, fun c hcc => ?_⟩
  · refine (List.perm_ext_iff_of_nodup zo.distinct wo.distinct).2 fun d => ?_
    rw [hmemz, hmemw]
  · have := (hmemz d).1 hd
    rw [hzy d hd, w2 d ((hmemw d).2 this), if_neg this.2]
  · rw [z4, w4]
    congr 2
    unfold recordsNamed
    refine List.ext_getElem (by simp [length_allCoords, y2]) fun s h1 h3 => ?_
    have hs : s < (ds.map obj.size).prod := by simpa [length_allCoords] using h3
    have hs1 : s < ([new].map y.size).prod := by simpa [y2] using hs
    obtain ⟨l1, e1⟩ := List.getElem?_eq_some_iff.1 (allCoords_getElem? y.size (ds := [new]) (by simp) c hs1)
    obtain ⟨l2, e2⟩ := List.getElem?_eq_some_iff.1 (allCoords_getElem? obj.size gr.dsDistinct c hs)
    rw [List.getElem_map, List.getElem_map]
    have en : ((allCoords y.size [new] c)[s]) new = s := by
      rw [e1]
      simp [unravel]
    obtain ⟨-, b2⟩ := allCoords_bounds (List.getElem_mem l1)
    have hin : InLabelled y moms ((allCoords y.size [new] c)[s]) := fun d hd => by
      by_cases hdn' : d = new
      · subst hdn'
        rw [en, y2]
        exact hs
      · obtain ⟨a, b⟩ := hy d (List.mem_filter.1 hd).1 hdn'
        rw [b2 d (by simpa using hdn'), y3 d a, ← hzy d ((hmemz d).2 ⟨a, b⟩)]
        exact hcc d ((hmemz d).2 ⟨a, b⟩)
    unfold recordNamed
    refine congrArg core.recd (funext fun ms => ?_)
    rw [y4.cell _ hin ms]
    refine entry_congr _ fun e he => ?_
    unfold withNames
    split_ifs with hem
    · rfl
    · rw [unstacked_apply gr.dsDistinct (by rw [en]; exact hs), en, e2]
      simp only
      split_ifs with h
      · rfl
      · exact b2 e (by simpa using hdn e he)

/-- **C84** Stacking some dimensions and reducing along others can be exchanged, and unstacking the reduced object gives what
reducing alone would have given, whatever the fill value is. -/
theorem C84_stack_other (hc : core.Ok) (k : Kernel K V M) (gr : GoodReduce obj moms ds) (hm : moms.length = core.nd)
    (h2 : ∀ d ∈ moms, 2 ≤ obj.size d) {es : List δ} (hne : es ≠ []) (hn : es.Nodup) (hp : ∀ d ∈ es, d ∈ valDims obj moms)
    (hdis : ∀ d ∈ es, d ∉ ds) {new : δ} (hnew : new ∉ obj.dims) (axesToEnd : Bool) (fill : Option K) :
    ∃ y z w v u, stackX moms obj new es = .ok y ∧
      reduceX core k y moms none (some (some ds)) false axesToEnd = .ok z ∧
      reduceX core k obj moms none (some (some ds)) false axesToEnd = .ok w ∧ stackX moms w new es = .ok v ∧
      AgreeNamed z v ∧ unstackX moms z new (.product es (es.map obj.size)) fill = .ok u ∧ AgreeNamed u w := by
  have go := object_of_reduce gr hm
  have hnm : new ∉ moms := fun h => hnew (gr.momPresent _ h)
  have hnd : new ∉ ds := fun h => hnew (gr.present _ h)
  have hes : ∀ d ∈ es, d ∈ obj.dims ∧ d ∉ moms := fun d hd => by simpa [valDims] using hp d hd
  have hdn : ∀ d ∈ obj.dims, d ≠ new := fun d hd h => hnew (h ▸ hd)
  have hpos : ∀ d ∈ es, 0 < obj.size d := fun d hd => Nat.pos_of_ne_zero (gr.nonempty d (hes d hd).1 (hdis d hd))
  obtain ⟨y, ey, y1, y2, y3, y4⟩ := C65_stack go h2 hne hn hp hnew
  have hmemy : ∀ d, d ∈ y.dims ↔ d = new ∨ (d ∈ obj.dims ∧ d ∉ es) := fun d => by
    rw [y1, List.mem_append, List.mem_filter, List.mem_cons]
    unfold valDims
    rw [List.mem_filter]
    by_cases h : d ∈ moms
    · simp [h, gr.momPresent d h, show d ∉ es from fun h' => (hes d h').2 h]
    · simp [h, or_comm]
  have gy : GoodReduce y moms ds :=
    { distinct := y4.object.distinct, momDistinct := gr.momDistinct, momPresent := y4.object.momPresent
      dsDistinct := gr.dsDistinct, notMom := gr.notMom, some_dim := gr.some_dim
      present := fun d hd => (hmemy d).2 (.inr ⟨gr.present d hd, fun h => hdis d h hd⟩)
      nonempty := fun d hd hds => by
        rcases (hmemy d).1 hd with rfl | h
        · rw [y2]
          refine fun h => ?_
          obtain ⟨e, he, h0⟩ := List.mem_map.1 (List.prod_eq_zero_iff.1 h)
          exact (hpos e he).ne' h0
        · rw [y3 d h.1]
          exact gr.nonempty d h.1 hds }
  obtain ⟨z, ez, zo, z1, z2, z3, z4⟩ := reduced_object hc k gy hm false axesToEnd
  obtain ⟨w, ew, wo, w1, w2, w3, w4⟩ := reduced_object hc k gr hm false axesToEnd
  have hred : ∀ (x : DataArray δ K), GoodReduce x moms ds → ∀ d,
      d ∈ dimsReduced x.dims ds moms false axesToEnd ↔ d ∈ x.dims ∧ d ∉ ds := fun x gx d => by
    refine ⟨fun h => ⟨of_mem_reduced gx.present gx.momPresent _ _ h, ?_⟩, fun h => mem_reduced _ _ h.1 h.2⟩
    cases axesToEnd <;> simp [dimsReduced] at h
    · exact h.2
    · rcases h with h | h
      exacts [h.2.1, fun h' => gx.notMom d h' h]
  have hmemz : ∀ d, d ∈ z.dims ↔ d = new ∨ (d ∈ obj.dims ∧ d ∉ es ∧ d ∉ ds) := fun d => by
    rw [z1, hred y gy, hmemy]
    constructor
    · rintro ⟨rfl | h, h'⟩
      exacts [.inl rfl, .inr ⟨h.1, h.2, h'⟩]
    · rintro (rfl | h)
      exacts [⟨.inl rfl, hnd⟩, ⟨.inr ⟨h.1, h.2.1⟩, h.2.2⟩]
  have hmemw : ∀ d, d ∈ w.dims ↔ d ∈ obj.dims ∧ d ∉ ds := fun d => by rw [w1, hred obj gr]
  have hzn : z.size new = (es.map obj.size).prod := by
    rw [z2 new ((hmemz _).2 (.inl rfl)), if_neg hnd, y2]
  have hzs : ∀ d ∈ z.dims, d ≠ new → z.size d = obj.size d := fun d hd hne => by
    have h := ((hmemz d).1 hd).resolve_left hne
    rw [z2 d hd, if_neg h.2.2, y3 d h.1]
  have hws : ∀ d ∈ w.dims, w.size d = obj.size d := fun d hd => by rw [w2 d hd, if_neg ((hmemw d).1 hd).2]
  have hwe : es.map w.size = es.map obj.size := List.map_congr_left fun d hd =>
    hws d ((hmemw d).2 ⟨(hes d hd).1, hdis d hd⟩)
  have key : ∀ c, (∀ d ∈ z.dims, c d < z.size d) → entry z c = entry w (unstacked obj.size es new c) := by
    intro c hcc
    have hcn : c new < (es.map obj.size).prod := hzn ▸ hcc new ((hmemz _).2 (.inl rfl))
    rw [z4, w4]
    have hmc : moms.map (unstacked obj.size es new c) = moms.map c := List.map_congr_left fun d hd => by
      rw [unstacked_apply hn hcn, if_neg fun h => (hes d h).2 hd]
    rw [hmc]
    congr 2
    refine records_rearranged y4 gr.dsDistinct (fun d hd => y3 d (gr.present d hd)) (fun d hd hds => ?_)
      fun c' hc' hin e he hem => ?_
    · have hdy := (List.mem_filter.1 hd).1
      have hdz : d ∈ z.dims := by rw [z1, hred y gy]; exact ⟨hdy, hds⟩
      have := hcc d hdz
      rwa [z2 d hdz, if_neg hds] at this
    · have e1 : c' new = c new := hc' new hnd
      rw [unstacked_apply hn (by rw [e1]; exact hcn), unstacked_apply hn hcn, e1]
      by_cases h : e ∈ es
      · rw [if_pos h, if_pos h, if_neg (hdis e h)]
      · rw [if_neg h, if_neg h]
        split_ifs with h'
        · rfl
        · exact hc' e h'
  obtain ⟨v, ev, v1, v2, v3, v4⟩ := C65_stack wo (fun d hd => by rw [w3 d hd]; exact h2 d hd) hne hn
    (fun d hd => List.mem_filter.2 ⟨(hmemw d).2 ⟨(hes d hd).1, hdis d hd⟩, by simpa using (hes d hd).2⟩)
    (fun h => hnew ((hmemw new).1 h).1)
  have hmemv : ∀ d, d ∈ v.dims ↔ d = new ∨ (d ∈ w.dims ∧ d ∉ es) := fun d => by
    rw [v1, List.mem_append, List.mem_filter, List.mem_cons]
    unfold valDims
    rw [List.mem_filter]
    by_cases h : d ∈ moms
    · simp [h, wo.momPresent d h, show d ∉ es from fun h' => (hes d h').2 h]
    · simp [h, or_comm]
  have hzv : AgreeNamed z v := by
    have hs : ∀ d ∈ z.dims, z.size d = v.size d := fun d hd => by
      by_cases h : d = new
      · rw [h, hzn, v2, hwe]
      · have h' := ((hmemz d).1 hd).resolve_left h
        have hw := (hmemw d).2 ⟨h'.1, h'.2.2⟩
        rw [hzs d hd h, v3 d hw, hws d hw]
    have hmem : ∀ d, d ∈ z.dims ↔ d ∈ v.dims := fun d => by
      rw [hmemz, hmemv, hmemw]
      tauto
    refine ⟨(List.perm_ext_iff_of_nodup zo.distinct v4.object.distinct).2 hmem, hs, fun c hcc => ?_⟩
    have hcn : c new < (es.map obj.size).prod := hzn ▸ hcc new ((hmemz _).2 (.inl rfl))
    have hv := v4.cell c (fun d hd => by
      have := (hmem d).2 (List.mem_filter.1 hd).1
      rw [← hs d this]
      exact hcc d this) (moms.map c)
    rw [withNames_self] at hv
    rw [key c hcc, hv]
    refine entry_congr _ fun d hd => ?_
    unfold withNames
    rw [unstacked_apply hn hcn, unstacked_apply hn (by rw [hwe]; exact hcn), hwe]
    split_ifs with h h' h'
    · exact absurd h' (hes d h).2
    · rfl
    · have hi := List.idxOf_lt_length_of_mem h'
      rw [List.getD_eq_getElem _ _ (by simpa using hi), List.getElem_map, List.getElem_idxOf]
    · rfl
  obtain ⟨u, eu, uo, u1, u2, u3, u4, -⟩ := C82_unstack zo (fun d hd => by
      rw [z3 d hd, y3 d (gr.momPresent d hd)]
      exact h2 d hd) (dim := new)
    (List.mem_filter.2 ⟨(hmemz new).2 (.inl rfl), by simpa using hnm⟩) (ix := .product es (es.map obj.size))
    (by rw [hzn]; exact product_fits hn (by simp) (by simpa using hpos))
    (fun d hd h => by
      have hd : d ∈ es := hd
      rcases (hmemz d).1 h with rfl | h
      · exact hnew (hes d hd).1
      · exact h.2.1 hd) (product_nodup _ _) fill
  have u2 : es.map u.size = es.map obj.size := u2
  have u1 : u.dims = (valDims z moms).filter (fun d => decide (d ≠ new)) ++ es ++ moms := u1
  have hmemu : ∀ d, d ∈ u.dims ↔ d ∈ w.dims := fun d => by
    rw [u1, List.mem_append, List.mem_append, List.mem_filter]
    unfold valDims
    rw [List.mem_filter, hmemz, hmemw]
    by_cases h : d ∈ moms
    · simp [h, gr.momPresent d h, show d ∉ ds from fun h' => gr.notMom d h' h]
    · by_cases h' : d ∈ es
      · simp [h', (hes d h').1, hdis d h']
      · simp only [h, h', not_false_eq_true, decide_true, and_true, or_false, true_and, decide_eq_true_eq]
        refine ⟨fun hh => hh.1.resolve_left hh.2, fun hh => ⟨.inr hh, hdn d hh.1⟩⟩
  have hus : ∀ d ∈ w.dims, u.size d = obj.size d := fun d hd => by
    by_cases h : d ∈ es
    · exact List.map_inj_left.1 u2 d h
    · have h' := (hmemw d).1 hd
      have hz := (hmemz d).2 (.inr ⟨h'.1, h, h'.2⟩)
      rw [u3 d hz, hzs d hz (hdn d h'.1)]
  refine ⟨y, z, w, v, u, ey, ez, ew, ev, hzv, eu,
    (List.perm_ext_iff_of_nodup uo.distinct wo.distinct).2 hmemu, fun d hd => ?_, fun c hcc => ?_⟩
  · rw [hus d ((hmemu d).1 hd), hws d ((hmemu d).1 hd)]
  · have hcw : ∀ d ∈ w.dims, c d < obj.size d := fun d hd => by
      rw [← hus d hd]
      exact hcc d ((hmemu d).2 hd)
    obtain ⟨j, hj, ej⟩ := exists_unravel (sizes := es.map obj.size) (t := es.map c) (by simp) (by
      intro i hi
      have hi' : i < es.length := by simpa using hi
      rw [List.getD_eq_getElem _ _ (by simpa using hi'), List.getD_eq_getElem _ _ hi, List.getElem_map, List.getElem_map]
      have hie := List.getElem_mem hi'
      exact hcw _ ((hmemw _).2 ⟨(hes _ hie).1, hdis _ hie⟩))
    have hcode : (MultiIndex.product es (es.map obj.size)).codes[j]? = some (es.map c) := by
      unfold MultiIndex.product
      rw [List.getElem?_map, List.getElem?_range hj]
      simp [ej]
    have k5 := u4 j _ hcode c (moms.map c)
    change entry u (withNames moms (moms.map c) (withNames es (es.map c) c)) = _ at k5
    have hup : withNames moms (moms.map c) (Function.update c new j) = Function.update c new j := by
      have : moms.map c = moms.map (Function.update c new j) := List.map_congr_left fun d hd =>
        (Function.update_of_ne (fun h : d = new => hnm (h ▸ hd)) _ _).symm
      rw [this, withNames_self]
    rw [withNames_self, withNames_self, hup] at k5
    rw [k5, key]
    · refine entry_congr _ fun d hd => ?_
      have hdo := ((hmemw d).1 hd).1
      rw [unstacked_apply hn (by rw [Function.update_self]; exact hj), Function.update_self, ej]
      split_ifs with h
      · have hi := List.idxOf_lt_length_of_mem h
        rw [List.getD_eq_getElem _ _ (by simpa using hi), List.getElem_map, List.getElem_idxOf]
      · exact Function.update_of_ne (hdn d hdo) _ _
    · intro d hd
      rcases (hmemz d).1 hd with rfl | h
      · rw [Function.update_self, hzn]
        exact hj
      · rw [Function.update_of_ne (hdn d h.1), hzs d hd (hdn d h.1)]
        exact hcw d ((hmemw d).2 ⟨h.1, h.2.2⟩)

/-! ### Concrete cases -/

theorem exNamedObj_reduce_p : GoodReduce exNamedObj [m] [p] :=
  ⟨by decide, by decide, by decide, by decide, by decide, by decide, by decide, by decide⟩

theorem exNamedObj_reduce_t : GoodReduce exNamedObj [m] [t] :=
  ⟨by decide, by decide, by decide, by decide, by decide, by decide, by decide, by decide⟩

theorem exNamedObj_reduce_pt : GoodReduce exNamedObj [m] [p, t] :=
  ⟨by decide, by decide, by decide, by decide, by decide, by decide, by decide, by decide⟩

/-- The places 2 and 1 along `t`, and the average over `p`. -/
example : dimEntries ((iselX [m] exNamedObj [(t, .list [-1, 1])]).bind fun y =>
    reduceX core1 (kernel1 2) y [m] none (some (some [p])) false false) [[(t, 0), (m, 1)], [(t, 1), (m, 0)]]
    = some ([t, m], [2, 3], [some (8451 / 41), some 210]) := by decide +kernel
example : dimEntries ((reduceX core1 (kernel1 2) exNamedObj [m] none (some (some [p])) false false).bind fun w =>
    iselX [m] w [(t, .list [-1, 1])]) [[(t, 0), (m, 1)], [(t, 1), (m, 0)]]
    = some ([t, m], [2, 3], [some (8451 / 41), some 210]) := by decide +kernel
example := C84_isel_reduce core1_ok (kernel1 2) exNamedObj_reduce_p rfl exNamedObj_sizes (sel := [(t, .list [-1, 1])])
  (pos := fun _ => [2, 1]) ⟨by decide, by decide, fun q hq => by
    rw [List.mem_singleton.1 hq]
    exact ⟨by unfold InRange; decide, by decide⟩⟩ (by decide) (by decide) (by decide) false true

/-- The average over all places of `p` and `t`. -/
example : dimEntries ((stackX [m] exNamedObj b [p, t]).bind fun y =>
    reduceX core1 (kernel1 2) y [m] none (some (some [b])) false false) [[(m, 0)], [(m, 1)]]
    = dimEntries (reduceX core1 (kernel1 2) exNamedObj [m] none (some (some [p, t])) false false) [[(m, 0)], [(m, 1)]] := by
  decide +kernel
example := C84_stack_reduce core1_ok (kernel1 2) exNamedObj_reduce_pt rfl exNamedObj_sizes (new := b) (by decide) false true
example := C84_stack_other core1_ok (kernel1 2) exNamedObj_reduce_t rfl exNamedObj_sizes (es := [p]) (by decide) (by decide)
  (by decide) (by decide) (new := b) (by decide) false none

end Cmomy
