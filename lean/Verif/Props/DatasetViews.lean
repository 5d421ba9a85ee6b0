import Verif.Lemmas.DatasetViews
import Verif.Lemmas.LabelledCollect
import Verif.Props.Dataset

/-!
# C80: objects over a data set as dictionaries

Looking a variable up, selecting several, assigning some, and doing so before or after an operation.
-/

set_option linter.unusedSectionVars false

namespace Cmomy

open Spec Axes Labelled ExName
open Nd (core1 core2 core1_ok core2_ok)

variable {ν δ : Type} [DecidableEq ν] [DecidableEq δ] {α : Type}

theorem exDs_object : GoodObject exDs [mom] where
  toGoodDataset := exDs_good
  present := by decide
  room := by decide

/-! ### The dictionary -/

/-- **C80** `as_dict` and `items`: the variables with all moment dimensions, in order and unchanged. -/
theorem C80_as_dict (moms : List δ) (ds : List (ν × DataArray δ α)) :
    (asDict moms ds).Sublist ds ∧ ∀ v, v ∈ asDict moms ds ↔ v ∈ ds ∧ Has v.2 moms := by
  refine ⟨List.filter_sublist, fun v => ?_⟩
  unfold asDict
  rw [List.mem_filter, decide_eq_true_eq]
  rfl

/-- **C80** `keys`, `values` and iteration go through the same entries, in the same order. -/
theorem C80_keys_values (moms : List δ) (ds : List (ν × DataArray δ α)) :
    (keysDs moms ds).zip (valuesDs moms ds) = asDict moms ds ∧ iterDs moms ds = keysDs moms ds ∧
      (valuesDs moms ds).length = (keysDs moms ds).length := by
  refine ⟨?_, rfl, by simp [valuesDs, keysDs]⟩
  unfold keysDs valuesDs
  induction asDict moms ds with
  | nil => rfl
  | cons v l ih => rw [List.map_cons, List.map_cons, List.zip_cons_cons, ih]

/-- **C80** `c[name]`: the variable of that name if it has the moment dimensions. One without them is a
`ValueError`, a name that is not there a `KeyError`. -/
theorem C80_get {ds : List (ν × DataArray δ α)} (g : GoodDataset ds) (moms : List δ) :
    (∀ v ∈ ds, Has v.2 moms → getName moms ds v.1 = .ok v.2) ∧
    (∀ v ∈ ds, ¬ Has v.2 moms → getName moms ds v.1 = .error .valueError) ∧
    ∀ n, (∀ v ∈ ds, v.1 ≠ n) → getName moms ds n = .error .keyError := by
  refine ⟨fun v hv hh => getName_ok g.names (momSizes_of_good g moms) hv hh, fun v hv hh => ?_,
    fun n hn => ?_⟩
  · unfold getName
    rw [lookup_of_mem g.names hv]
    exact if_pos hh
  · unfold getName
    rw [lookup_absent fun h => ?_]
    obtain ⟨v, hv, he⟩ := List.mem_map.1 h
    exact hn v hv he

/-- **C80** The names that can be looked up are the keys, and looking up gives the entry of `as_dict`. -/
theorem C80_get_key {ds : List (ν × DataArray δ α)} (g : GoodDataset ds) (moms : List δ) (n : ν)
    (x : DataArray δ α) : getName moms ds n = .ok x ↔ (n, x) ∈ asDict moms ds := by
  obtain ⟨h1, h2, h3⟩ := C80_get g moms
  rw [(C80_as_dict moms ds).2]
  constructor
  · intro h
    by_cases hn : ∃ v ∈ ds, v.1 = n
    · obtain ⟨v, hv, rfl⟩ := hn
      by_cases hh : Has v.2 moms
      · rw [h1 v hv hh] at h
        cases h
        exact ⟨hv, hh⟩
      · rw [h2 v hv hh] at h
        cases h
    · rw [h3 n fun v hv he => hn ⟨v, hv, he⟩] at h
      cases h
  · rintro ⟨hv, hh⟩
    exact h1 (n, x) hv hh

/-! ### Selecting several variables -/

/-- **C80** `c[names]`: the variables listed, as listed, provided that every moment dimension is a
dimension of one of them. A name that is not there is a `KeyError`, a moment dimension that is lost a
`ValueError`. -/
theorem C80_get_list {ds : List (ν × DataArray δ α)} {moms : List δ} (g : GoodDataset ds)
    (names : List ν) :
    ((∃ n ∈ names, ∀ v ∈ ds, v.1 ≠ n) → getNames moms ds names = .error .keyError) ∧
    ((∀ n ∈ names, ∃ v ∈ ds, v.1 = n) →
      ((∃ d ∈ moms, ∀ v ∈ ds, v.1 ∈ names → d ∉ v.2.dims) →
        getNames moms ds names = .error .valueError) ∧
      ((∀ d ∈ moms, ∃ v ∈ ds, v.1 ∈ names ∧ d ∈ v.2.dims) →
        ∃ sub, getNames moms ds names = .ok sub ∧ Selected ds names sub)) := by
  constructor
  · rintro ⟨n, hn, hno⟩
    unfold getNames
    rw [listed_fails hn fun h => ?_]
    · rfl
    · obtain ⟨v, hv, he⟩ := List.mem_map.1 h
      exact hno v hv he
  intro hall
  obtain ⟨sub, e, h1, h2⟩ := listed_ok g.names (names := names) fun n hn => by
    obtain ⟨v, hv, he⟩ := hall n hn
    exact List.mem_map.2 ⟨v, hv, he⟩
  have hw : ∀ n, n ∈ sub.map Prod.fst ↔ n ∈ names := fun n => by rw [h1]; exact mem_firstNames
  have hsub : ∀ v ∈ ds, v.1 ∈ names → v ∈ sub := by
    intro v hv hn
    obtain ⟨w, hw', he⟩ := List.mem_map.1 ((hw v.1).2 hn)
    have a := lookup_of_mem g.names hv
    rw [← he, lookup_of_mem g.names (h2 w hw')] at a
    rwa [← Prod.ext he (Option.some.inj a)]
  have hnd : (sub.map Prod.fst).Nodup := by rw [h1]; exact nodup_firstNames names
  unfold getNames
  rw [e]
  constructor
  · rintro ⟨d, hd, hno⟩
    exact checkLikeDs_missing hd fun v hv => hno v (h2 v hv) ((hw v.1).1 (List.mem_map_of_mem hv))
  · intro hp
    refine ⟨sub, ?_, h2, hnd, hw, fun hn => by rw [h1]; exact firstNames_self hn⟩
    refine checkLikeDs_ok (momSizes_of_good g moms)
      (momSizes_of_good (good_of_subset g hnd h2) moms) fun d hd => ?_
    obtain ⟨v, hv, hn, h⟩ := hp d hd
    exact ⟨v, hsub v hv hn, v, hv, h, h, rfl⟩

/-- **C80** Looking up among selected variables is looking up among all. -/
theorem C80_get_list_get {ds sub : List (ν × DataArray δ α)} {moms : List δ} (g : GoodDataset ds)
    {names : List ν} (h : Selected ds names sub) {n : ν} (hn : n ∈ names) :
    getName moms sub n = getName moms ds n := by
  obtain ⟨v, hv, rfl⟩ := List.mem_map.1 ((h.which n).2 hn)
  have gs := good_of_subset g h.once h.values
  by_cases hh : Has v.2 moms
  · rw [(C80_get gs moms).1 v hv hh, (C80_get g moms).1 v (h.values v hv) hh]
  · rw [(C80_get gs moms).2.1 v hv hh, (C80_get g moms).2.1 v (h.values v hv) hh]

/-! ### Assigning variables -/

/-- **C80** `c.assign(new)`: replaced variables stay where they were, others come last, nothing else
changes. It is refused when sizes disagree, when a moment dimension is lost, or when the number of moments
is another one. -/
theorem C80_assign {ds new : List (ν × DataArray δ α)} {moms : List δ} (g : GoodObject ds moms)
    (hn : (new.map Prod.fst).Nodup) :
    (BadAfter ds new moms → assignDs moms ds new = .error .valueError) ∧
    (¬ BadAfter ds new moms → ∃ out, assignDs moms ds new = .ok out ∧ Assigned ds new out) := by
  have hmem := mem_assigned (ds := ds) hn
  have hrun : assignDs moms ds new = ((assigned ds new).build).bind (newLikeDs moms ds) := rfl
  have hds := momSizes_of_good g.toGoodDataset moms
  have hbad : (∃ v w, After ds new v ∧ After ds new w ∧
      ∃ d ∈ v.2.dims, d ∈ w.2.dims ∧ v.2.size d ≠ w.2.size d) →
      assignDs moms ds new = .error .valueError := by
    rintro ⟨v, w, hv, hw, d, h1, h2, hne⟩
    rw [hrun, build_fails ((hmem v).2 hv) ((hmem w).2 hw) h1 h2 hne]
    rfl
  by_cases hc : ∃ v w, After ds new v ∧ After ds new w ∧
      ∃ d ∈ v.2.dims, d ∈ w.2.dims ∧ v.2.size d ≠ w.2.size d
  · exact ⟨fun _ => hbad hc, fun h => absurd (.inl hc) h⟩
  have hsame : (assigned ds new).SameSizes := fun v hv w hw d h1 h2 => by
    by_contra hne
    exact hc ⟨v, w, (hmem v).1 hv, (hmem w).1 hw, d, h1, h2, hne⟩
  have hb : (assigned ds new).build = .ok (assigned ds new) := if_pos hsame
  have hms : MomSizes moms (assigned ds new) := fun v hv w hw d _ h1 h2 => hsame v hv w hw d h1 h2
  rw [hrun, hb]
  simp only [Except.bind, newLikeDs]
  constructor
  · rintro (h | ⟨d, hd, hno⟩ | ⟨v, hv, w, hw, d, hd, h1, h2, hne⟩)
    · exact absurd h hc
    · rw [checkLikeDs_missing hd fun v hv => hno v ((hmem v).1 hv)]
    · rw [checkLikeDs_shape hds hms g.present ((hmem v).2 hv) hw hd h1 h2 hne]
  · intro h
    have hp : ∀ d ∈ moms, ∃ v ∈ assigned ds new, ∃ w ∈ ds, d ∈ v.2.dims ∧ d ∈ w.2.dims ∧
        v.2.size d = w.2.size d := by
      intro d hd
      have : ∃ v, After ds new v ∧ d ∈ v.2.dims := by
        by_contra hno
        exact h (.inr (.inl ⟨d, hd, fun v hv h' => hno ⟨v, hv, h'⟩⟩))
      obtain ⟨v, hv, h1⟩ := this
      obtain ⟨w, hw, h2⟩ := g.present d hd
      refine ⟨v, (hmem v).2 hv, w, hw, h1, h2, ?_⟩
      by_contra hne
      exact h (.inr (.inr ⟨v, hv, w, hw, d, hd, h1, h2, hne⟩))
    refine ⟨assigned ds new, ?_, hmem, assigned_names ds new⟩
    rw [checkLikeDs_ok hds hms hp]
    refine constructDs_ok hms fun d hd => ?_
    obtain ⟨v, hv, w, hw, h1, h2, h3⟩ := hp d hd
    exact ⟨v, hv, h1, by rw [h3]; exact g.room w hw d hd h2⟩

/-- **C80** Looking up after assigning: the new variable under its name, and what there was under another
one. -/
theorem C80_assign_get {ds new out : List (ν × DataArray δ α)} {moms : List δ} (g : GoodObject ds moms)
    (hn : (new.map Prod.fst).Nodup) (h : assignDs moms ds new = .ok out) :
    (∀ v ∈ new, Has v.2 moms → getName moms out v.1 = .ok v.2) ∧
    ∀ n, (∀ v ∈ new, v.1 ≠ n) → getName moms out n = getName moms ds n := by
  have hb : ¬ BadAfter ds new moms := fun hb => by
    rw [(C80_assign g hn).1 hb] at h
    cases h
  obtain ⟨out', e, ha⟩ := (C80_assign g hn).2 hb
  rw [h] at e
  cases e
  have hnd : (out.map Prod.fst).Nodup := by
    rw [ha.order, ← assigned_names]
    exact assigned_nodup g.names hn
  have hms : MomSizes moms out := fun v hv w hw d _ h1 h2 => by
    by_contra hne
    exact hb (.inl ⟨v, w, (ha.which v).1 hv, (ha.which w).1 hw, d, h1, h2, hne⟩)
  refine ⟨fun v hv hh => getName_ok hnd hms ((ha.which v).2 (.inl hv)) hh, fun n hno => ?_⟩
  obtain ⟨h1, h2, h3⟩ := C80_get g.toGoodDataset moms
  by_cases hds : ∃ v ∈ ds, v.1 = n
  · obtain ⟨v, hv, rfl⟩ := hds
    have hvo : v ∈ out := (ha.which v).2 (.inr ⟨hv, hno⟩)
    by_cases hh : Has v.2 moms
    · rw [h1 v hv hh, getName_ok hnd hms hvo hh]
    · rw [h2 v hv hh]
      unfold getName
      rw [lookup_of_mem hnd hvo]
      exact if_pos hh
  · rw [h3 n fun v hv he => hds ⟨v, hv, he⟩]
    unfold getName
    rw [lookup_absent fun hm => ?_]
    obtain ⟨v, hv, rfl⟩ := List.mem_map.1 hm
    rcases (ha.which v).1 hv with hv | ⟨hv, -⟩
    · exact hno v hv rfl
    · exact hds ⟨v, hv, rfl⟩

/-- **C80** What can be made into an object: every moment dimension is there, with at least one moment. -/
theorem C80_construct {ds : List (ν × DataArray δ α)} (g : GoodDataset ds) (moms : List δ) :
    (GoodObject ds moms → constructDs moms ds = .ok ds) ∧
    (¬ GoodObject ds moms → constructDs moms ds = .error .valueError) := by
  have hms := momSizes_of_good g moms
  constructor
  · intro h
    refine constructDs_ok hms fun d hd => ?_
    obtain ⟨v, hv, h1⟩ := h.present d hd
    exact ⟨v, hv, h1, h.room v hv d hd h1⟩
  · intro h
    unfold constructDs
    by_cases hp : ∀ d ∈ moms, ∃ v ∈ ds, d ∈ v.2.dims
    · have hr : ∃ v ∈ ds, ∃ d ∈ moms, d ∈ v.2.dims ∧ v.2.size d < 2 := by
        by_contra hno
        push Not at hno
        exact h { toGoodDataset := g, present := hp, room := fun v hv d hd h1 => hno v hv d hd h1 }
      obtain ⟨v, hv, d, hd, h1, h2⟩ := hr
      rw [momShape_common hms hp]
      simp only [Except.bind]
      rw [if_pos]
      refine ⟨_, List.mem_map_of_mem hd, ?_⟩
      rw [commonSize_mom hms hd hv h1]
      omega
    · push Not at hp
      obtain ⟨d, hd, hno⟩ := hp
      have hf : ∀ r, moms.mapM (Dataset.sizeOf ds) ≠ .ok r := by
        intro r hr
        obtain ⟨b, -, hb⟩ := mapM_ok_mem hr d hd
        rw [sizeOf_fails fun ⟨v, hv, h'⟩ => hno v hv h'] at hb
        cases hb
      unfold Dataset.momShape
      cases e : moms.mapM (Dataset.sizeOf ds) with
      | ok r => exact absurd e (hf r)
      | error _ => rfl

/-! ### Before or after an operation -/

section Field

variable {K V M : Type} [Field K] [DecidableEq K] [CharZero K]

/-- **C80** `c.reduce(dim)[name]` is `c[name].reduce(dim)`. -/
theorem C80_reduce_get {core : Nd.Core K M} (hc : core.Ok) (k : Kernel K V M)
    {ds : List (ν × DataArray δ K)} (g : GoodDataset ds) {moms l : List δ} (hmn : moms.Nodup)
    (hln : l.Nodup) (hl0 : l ≠ []) (hlm : ∀ d ∈ l, d ∉ moms)
    (hall : ∀ d ∈ l ++ moms, ∃ v ∈ ds, d ∈ v.2.dims)
    (hpos : ∀ v ∈ ds, Has v.2 (l ++ moms) → ∀ d ∈ v.2.dims, d ∉ l → v.2.size d ≠ 0)
    (hm : moms.length = core.nd) {useMap : Option Bool}
    (hum : useMap = some false ∨ l.length = 1) (axesToEnd : Bool) {v : ν × DataArray δ K}
    (hv : v ∈ ds) (hh : Has v.2 (l ++ moms)) :
    ((reduceDs core k ds moms none (some (some l)) false axesToEnd useMap).bind fun out =>
        getName moms out v.1) =
      (getName moms ds v.1).bind fun x => reduceX core k x moms none (some (some l)) false axesToEnd := by
  have hh' : Has v.2 moms := fun d hd => hh d (List.mem_append_right _ hd)
  obtain ⟨out, e, h⟩ := (C73_reduce_data hc k g hmn hln hl0 hlm hall hpos hm hum false axesToEnd).2
    (fun h => by cases h)
  obtain ⟨y, ey, hy⟩ := get_each (moms := moms) g h (fun w hw y hy => by
    by_cases hw' : Has w.2 (l ++ moms)
    · exact momKept_reduce hc k ⟨g.distinct w hw, hmn, fun d hd => hw' d (List.mem_append_right _ hd), hln,
        fun d hd => hw' d (List.mem_append_left _ hd), hlm, hl0, fun d hd h => hpos w hw hw' d hd h⟩ hm
        (hy.1 hw')
    · exact momKept_copy (hy.2 hw') (fun d => mem_lastOf) moms) hv hh'
  rw [e, (C80_get g moms).1 v hv hh']
  simp only [Except.bind]
  rw [ey, hy.1 hh]

/-- **C80** Reducing keeps the keys. -/
theorem C80_reduce_keys {core : Nd.Core K M} (hc : core.Ok) (k : Kernel K V M)
    {ds : List (ν × DataArray δ K)} (g : GoodDataset ds) {moms l : List δ} (hmn : moms.Nodup)
    (hln : l.Nodup) (hl0 : l ≠ []) (hlm : ∀ d ∈ l, d ∉ moms)
    (hall : ∀ d ∈ l ++ moms, ∃ v ∈ ds, d ∈ v.2.dims)
    (hpos : ∀ v ∈ ds, Has v.2 (l ++ moms) → ∀ d ∈ v.2.dims, d ∉ l → v.2.size d ≠ 0)
    (hm : moms.length = core.nd) {useMap : Option Bool}
    (hum : useMap = some false ∨ l.length = 1) (axesToEnd : Bool) :
    (reduceDs core k ds moms none (some (some l)) false axesToEnd useMap).map (keysDs moms) =
      .ok (keysDs moms ds) := by
  obtain ⟨out, e, h⟩ := (C73_reduce_data hc k g hmn hln hl0 hlm hall hpos hm hum false axesToEnd).2
    (fun h => by cases h)
  rw [e]
  refine congrArg Except.ok (keys_each (eachVariable_imp h fun w hw y hy => ?_))
  by_cases hw' : Has w.2 (l ++ moms)
  · exact momKept_reduce hc k ⟨g.distinct w hw, hmn, fun d hd => hw' d (List.mem_append_right _ hd), hln,
      fun d hd => hw' d (List.mem_append_left _ hd), hlm, hl0, fun d hd h => hpos w hw hw' d hd h⟩ hm
      (hy.1 hw')
  · exact momKept_copy (hy.2 hw') (fun d => mem_lastOf) moms

/-- **C80** The variable of that name in the result of `cumulative` is the result for that variable. -/
theorem C80_cumulative_get {core : Nd.Core K M} (hc : core.Ok) (k : Kernel K V M) (inverse : Bool)
    {ds : List (ν × DataArray δ K)} (g : GoodDataset ds) {dim : δ} {moms : List δ}
    (hL : (dim :: moms).Nodup) (hm : moms.length = core.nd) (axesToEnd : Bool)
    {v : ν × DataArray δ K} (hv : v ∈ ds) (hh : Has v.2 (dim :: moms)) :
    ∃ out y z, cumulativeDs core k inverse ds moms none (some (some dim)) axesToEnd = .ok out ∧
      getName moms out v.1 = .ok y ∧
      ((getName moms ds v.1).bind fun x =>
        cumulativeX core k inverse x moms none (some (some dim)) axesToEnd) = .ok z ∧
      Alike y z ∧ keysDs moms out = keysDs moms ds := by
  have hh' : Has v.2 moms := fun d hd => hh d (List.mem_cons_of_mem _ hd)
  obtain ⟨out, e, h⟩ := C73_cumulative hc k inverse g hL hm axesToEnd
  have hk : ∀ w ∈ ds, ∀ y, OnItsOwn (dim :: moms)
      (fun _ x => cumulativeX core k inverse x moms none (some (some dim)) axesToEnd)
      (fun x y => CopyOf some x (copyDims x.dims dim moms axesToEnd) y) w.1 w.2 y →
      MomKept moms w.2 y := by
    intro w hw y hy
    by_cases hw' : Has w.2 (dim :: moms)
    · obtain ⟨z, ez, hz⟩ := hy.1 hw'
      have gn := Cmomy.Labelled.goodNamed_of g hL hw hw'
      obtain ⟨z', ez', hs⟩ := C57_cumulative hc k inverse gn hm (axis := none) (.inl ⟨rfl, rfl⟩) axesToEnd
      have : z = z' := Except.ok.inj (ez.symm.trans ez')
      subst this
      intro d hd
      have hmem : d ∈ z.dims := by
        rw [hs.dims_eq]
        exact (mem_dimsAfter gn.present gn.momPresent axesToEnd).2 (gn.momPresent d hd)
      refine ⟨⟨fun _ => gn.momPresent d hd, fun _ => by rw [hz.dims_eq]; exact hmem⟩, fun _ => ?_⟩
      rw [hz.size_eq d (by rw [hz.dims_eq]; exact hmem), hs.size_eq d (by rw [← hs.dims_eq]; exact hmem)]
    · exact momKept_copy (hy.2 hw') (fun d => (copyDims_perm (g.distinct w hw) hL axesToEnd).mem_iff) moms
  obtain ⟨y, ey, hy⟩ := get_each (moms := moms) g h hk hv hh'
  obtain ⟨z, ez, hz⟩ := hy.1 hh
  refine ⟨out, y, z, e, ey, ?_, hz, keys_each (eachVariable_imp h hk)⟩
  rw [(C80_get g moms).1 v hv hh']
  exact ez

end Field

/-! ### Examples -/

example : keysDs [mom] exDs = [0, 2, 3] := by decide +kernel
example : ((getName [mom] exDs 2).map fun x => (x.dims, x.data [1, 1])).toOption = some ([mom, wid], 12) := by
  decide +kernel
example : (getName [mom] exDs 1).map (fun x => x.dims) = .error .valueError := by decide +kernel
example : (getName [mom] exDs 7).map (fun x => x.dims) = .error .keyError := by decide +kernel
example := C80_get exDs_good [mom]
example := C80_get_key exDs_good [mom] 0 exLab
example : ((getNames [mom] exDs [3, 1, 3]).map (fun s => s.map Prod.fst)).toOption = some [3, 1] := by
  decide +kernel
example : (getNames [mom] exDs [1]).map (fun s => s.map Prod.fst) = .error .valueError := by decide +kernel
example := ((C80_get_list exDs_good (moms := [mom]) [3, 1]).2 (by decide)).2 (by decide)
example := ((C80_get_list exDs_good (moms := [mom]) [1]).2 (by decide)).1 (by decide)
example := (C80_get_list exDs_good (moms := [mom]) [3, 7]).1 (by decide)
example : ((assignDs [mom] exDs [(5, exMean), (1, exLab)]).map (fun s => s.map Prod.fst)).toOption
    = some [0, 1, 2, 3, 5] := by decide +kernel
example : ((assignDs [mom] exDs [(5, exMean), (1, exLab)]).bind fun s =>
    (getName [mom] s 1).map (fun x => x.dims)).toOption = some [mom, obs, wid] := by decide +kernel
example : (assignDs [mom] [(0, exLab)] [(0, exPlain)]).map (fun s => s.map Prod.fst)
    = .error .valueError := by decide +kernel
example := C80_assign exDs_object (new := [(5, exMean), (1, exLab)]) (by decide)
example := (C80_construct exDs_good [mom]).1 exDs_object
example := C80_reduce_get core1_ok (kernel1 2) exDs_good (moms := [mom]) (l := [obs]) (by decide) (by decide)
  (by decide) (by decide) (by decide) (by decide) rfl (useMap := none) (.inr rfl) true
  (v := (0, exLab)) (by simp [exDs]) (by decide)
example := C80_reduce_keys core1_ok (kernel1 2) exDs_good (moms := [mom]) (l := [obs]) (by decide) (by decide)
  (by decide) (by decide) (by decide) (by decide) rfl (useMap := none) (.inr rfl) true
example := C80_cumulative_get core1_ok (kernel1 2) false exDs_good (dim := obs) (moms := [mom]) (by decide)
  rfl true (v := (3, exLab)) (by simp [exDs]) (by decide)

end Cmomy
