import Verif.Lemmas.DatasetConvert
import Verif.Props.LabelledNd

/-!
# C78: one array or several variables

`to_dataset` and `to_dataarray` lose nothing and mix nothing up, undo each other, and it does not matter whether moments
are reduced before or after.
-/

namespace Cmomy

open Spec Labelled

variable {ν δ : Type} [DecidableEq ν] [DecidableEq δ] {α : Type} {moms : List δ} {x : DataArray δ α} {e : Extra ν δ}

/-! ### `to_dataset` -/

/-- **C78** `to_dataset(dim)`: one variable for every label. -/
theorem C78_split {dim : δ} (g : Splittable x e dim moms) :
    ∃ ds, toDatasetX moms x e (some dim) none = .ok ds ∧ SplitOf ds x dim (e.labels dim) moms := by
  have hl : e.labels dim ≠ [] := fun h => g.nonempty (by rw [← g.labels, h]; rfl)
  let ds0 : Dataset ν δ α := (e.labels dim).mapIdx fun k l => (l, x.place dim k)
  have hv0 : ∀ v ∈ ds0, v.2.dims = x.dims.filter (fun d => decide (d ≠ dim)) ∧ v.2.size = x.size := by
    intro v hv
    obtain ⟨k, hk, rfl⟩ := List.mem_mapIdx.1 hv
    exact ⟨rfl, rfl⟩
  have hne : ∃ v, v ∈ ds0 := by
    refine List.exists_mem_of_ne_nil _ fun h => hl ?_
    simpa [ds0] using h
  have h0 : toDatasetSplit x e dim = .ok ds0 := by
    unfold toDatasetSplit
    rw [if_neg (by push Not; exact ⟨g.different, hl⟩), if_neg (by push Not; exact g.free)]
  let all := firstNames (ds0.flatMap (fun v => v.2.dims) ++ e.coordDims.filter (fun c => decide (c ≠ dim)))
  have hin : ∀ v ∈ ds0, ∀ d ∈ v.2.dims, d ∈ all := fun v hv d hd =>
    mem_firstNames.2 (List.mem_append_left _ (List.mem_flatMap.2 ⟨v, hv, hd⟩))
  have hmem : ∀ d ∈ moms, d ∈ x.dims.filter (fun d => decide (d ≠ dim)) := fun d hd => by
    simp only [List.mem_filter, decide_eq_true_eq]
    exact ⟨g.momPresent d hd, fun h => g.notMom (h ▸ hd)⟩
  obtain ⟨out, e1, e2⟩ := momentsLast_ok (ds := ds0) (all := all) (nodup_firstNames _) g.momDistinct (by
      intro d hd
      obtain ⟨v, hv⟩ := hne
      exact hin v hv d (by rw [(hv0 v hv).1]; exact hmem d hd))
    (fun v hv => by rw [(hv0 v hv).1]; exact g.distinct.filter _) hin
  have hget : ∀ k w, out[k]? = some w → ∃ v, ds0[k]? = some v ∧ _ := fun k w hk => eachVariable_get e2 hk
  have hall : ∀ w ∈ out, ∃ v ∈ ds0, w.2.dims = (all.filter (fun d => decide (d ∉ moms)) ++ moms).filter
      (fun d => decide (d ∈ v.2.dims)) ∧ w.2.dims.Perm v.2.dims ∧ w.2.size = v.2.size := by
    intro w hw
    obtain ⟨k, hk⟩ := List.mem_iff_getElem?.1 hw
    obtain ⟨v, h1, h2, h3, h4, -⟩ := hget k w hk
    exact ⟨v, List.mem_iff_getElem?.2 ⟨k, h1⟩, h2, h3, h4⟩
  refine ⟨out, ?_, ?_, ?_, ?_, ?_, ?_, ?_⟩
  · unfold toDatasetX
    simp only
    rw [if_neg (not_not.2 g.present), if_neg (by simp), h0]
    exact e1
  · rw [eachVariable_names e2]
    refine List.ext_getElem? fun k => ?_
    simp [ds0, List.getElem?_mapIdx, Function.comp_def]
  · intro w hw
    obtain ⟨v, hv, -, h3, -⟩ := hall w hw
    exact h3.nodup_iff.2 (by rw [(hv0 v hv).1]; exact g.distinct.filter _)
  · intro w hw d
    obtain ⟨v, hv, -, h3, -⟩ := hall w hw
    rw [h3.mem_iff, (hv0 v hv).1, List.mem_filter, decide_eq_true_eq]
  · intro w hw
    obtain ⟨v, hv, h2, -, -⟩ := hall w hw
    obtain ⟨front, hf⟩ := order_last (all := all) (moms := moms) (dims := v.2.dims)
      (fun d hd => by rw [(hv0 v hv).1]; exact hmem d hd)
    exact ⟨front, h2.trans hf⟩
  · intro w hw d _
    obtain ⟨v, hv, -, -, h4⟩ := hall w hw
    rw [h4, (hv0 v hv).2]
  · intro k w hk c
    obtain ⟨v, h1, -, -, -, h5⟩ := hget k w hk
    rw [h5 c]
    simp only [ds0, List.getElem?_mapIdx, Option.map_eq_some_iff] at h1
    obtain ⟨l, -, rfl⟩ := h1
    exact entry_place x dim k c

/-- **C78** `to_dataset(name=...)`, or without arguments for an array that has a name: one variable, the array itself with the
moment dimensions last. -/
theorem C78_whole (hx : x.dims.Nodup) (hm : moms.Nodup) (hp : ∀ d ∈ moms, d ∈ x.dims)
    {name : Option ν} {n : ν} (hn : name.or e.name = some n) (hf : n ∉ e.coords) :
    ∃ y, toDatasetX moms x e none name = .ok [(n, y)] ∧ SameArray y x ∧ MomentsAtEnd y moms := by
  obtain ⟨out, e1, e2⟩ := momentsLast_ok (ds := [(n, x)]) (all := firstNames (e.coordDims ++ x.dims))
    (nodup_firstNames _) hm (fun d hd => mem_firstNames.2 (List.mem_append_right _ (hp d hd)))
    (by simpa using hx) (by
      intro v hv d hd
      obtain rfl := List.mem_singleton.1 hv
      exact mem_firstNames.2 (List.mem_append_right _ hd))
  unfold EachVariable at e2
  cases e2 with
  | @cons _ w _ _ h t =>
    cases t
    obtain ⟨rfl, h2, h3, h4, h5⟩ := h
    obtain ⟨front, hfr⟩ := order_last (all := firstNames (e.coordDims ++ x.dims)) (moms := moms) hp
    refine ⟨w.2, ?_, ⟨h3, fun d _ => by rw [h4], h5⟩, front, h2.trans hfr⟩
    unfold toDatasetX toDatasetWhole
    simp only [hn]
    rw [if_neg hf]
    exact e1

/-- **C78** What `to_dataset` refuses: something that is no dimension, a dimension together with a name, labels that are
names of coordinates, no name at all, or the name of a coordinate. -/
theorem C78_to_dataset_refused :
    (∀ dim name, dim ∉ x.dims → toDatasetX moms x e (some dim) name = .error .typeError) ∧
    (∀ dim n, dim ∈ x.dims → toDatasetX moms x e (some dim) (some n) = .error .typeError) ∧
    (∀ dim, dim ∈ x.dims → (e.labels dim).Nodup → (∃ l ∈ e.labels dim, l ∈ e.coords) →
      toDatasetX moms x e (some dim) none = .error .valueError) ∧
    (e.name = none → toDatasetX moms x e none none = .error .valueError) ∧
    (∀ n ∈ e.coords, toDatasetX moms x e none (some n) = .error .valueError) := by
  refine ⟨fun dim name h => if_pos h, fun dim n h => ?_, fun dim h hn hl => ?_, fun h => ?_, fun n h => ?_⟩
  · unfold toDatasetX
    simp only
    rw [if_neg (not_not.2 h), if_pos (by simp)]
  · unfold toDatasetX toDatasetSplit
    simp only
    rw [if_neg (not_not.2 h), if_neg (by simp), if_neg, if_pos hl]
    · rfl
    · rintro (h' | h')
      · exact h' hn
      · obtain ⟨l, hl, -⟩ := hl
        rw [h'] at hl
        cases hl
  · unfold toDatasetX toDatasetWhole
    simp only [h, Option.or_none]
    rfl
  · unfold toDatasetX toDatasetWhole
    simp only [Option.some_or]
    rw [if_pos h]
    rfl

/-- **C78** A moment dimension cannot be split. -/
theorem C78_moment_refused {dim : δ} (hx : dim ∈ x.dims) (hm : dim ∈ moms) (hn : (e.labels dim).Nodup)
    (hl : e.labels dim ≠ []) : toDatasetX moms x e (some dim) none = .error .valueError := by
  unfold toDatasetX toDatasetSplit
  simp only
  rw [if_neg (not_not.2 hx), if_neg (by simp), if_neg (by push Not; exact ⟨hn, hl⟩)]
  split_ifs
  · rfl
  · show Dataset.momentsLast _ _ _ = _
    refine if_pos ⟨dim, hm, fun h => ?_⟩
    rw [mem_firstNames, List.mem_append, List.mem_flatMap] at h
    rcases h with ⟨v, hv, h⟩ | h
    · obtain ⟨k, hk, rfl⟩ := List.mem_mapIdx.1 hv
      simp [DataArray.place] at h
    · simp at h

/-! ### `to_dataarray` -/

variable {ds : List (ν × DataArray δ α)}

theorem toArray_ok (g : GoodDataset ds) (hne : ds ≠ []) {dim : δ} (hf : ∀ v ∈ ds, dim ∉ v.2.dims) :
    ∃ y, Dataset.toArray ds dim = .ok y ∧ y.dims = dim :: Dataset.dims ds ∧ y.size dim = ds.length ∧
      (∀ v ∈ ds, ∀ d ∈ v.2.dims, y.size d = v.2.size d) ∧
      ∀ k v, ds[k]? = some v → ∀ c, c dim = k → entry y c = entry v.2 c := by
  cases ds with
  | nil => exact absurd rfl hne
  | cons v0 ds =>
    unfold Dataset.toArray
    simp only
    rw [if_neg (by rintro ⟨v, hv, h⟩; exact hf v hv h)]
    refine ⟨_, rfl, rfl, if_pos rfl, fun v hv d hd => ?_, fun k v hk c hc => ?_⟩
    · show (if d = dim then _ else _) = _
      rw [if_neg (show d ≠ dim from fun h => hf v hv (h ▸ hd))]
      cases hfind : (v0 :: ds).find? (fun v => decide (d ∈ v.2.dims)) with
      | none => exact absurd hd (by simpa using List.find?_eq_none.1 hfind v hv)
      | some w =>
        have h1 := List.mem_of_find?_eq_some hfind
        have h2 : d ∈ w.2.dims := by simpa using List.find?_some hfind
        exact g.sizes w h1 v hv d h2 hd
    · have hv := List.mem_iff_getElem?.2 ⟨k, hk⟩
      unfold entry
      simp only [List.map_cons, List.headD_cons, hc, hk, Option.getD_some]
      refine congrArg v.2.data (List.map_congr_left fun d hd => ?_)
      have hm : d ∈ dim :: Dataset.dims (v0 :: ds) :=
        List.mem_cons_of_mem _ (mem_firstNames.2 (List.mem_flatMap.2 ⟨v, hv, hd⟩))
      have hlt := List.idxOf_lt_length_of_mem hm
      have e1 : (k :: (Dataset.dims (v0 :: ds)).map c) = (dim :: Dataset.dims (v0 :: ds)).map c := by
        rw [List.map_cons, hc]
      rw [e1, List.getD_eq_getElem?_getD, List.getElem?_map, List.getElem?_eq_getElem hlt, List.getElem_idxOf]
      rfl

/-- **C78** `to_dataarray(dim)`: all variables in one array, with their names as labels. -/
theorem C78_stack (g : GoodDataset ds) (hne : ds ≠ []) (hm : moms.Nodup) (hp : ∀ d ∈ moms, ∃ v ∈ ds, d ∈ v.2.dims)
    {dim : δ} (hf : ∀ v ∈ ds, dim ∉ v.2.dims) :
    ∃ out, toDataArrayX moms ds dim = .ok (out, ds.map Prod.fst) ∧ StackOf out ds dim moms := by
  obtain ⟨y, e1, e2, e3, e4, e5⟩ := toArray_ok g hne hf
  have hdm : ∀ d, d ∈ Dataset.dims ds ↔ ∃ v ∈ ds, d ∈ v.2.dims := fun d => by
    unfold Dataset.dims
    rw [mem_firstNames, List.mem_flatMap]
  have hyn : y.dims.Nodup := by
    rw [e2, List.nodup_cons]
    exact ⟨fun h => by obtain ⟨v, hv, h'⟩ := (hdm dim).1 h; exact hf v hv h', nodup_firstNames _⟩
  have hpy : ∀ d ∈ moms, d ∈ y.dims := fun d hd => by
    rw [e2]; exact List.mem_cons_of_mem _ ((hdm d).2 (hp d hd))
  obtain ⟨z, t1, t2, t3⟩ := transpose_any y.toArr hyn hm
  have ht : y.transposeStrict (none :: moms.map some) = .ok { z with size := y.size } := by
    unfold DataArray.transposeStrict DataArray.step
    rw [if_neg (by
      push Not
      intro d hd
      simp only [List.filterMap_cons, id, List.filterMap_map] at hd
      have : d ∈ moms := by simpa using hd
      exact hpy d this)]
    beta_reduce
    rw [t1]
    rfl
  have hzp : z.dims.Perm y.dims := by rw [t3]; exact lastOf_perm hyn hm
  have hent : ∀ c, entry ({ z with size := y.size } : DataArray δ α) c = entry y c := fun c => (t2 c).symm
  refine ⟨{ z with size := y.size }, ?_, ?_, ?_, ?_, ?_, ?_, ?_⟩
  · unfold toDataArrayX
    rw [e1]
    show (y.transposeStrict _).map _ = _
    rw [ht]
    rfl
  · exact hzp.nodup_iff.2 hyn
  · intro d
    show d ∈ z.dims ↔ _
    rw [hzp.mem_iff, e2, List.mem_cons, hdm]
  · exact ⟨_, t3.trans (lastOf_all hpy)⟩
  · exact e3
  · exact e4
  · intro k v hk c hc
    rw [hent, e5 k v hk c hc]

/-- **C78** It is refused if a moment dimension is missing from all variables. -/
theorem C78_stack_refused (g : GoodDataset ds) (hne : ds ≠ []) {dim d : δ} (hf : ∀ v ∈ ds, dim ∉ v.2.dims)
    (hd : d ∈ moms) (hdim : d ≠ dim) (hno : ∀ v ∈ ds, d ∉ v.2.dims) :
    toDataArrayX moms ds dim = .error .valueError := by
  obtain ⟨y, e1, e2, -⟩ := toArray_ok g hne hf
  unfold toDataArrayX
  rw [e1]
  show (y.transposeStrict _).map _ = _
  unfold DataArray.transposeStrict
  have hnot : d ∉ y.dims := by
    intro h
    rw [e2, List.mem_cons] at h
    rcases h with h | h
    · exact hdim h
    · unfold Dataset.dims at h
      rw [mem_firstNames, List.mem_flatMap] at h
      obtain ⟨v, hv, h⟩ := h
      exact hno v hv h
  rw [if_pos ⟨d, by simpa using hd, hnot⟩]
  rfl

/-! ### There and back -/

omit [DecidableEq ν] in
theorem _root_.Cmomy.Spec.SplitOf.good {dim : δ} {labels : List ν} (h : SplitOf ds x dim labels moms) (hl : labels.Nodup) :
    GoodDataset ds :=
  ⟨by rw [h.names]; exact hl, h.distinct, fun v hv w hw d h1 h2 => by rw [h.sizes v hv d h1, h.sizes w hw d h2]⟩

/-- **C78** `to_dataset(dim).to_dataarray(dim)` is the same array with the same labels; the order of the dimensions may
differ. -/
theorem C78_there_and_back {dim : δ} (g : Splittable x e dim moms) :
    ∃ ds out, toDatasetX moms x e (some dim) none = .ok ds ∧
      toDataArrayX moms ds dim = .ok (out, e.labels dim) ∧ out.dims.Perm x.dims ∧
      (∀ d ∈ x.dims, out.size d = x.size d) ∧ MomentsAtEnd out moms ∧
      ∀ c, c dim < x.size dim → entry out c = entry x c := by
  obtain ⟨ds, e1, h⟩ := C78_split g
  have hlen : ds.length = x.size dim := by
    rw [← g.labels, ← h.names, List.length_map]
  have hne : ds ≠ [] := fun h0 => g.nonempty (by rw [← hlen, h0]; rfl)
  obtain ⟨v, hv⟩ := List.exists_mem_of_ne_nil _ hne
  obtain ⟨out, e2, s⟩ := C78_stack (moms := moms) (dim := dim) (h.good g.different) hne g.momDistinct
    (fun d hd => ⟨v, hv, (h.dims v hv d).2 ⟨g.momPresent d hd, fun h' => g.notMom (h' ▸ hd)⟩⟩)
    (fun w hw h' => ((h.dims w hw dim).1 h').2 rfl)
  rw [h.names] at e2
  refine ⟨ds, out, e1, e2, ?_, ?_, s.last, ?_⟩
  · rw [List.perm_ext_iff_of_nodup s.distinct g.distinct]
    intro d
    rw [s.dims]
    constructor
    · rintro (rfl | ⟨w, hw, hd⟩)
      · exact g.present
      · exact ((h.dims w hw d).1 hd).1
    · intro hd
      by_cases hdd : d = dim
      · exact .inl hdd
      · exact .inr ⟨v, hv, (h.dims v hv d).2 ⟨hd, hdd⟩⟩
  · intro d hd
    by_cases hdd : d = dim
    · rw [hdd, s.count, hlen]
    · have hdv := (h.dims v hv d).2 ⟨hd, hdd⟩
      rw [s.sizes v hv d hdv, h.sizes v hv d hdv]
  · intro c hc
    have hlt : c dim < ds.length := by rw [hlen]; exact hc
    rw [s.entries (c dim) ds[c dim] (List.getElem?_eq_getElem hlt) c rfl,
      h.entries (c dim) ds[c dim] (List.getElem?_eq_getElem hlt) c, Function.update_eq_self]

/-- **C78** `to_dataarray(dim).to_dataset(dim)`: the same variables under the same names, each repeated along the dimensions
only others had. -/
theorem C78_back_and_there (g : GoodDataset ds) (hne : ds ≠ []) (hm : moms.Nodup)
    (hp : ∀ d ∈ moms, ∃ v ∈ ds, d ∈ v.2.dims) {dim : δ} (hf : ∀ v ∈ ds, dim ∉ v.2.dims) (hdm : dim ∉ moms)
    (hl : e.labels dim = ds.map Prod.fst) (hc : ∀ v ∈ ds, v.1 ∉ e.coords)
    (ha : ∀ d ∈ e.coordDims, d = dim ∨ ∃ v ∈ ds, d ∈ v.2.dims) :
    ∃ out ds', toDataArrayX moms ds dim = .ok (out, ds.map Prod.fst) ∧
      toDatasetX moms out e (some dim) none = .ok ds' ∧ ds'.map Prod.fst = ds.map Prod.fst ∧
      ∀ (k : ℕ) (v w : ν × DataArray δ α), ds[k]? = some v → ds'[k]? = some w →
        (∀ d, d ∈ w.2.dims ↔ ∃ u ∈ ds, d ∈ u.2.dims) ∧ (∀ d ∈ v.2.dims, w.2.size d = v.2.size d) ∧
        ∀ c, entry w.2 c = entry v.2 c := by
  obtain ⟨out, e1, s⟩ := C78_stack g hne hm hp hf
  obtain ⟨ds', e2, h⟩ := C78_split (x := out) (e := e) (dim := dim) (moms := moms)
    { distinct := s.distinct
      momDistinct := hm
      momPresent := fun d hd => (s.dims d).2 (.inr (hp d hd))
      present := (s.dims dim).2 (.inl rfl)
      notMom := hdm
      labels := by rw [hl, s.count, List.length_map]
      different := by rw [hl]; exact g.names
      nonempty := by rw [s.count]; exact fun h => hne (List.length_eq_zero_iff.1 h)
      free := by
        intro l h'
        rw [hl] at h'
        obtain ⟨v, hv, rfl⟩ := List.mem_map.1 h'
        exact hc v hv
      along := fun d hd => (s.dims d).2 (ha d hd) }
  refine ⟨out, ds', e1, e2, h.names.trans hl, fun k v w hv hw => ?_⟩
  have hvm := List.mem_iff_getElem?.2 ⟨k, hv⟩
  have hwm := List.mem_iff_getElem?.2 ⟨k, hw⟩
  have hdim : ∀ d, d ∈ w.2.dims ↔ ∃ u ∈ ds, d ∈ u.2.dims := by
    intro d
    rw [h.dims w hwm d, s.dims]
    constructor
    · rintro ⟨rfl | h1, h2⟩
      · exact absurd rfl h2
      · exact h1
    · rintro ⟨u, hu, hd⟩
      exact ⟨.inr ⟨u, hu, hd⟩, fun h' => hf u hu (h' ▸ hd)⟩
  refine ⟨hdim, fun d hd => ?_, fun c => ?_⟩
  · rw [h.sizes w hwm d ((hdim d).2 ⟨v, hvm, hd⟩), s.sizes v hvm d hd]
  · rw [h.entries k w hw c, s.entries k v hv _ (Function.update_self ..)]
    exact entry_congr _ fun d hd => Function.update_of_ne (show d ≠ dim from fun h' => hf v hvm (h' ▸ hd)) ..

/-! ### Records -/

section records

variable {K V M : Type} [Field K] [DecidableEq K] {x : DataArray δ K} {ds : List (ν × DataArray δ K)}

theorem withNames_update {dim : δ} (hdm : dim ∉ moms) (ms : List ℕ) (c : δ → ℕ) (k : ℕ) :
    Function.update (withNames moms ms c) dim k = withNames moms ms (Function.update c dim k) := by
  funext d
  by_cases h : d = dim
  · subst h
    simp [withNames, hdm]
  · simp only [withNames, Function.update_of_ne h]

omit [DecidableEq ν] [Field K] [DecidableEq K] in
/-- **C78** The record of a variable of `to_dataset(dim)` is the record of the array at its place. -/
theorem C78_split_record (core : Nd.Core K M) {dim : δ} {labels : List ν} (h : SplitOf ds x dim labels moms)
    (hdm : dim ∉ moms) {k : ℕ} {v : ν × DataArray δ K} (hv : ds[k]? = some v) (c : δ → ℕ) :
    recordNamed core v.2 moms c = recordNamed core x moms (Function.update c dim k) := by
  unfold recordNamed
  congr 1
  funext ms
  rw [h.entries k v hv, withNames_update hdm]

omit [DecidableEq ν] [Field K] [DecidableEq K] in
/-- **C78** The record in the array of `to_dataarray(dim)` is the record of the variable. -/
theorem C78_stack_record (core : Nd.Core K M) {dim : δ} {out : DataArray δ K} (s : StackOf out ds dim moms)
    (hdm : dim ∉ moms) {c : δ → ℕ} {v : ν × DataArray δ K} (hv : ds[c dim]? = some v) :
    recordNamed core out moms c = recordNamed core v.2 moms c := by
  unfold recordNamed
  congr 1
  funext ms
  exact s.entries (c dim) v hv _ (by simp [withNames, hdm])

omit [DecidableEq ν] [Field K] [DecidableEq K] in
/-- **C78** A variable without moment dimensions is not left out by `to_dataarray`: its number stands in the place of every
moment. -/
theorem C78_no_moments {dim : δ} {out : DataArray δ K} (s : StackOf out ds dim moms) (hdm : dim ∉ moms)
    {c : δ → ℕ} {v : ν × DataArray δ K} (hv : ds[c dim]? = some v) (hno : ∀ d ∈ moms, d ∉ v.2.dims) (ms : List ℕ) :
    entry out (withNames moms ms c) = entry v.2 c := by
  rw [s.entries (c dim) v hv _ (by simp [withNames, hdm])]
  exact entry_congr _ fun d hd => if_neg fun h => hno d h hd

theorem allCoords_update {dim : δ} {k : ℕ} {size size' : δ → ℕ} (l : List δ) (hd : dim ∉ l)
    (hs : ∀ d ∈ l, size d = size' d) (c : δ → ℕ) :
    (allCoords size l c).map (fun c => Function.update c dim k) = allCoords size' l (Function.update c dim k) := by
  induction l generalizing c with
  | nil => rfl
  | cons a l ih =>
    unfold allCoords
    rw [List.map_flatMap, hs a List.mem_cons_self]
    congr 1
    funext s
    rw [ih (fun h => hd (List.mem_cons_of_mem _ h)) (fun d h => hs d (List.mem_cons_of_mem _ h)),
      Function.update_comm (show a ≠ dim from fun h => hd (by rw [← h]; exact List.mem_cons_self))]

omit [DecidableEq ν] in
/-- **C78** Reducing each variable of `to_dataset(dim)` gives the variables of the reduced array. -/
theorem C78_reduce {core : Nd.Core K M} (hc : core.Ok) (kern : Kernel K V M) {dim : δ} {labels : List ν}
    (h : SplitOf ds x dim labels moms) {l : List δ} (g : GoodReduce x moms l) (hm : moms.length = core.nd)
    (hdm : dim ∉ moms) (hdl : dim ∉ l) {k : ℕ} {v : ν × DataArray δ K} (hv : ds[k]? = some v)
    (keepdims axesToEnd : Bool) :
    ∃ r R, reduceX core kern v.2 moms none (some (some l)) keepdims axesToEnd = .ok r ∧
      reduceX core kern x moms none (some (some l)) keepdims axesToEnd = .ok R ∧
      (∀ d, d ∈ r.dims ↔ d ∈ R.dims ∧ d ≠ dim) ∧ (∀ d ∈ r.dims, r.size d = R.size d) ∧
      ∀ c, entry r c = entry R (Function.update c dim k) := by
  have hvm := List.mem_iff_getElem?.2 ⟨k, hv⟩
  have hd := h.dims v hvm
  have gv : GoodReduce v.2 moms l :=
    { distinct := h.distinct v hvm
      momDistinct := g.momDistinct
      momPresent := fun d hd' => (hd d).2 ⟨g.momPresent d hd', fun h' => hdm (h' ▸ hd')⟩
      dsDistinct := g.dsDistinct
      present := fun d hd' => (hd d).2 ⟨g.present d hd', fun h' => hdl (h' ▸ hd')⟩
      notMom := g.notMom
      some_dim := g.some_dim
      nonempty := fun d hd' hl => by
        rw [h.sizes v hvm d hd']
        exact g.nonempty d ((hd d).1 hd').1 hl }
  obtain ⟨r, a1, a2, a3, a4⟩ := reduceX_strong hc kern gv hm (.inl ⟨rfl, rfl⟩) keepdims axesToEnd
  obtain ⟨R, b1, b2, b3, b4⟩ := reduceX_strong hc kern g hm (.inl ⟨rfl, rfl⟩) keepdims axesToEnd
  have hdims : ∀ d, d ∈ r.dims ↔ d ∈ R.dims ∧ d ≠ dim := by
    intro d
    have hne : ∀ a ∈ l, a ≠ dim := fun a ha h' => hdl (h' ▸ ha)
    have hnm : ∀ a ∈ moms, a ≠ dim := fun a ha h' => hdm (h' ▸ ha)
    have q := hd d
    have q1 := hne d
    have q2 := hnm d
    rw [a2, b2]
    cases keepdims <;> cases axesToEnd <;>
      simp only [dimsReduced, List.mem_append, List.mem_filter, decide_eq_true_eq, q] <;> tauto
  refine ⟨r, R, a1, b1, hdims, fun d hd' => ?_, fun c => ?_⟩
  · rw [a3 d hd', b3 d ((hdims d).1 hd').1]
    split_ifs with hl
    · rfl
    · refine h.sizes v hvm d ?_
      have : ∀ e ∈ r.dims, e ∈ v.2.dims := by
        intro e he
        rw [a2] at he
        have p1 := gv.present e
        have p2 := gv.momPresent e
        revert he
        cases keepdims <;> cases axesToEnd <;>
          simp only [dimsReduced, List.mem_append, List.mem_filter, decide_eq_true_eq] <;> tauto
      exact this d hd'
  · rw [a4, b4]
    have e1 : recordsNamed core v.2 moms l c = recordsNamed core x moms l (Function.update c dim k) := by
      unfold recordsNamed
      rw [← allCoords_update (size := v.2.size) l hdl
        (fun d hd' => h.sizes v hvm d (gv.present d hd')) c, List.map_map]
      exact List.map_congr_left fun c' _ => C78_split_record core h hdm hv c'
    have e2 : moms.map (Function.update c dim k) = moms.map c :=
      List.map_congr_left fun d hd' => Function.update_of_ne (show d ≠ dim from fun h' => hdm (h' ▸ hd')) ..
    rw [e1, e2]

end records

/-! ### Cases -/

/-- Moments for two boxes `a`, `b` and two observations, the moment dimension in the middle: entry `100 box + 10 mom + obs`. -/
def boxes : DataArray String ℚ where
  dims := ["box", "mom", "obs"]
  data idx := 100 * idx.getD 0 0 + 10 * idx.getD 1 0 + idx.getD 2 0 + 1
  size d := if d = "mom" then 3 else 2

def boxesExtra : Extra String String := ⟨some "u", ["obs"], ["obs", "box"], fun d => if d = "box" then ["a", "b"] else ["0", "1"]⟩

theorem boxes_splittable : Splittable boxes boxesExtra "box" ["mom"] where
  distinct := by decide
  momDistinct := by decide
  momPresent := by decide
  present := by decide
  notMom := by decide
  labels := by decide
  different := by decide
  nonempty := by decide
  free := by decide
  along := by decide

/-- Names, dimensions, and the entries at observation 1 and moment 2, box 1 if there is a dimension for it. -/
def seen (r : Py (List (String × DataArray String ℚ))) : Py (List (String × List String × ℚ)) :=
  r.map fun ds => ds.map fun v => (v.1, v.2.dims, entry v.2 fun d => if d = "mom" then 2 else 1)

example := C78_split boxes_splittable
example := C78_there_and_back boxes_splittable

/-- Two variables, moments last. -/
example : seen (toDatasetX ["mom"] boxes boxesExtra (some "box") none)
    = .ok [("a", ["obs", "mom"], 22), ("b", ["obs", "mom"], 122)] := by decide +kernel

/-- One variable (**C78_whole**); the coordinates decide the order of the other dimensions. -/
example : seen (toDatasetX ["mom"] boxes boxesExtra none none) = .ok [("u", ["obs", "box", "mom"], 122)] := by
  decide +kernel

/-- The moment dimension is refused (**C78_moment_refused**), and so is a name that is no dimension. -/
example : seen (toDatasetX ["mom"] boxes { boxesExtra with labels := fun _ => ["p", "q", "r"] } (some "mom") none)
    = .error .valueError := by decide +kernel

example : seen (toDatasetX ["mom"] boxes boxesExtra (some "time") none) = .error .typeError := by decide +kernel

/-- There and back: dimensions in another order, the same numbers. -/
example : ((toDatasetX ["mom"] boxes boxesExtra (some "box") none).bind fun ds =>
      (toDataArrayX ["mom"] ds "box").map fun r =>
        (r.2, r.1.dims, entry r.1 fun d => if d = "mom" then 2 else 1))
    = .ok (["a", "b"], ["box", "obs", "mom"], 122) := by decide +kernel

/-- A variable without moments beside one with moments: the number `7` stands for weight, average and variance
(**C78_no_moments**). -/
example : ((toDataArrayX ["mom"] [("a", boxes.place "box" 0), ("n", (⟨⟨["obs"], fun _ => 7⟩, fun _ => 2⟩ : DataArray String ℚ))]
      "variable").map fun r => (r.2, r.1.dims, (List.range 3).map fun m =>
        entry r.1 fun d => if d = "mom" then m else 1))
    = .ok (["a", "n"], ["variable", "obs", "mom"], [7, 7, 7]) := by decide +kernel

/-- Reducing over the observations, **C78_reduce**. -/
example : ∃ ds, toDatasetX ["mom"] boxes boxesExtra (some "box") none = .ok ds ∧ ∀ v, ds[1]? = some v →
    ∃ r R, reduceX Nd.core1 (kernel1 2) v.2 ["mom"] none (some (some ["obs"])) false false = .ok r ∧
      reduceX Nd.core1 (kernel1 2) boxes ["mom"] none (some (some ["obs"])) false false = .ok R ∧
      ∀ c, entry r c = entry R (Function.update c "box" 1) := by
  obtain ⟨ds, e1, h⟩ := C78_split boxes_splittable
  refine ⟨ds, e1, fun v hv => ?_⟩
  obtain ⟨r, R, h1, h2, -, -, h5⟩ := C78_reduce Nd.core1_ok (kernel1 2) h (l := ["obs"])
    ⟨by decide, by decide, by decide, by decide, by decide, by decide, by decide, by decide⟩ rfl (by decide) (by decide)
    hv false false
  exact ⟨r, R, h1, h2, h5⟩

end Cmomy
