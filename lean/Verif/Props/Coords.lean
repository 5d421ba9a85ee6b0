import Verif.Lemmas.Coords
import Verif.Props.LabelledCollect
import Verif.Props.Dataset

/-!
# Which labels the results carry
-/

set_option linter.unusedSectionVars false

namespace Cmomy

open Spec Axes Labelled
open Nd (core1 core2 core1_ok core2_ok family1 family2)

section

variable {δ : Type} [DecidableEq δ] {K V M γ : Type} [Field K] [DecidableEq K] [Inhabited γ]

theorem freeName_dims {x : Coorded δ γ K} {d : δ} {group : Option δ} (h : FreeName x d group) :
    ∀ n, group = some n → n = d ∨ n ∉ x.arr.dims :=
  fun n hn => (h n hn).imp_right And.left

theorem freeName_coords {x : Coorded δ γ K} (hx : GoodCoords x) {d : δ} {group : Option δ}
    (h : FreeName x d group) :
    ∀ n, group = some n → n = d ∨ ∀ c ∈ x.coords, c.1 ≠ n ∧ n ∉ c.2.dims :=
  fun n hn => (h n hn).imp_right fun h c hc => ⟨h.2 c hc, fun hd => h.1 (hx.within c hc n hd).1⟩

theorem own_along {x : Coorded δ γ K} (hx : GoodCoords x) {d : δ} (hd : d ∈ x.arr.dims) :
    ∀ c ∈ x.coords, c.1 = d → d ∈ c.2.dims := by
  rintro c hc rfl
  rw [hx.own c hc hd]
  exact List.mem_singleton_self _

/-- The coordinates which an operation along `d` keeps, for which `d` is excluded. -/
theorem exclude_without {x : Coorded δ γ K} (hx : GoodCoords x) (d : δ) (core : List δ) :
    CoordsWithout x.coords (ufuncCoords x.coords core core [d]) [d] :=
  ufunc_without hx.names fun c _ e _ => by simp

/-- **C74** `reduce_data` drops the coordinates along the reduced dimensions, even with `keepdims`, and
keeps all others. -/
theorem C74_reduce_data {core : Nd.Core K M} (hc : core.Ok) (k : Kernel K V M) {x : Coorded δ γ K}
    (hx : GoodCoords x) {moms ds : List δ} (g : GoodReduce x.arr moms ds) (hm : moms.length = core.nd)
    {axis : Option AxesArg} {dim : Option (Option (List δ))}
    (hsel : ChosenMany x.arr.dims moms axis dim ds) (keepdims axesToEnd : Bool) :
    ∃ out, reduceC core k x moms axis dim keepdims axesToEnd = .ok out ∧
      reduceX core k x.arr moms axis dim keepdims axesToEnd = .ok out.arr ∧
      CoordsWithout x.coords out.coords ds := by
  obtain ⟨y, e, -⟩ := C57_reduce_data hc k g hm hsel keepdims axesToEnd
  unfold reduceC
  rw [(C57_select_many g.distinct).1 axis dim ds g.dsDistinct g.present g.notMom hsel, e]
  refine ⟨_, rfl, rfl, ufunc_without hx.names fun c _ e _ => ?_⟩
  constructor
  · exact fun h => h.1
  · intro h
    refine ⟨h, fun h' => ?_⟩
    have : e ∈ moms := (List.mem_append.1 h').resolve_left h
    cases keepdims
    · exact this
    · exact List.mem_append_right _ this

/-- **C74** `cumulative` keeps all coordinates. -/
theorem C74_cumulative {core : Nd.Core K M} (hc : core.Ok) (k : Kernel K V M) (inverse : Bool)
    {x : Coorded δ γ K} {moms : List δ} {d : δ} (g : GoodNamed x.arr moms d)
    (hm : moms.length = core.nd) {axis : Option (Option AxisArg)} {dim : Option (Option δ)}
    (hsel : Chosen x.arr.dims moms axis dim d) (axesToEnd : Bool) :
    ∃ y, cumulativeX core k inverse x.arr moms axis dim axesToEnd = .ok y ∧
      cumulativeC core k inverse x moms axis dim axesToEnd = .ok ⟨y, x.coords⟩ := by
  obtain ⟨y, e, -⟩ := C57_cumulative hc k inverse g hm hsel axesToEnd
  refine ⟨y, e, ?_⟩
  unfold cumulativeC
  rw [selectAxisDim_ok g.distinct g.present g.notMom hsel, e]
  show Except.ok (Coorded.mk y _) = _
  rw [ufunc_all]

/-- **C74** `moments_type` keeps all coordinates. -/
theorem C74_moments_type {core : Nd.Core K M} (hc : core.Ok) (conv : M → M) (orderCF : Bool)
    {x : Coorded δ γ K} {moms : List δ} (hx : x.arr.dims.Nodup) (hmn : moms.Nodup)
    (hmp : ∀ d ∈ moms, d ∈ x.arr.dims) (hm : moms.length = core.nd) (axesToEnd : Bool) :
    ∃ y, momentsTypeX core conv orderCF x.arr moms axesToEnd = .ok y ∧
      momentsTypeC core conv orderCF x moms axesToEnd = .ok ⟨y, x.coords⟩ := by
  obtain ⟨y, e, -⟩ := C57_moments_type hc conv orderCF hx hmn hmp hm axesToEnd
  refine ⟨y, e, ?_⟩
  unfold momentsTypeC
  rw [e]
  show Except.ok (Coorded.mk y _) = _
  rw [ufunc_all]

/-- **C74** `resample_data` drops the coordinates along the sampled dimension and keeps all others. -/
theorem C74_resample_data {core : Nd.Core K M} (hc : core.Ok) (k : Kernel K V M)
    (freq : List (List K)) {nsamp : ℕ} {x : Coorded δ γ K} (hx : GoodCoords x) {moms : List δ} {d rep : δ}
    (g : GoodNamed x.arr moms d) (hrep : rep ∉ x.arr.dims) (hm : moms.length = core.nd)
    {axis : Option (Option AxisArg)} {dim : Option (Option δ)}
    (hsel : Chosen x.arr.dims moms axis dim d) (hn : nsamp = x.arr.size d) (axesToEnd : Bool) :
    ∃ out, resampleC core k freq nsamp x moms axis dim rep axesToEnd = .ok out ∧
      resampleX core k freq nsamp x.arr moms axis dim rep axesToEnd = .ok out.arr ∧
      CoordsWithout x.coords out.coords [d] := by
  obtain ⟨y, e, -⟩ := (C57_resample_data hc k freq nsamp g hrep hm hsel axesToEnd).2 hn
  unfold resampleC
  rw [selectAxisDim_ok g.distinct g.present g.notMom hsel, e]
  refine ⟨_, rfl, rfl, ufunc_without hx.names fun c hc' e he => ?_⟩
  have hne : d ≠ rep := fun h => hrep (h ▸ g.present)
  simp only [List.not_mem_nil, not_false_eq_true, true_and, List.mem_cons, List.mem_append,
    List.not_mem_nil, or_false]
  constructor
  · rintro h rfl
    rcases h (.inl (.inl rfl)) with h | h
    · exact hne h
    · exact g.notMom h
  · intro h h'
    rcases h' with (h' | h') | h' | h'
    · exact absurd h' h
    · exact .inr h'
    · exact .inl h'
    · exact absurd h' h

/-- **C74** `jackknife_data` keeps all coordinates, also those along the sampled dimension, under its new name: the
result without sample `j` carries the labels of sample `j`. -/
theorem C74_jackknife_data {core : Nd.Core K M} (hc : core.Ok) (k : Kernel K V M)
    {x : Coorded δ γ K} (hx : GoodCoords x) {moms : List δ} {d : δ} (g : GoodNamed x.arr moms d)
    (hne : ∀ e ∈ x.arr.dims, e ≠ d → x.arr.size e ≠ 0)
    (hm : moms.length = core.nd) {axis : Option (Option AxisArg)} {dim : Option (Option δ)}
    (hsel : Chosen x.arr.dims moms axis dim d) {rep : Option δ} (hrep : FreeName x d rep)
    (axesToEnd : Bool) :
    ∃ out, jackknifeC core k x moms axis dim rep axesToEnd = .ok out ∧
      jackknifeX core k x.arr moms axis dim rep axesToEnd = .ok out.arr ∧
      CoordsPicked x.coords out.coords d (rep.getD d) (x.arr.size d) id := by
  obtain ⟨y, e, -⟩ := C57_jackknife_data hc k g hne hm hsel rep (freeName_dims hrep) axesToEnd
  have hp : CoordsPicked x.coords x.coords d d (x.arr.size d) id :=
    keep_picked fun c hc hd => (hx.within c hc d hd).2
  obtain ⟨cs, e2, h2⟩ := rename_picked hp (freeName_coords hx hrep)
  unfold jackknifeC
  rw [e, selectAxisDim_ok g.distinct g.present g.notMom hsel]
  refine ⟨⟨y, cs⟩, ?_, rfl, h2⟩
  show (renameCoords (ufuncCoords x.coords (d :: moms) (d :: moms) []) d rep).map _ = _
  rw [ufunc_all, e2]
  rfl

/-- **C74** `reduce_data_grouped`: the coordinates along the grouped dimension are dropped. If `groups` is given, it must
have as many labels as there are groups, and these label the groups; if not, the groups have no labels. -/
theorem C74_grouped {core : Nd.Core K M} (hc : core.Ok) (k : Kernel K V M) {by_ : List ℤ}
    {x : Coorded δ γ K} (hx : GoodCoords x) {moms : List δ} {d : δ} (g : GoodNamed x.arr moms d)
    (hm : moms.length = core.nd) {axis : Option (Option AxisArg)} {dim : Option (Option δ)}
    (hsel : Chosen x.arr.dims moms axis dim d) {group : Option δ} (hgr : FreeName x d group)
    (axesToEnd : Bool) {m : ℤ} (hl : by_.length = x.arr.size d) (hmax : by_.max? = some m) (h1 : -1 ≤ m) :
    (∀ labels : List γ, labels.length ≠ (m + 1).toNat →
      groupedC core k by_ x moms axis dim (some labels) group axesToEnd = .error .valueError) ∧
    (∀ labels : List γ, labels.length = (m + 1).toNat →
      ∃ out, groupedC core k by_ x moms axis dim (some labels) group axesToEnd = .ok out ∧
        groupedX core k by_ x.arr moms axis dim group axesToEnd = .ok out.arr ∧
        CoordsLabelled x.coords out.coords d (group.getD d) labels) ∧
    ∃ out, groupedC core k by_ x moms axis dim none group axesToEnd = .ok out ∧
      groupedX core k by_ x.arr moms axis dim group axesToEnd = .ok out.arr ∧
      CoordsWithout x.coords out.coords [d] := by
  obtain ⟨y, e, hs⟩ := (C57_grouped hc k by_ g hm hsel group (freeName_dims hgr) axesToEnd).2 m hl hmax h1
  have hsz : y.size (group.getD d) = (m + 1).toNat := by
    rw [hs.size_eq _ (new_mem_renamed ((mem_dimsAfter g.present g.momPresent axesToEnd).2 g.present))]
    unfold sizesWith
    rw [if_pos rfl]
  have hw := exclude_without hx d (d :: moms)
  have ho := own_along hx g.present
  have hn := freeName_coords hx hgr
  have key : ∀ groups, groupedC core k by_ x moms axis dim groups group axesToEnd =
      ((match groups with
        | none => .ok (ufuncCoords x.coords (d :: moms) (d :: moms) [d])
        | some l => assignCoord (ufuncCoords x.coords (d :: moms) (d :: moms) [d]) d
            (y.size (group.getD d)) l :
          Py (CoordList δ γ)).bind fun cs => renameCoords cs d group).map fun cs => ⟨y, cs⟩ := by
    intro groups
    unfold groupedC
    rw [selectAxisDim_ok g.distinct g.present g.notMom hsel, e]
    exact bind_map _ _ _
  rw [hsz] at key
  refine ⟨fun labels hne => ?_, fun labels he => ?_, ?_⟩
  · rw [key]
    simp only [(assign_labelled hw ho hn (m + 1).toNat labels).1 hne]
    rfl
  · obtain ⟨cs, e2, h2⟩ := (assign_labelled hw ho hn (m + 1).toNat labels).2 he
    rw [key]
    simp only [e2]
    exact ⟨⟨y, cs⟩, rfl, e, h2⟩
  · obtain ⟨cs, e2, h2⟩ := rename_without hw ho hn
    rw [key]
    simp only [Except.bind, e2]
    exact ⟨⟨y, cs⟩, rfl, e, h2⟩

/-- The array, and the coordinates apart. -/
theorem indexedC_eq {core : Nd.Core K M} (k : Kernel K V M) {index start stop : List ℤ}
    {scale : Option (List K)} {x : Coorded δ γ K} {moms : List δ} {d : δ} (g : GoodNamed x.arr moms d)
    {axis : Option (Option AxisArg)} {dim : Option (Option δ)} (hsel : Chosen x.arr.dims moms axis dim d)
    {group : Option δ} {axesToEnd : Bool} {y : DataArray δ (Option K)}
    (e : indexedX core k index start stop scale x.arr moms axis dim group axesToEnd = .ok y)
    (policy : CoordsPolicy) (groups : Option (List γ)) :
    indexedC core k index start stop scale x moms axis dim policy groups group axesToEnd =
      ((match policy, groups with
        | .first, _ => (dimSelect false index start stop).map (replaceCoords x.coords d)
        | .last, _ => (dimSelect true index start stop).map (replaceCoords x.coords d)
        | .group, some l => assignCoord (ufuncCoords x.coords (d :: moms) (d :: moms) [d]) d
            (y.size (group.getD d)) l
        | _, _ => .ok (ufuncCoords x.coords (d :: moms) (d :: moms) [d]) :
          Py (CoordList δ γ)).bind fun cs => renameCoords cs d group).map fun cs => ⟨y, cs⟩ := by
  unfold indexedC
  rw [selectAxisDim_ok g.distinct g.present g.notMom hsel, e]
  exact bind_map _ _ _

/-- **C74** `reduce_data_indexed` with `coords_policy="first"` or `"last"`: every coordinate is kept; group `j` carries the
labels of the sample at its place in `index`: where the group begins, or one before the place where it ends.
With a group that ends at place `0`, which has no samples, `"last"` takes the last entry of `index`. If
`index` is empty and there are groups, the call fails, though the moments are fine. -/
theorem C74_indexed {core : Nd.Core K M} (hc : core.Ok) (k : Kernel K V M)
    {index start stop : List ℤ} {scale : Option (List K)}
    {x : Coorded δ γ K} (hx : GoodCoords x) {moms : List δ} {d : δ} (g : GoodNamed x.arr moms d)
    (hm : moms.length = core.nd) {axis : Option (Option AxisArg)} {dim : Option (Option δ)}
    (hsel : Chosen x.arr.dims moms axis dim d) {group : Option δ} (hgr : FreeName x d group)
    (hv : Indexed.validateIndex (x.arr.size d) index start stop = .ok ())
    (hsc : ∀ sc, scale = some sc → sc.length = index.length) (last : Bool) (groups : Option (List γ))
    (axesToEnd : Bool) :
    ∃ y, indexedX core k index start stop scale x.arr moms axis dim group axesToEnd = .ok y ∧
      (index = [] → start ≠ [] →
        indexedC core k index start stop scale x moms axis dim (if last then .last else .first) groups
          group axesToEnd = .error .indexError) ∧
      ((index = [] → start = []) →
        ∃ cs, indexedC core k index start stop scale x moms axis dim (if last then .last else .first)
          groups group axesToEnd = .ok ⟨y, cs⟩ ∧
        CoordsPicked x.coords cs d (group.getD d) start.length
          (fun j => (index.getD (pickPlace last index start stop j) 0).toNat)) := by
  obtain ⟨y, e, -⟩ := (C57_indexed hc k index start stop scale g hm hsel group (freeName_dims hgr)
    axesToEnd).2 hv hsc
  have hlen := ((C35_acceptance _ _ _ _).1 hv).1
  have key : indexedC core k index start stop scale x moms axis dim (if last then .last else .first)
      groups group axesToEnd = (((dimSelect last index start stop).map (replaceCoords x.coords d)).bind
        fun cs => renameCoords cs d group).map fun cs => ⟨y, cs⟩ := by
    rw [indexedC_eq k g hsel e]
    cases last <;> rfl
  refine ⟨y, e, fun hi hs => ?_, fun h => ?_⟩
  · subst hi
    rw [key, dimSelect_empty last hs hlen]
    rfl
  · have hd : dimSelect last index start stop = .ok ((List.range start.length).map
        (fun j => (index.getD (pickPlace last index start stop j) 0).toNat)) := by
      by_cases hi : index = []
      · have hs := h hi
        subst hs
        have ht : stop = [] := List.length_eq_zero_iff.1 hlen.symm
        subst ht
        cases last <;> rfl
      · exact dimSelect_ok last hv hi
    have hp := replace_picked hx.distinct d ((List.range start.length).map
      (fun j => (index.getD (pickPlace last index start stop j) 0).toNat))
    obtain ⟨cs, e2, h2⟩ := rename_picked hp (freeName_coords hx hgr)
    refine ⟨cs, ?_, ?_⟩
    · rw [key, hd]
      show (renameCoords _ d group).map _ = _
      rw [e2]
      rfl
    · rw [List.length_map, List.length_range] at h2
      refine picked_congr h2 fun j hj => ?_
      rw [List.getD_eq_getElem _ _ (by simpa using hj), List.getElem_map, List.getElem_range]

/-- **C74** `reduce_data_indexed` with `coords_policy="group"`: as `reduce_data_grouped`. With `None`, or without
`groups`, the coordinates along the dimension are dropped. -/
theorem C74_indexed_group {core : Nd.Core K M} (hc : core.Ok) (k : Kernel K V M)
    {index start stop : List ℤ} {scale : Option (List K)}
    {x : Coorded δ γ K} (hx : GoodCoords x) {moms : List δ} {d : δ} (g : GoodNamed x.arr moms d)
    (hm : moms.length = core.nd) {axis : Option (Option AxisArg)} {dim : Option (Option δ)}
    (hsel : Chosen x.arr.dims moms axis dim d) {group : Option δ} (hgr : FreeName x d group)
    (hv : Indexed.validateIndex (x.arr.size d) index start stop = .ok ())
    (hsc : ∀ sc, scale = some sc → sc.length = index.length) (axesToEnd : Bool) :
    ∃ y, indexedX core k index start stop scale x.arr moms axis dim group axesToEnd = .ok y ∧
      (∀ labels : List γ, labels.length ≠ start.length →
        indexedC core k index start stop scale x moms axis dim .group (some labels) group axesToEnd
          = .error .valueError) ∧
      (∀ labels : List γ, labels.length = start.length →
        ∃ cs, indexedC core k index start stop scale x moms axis dim .group (some labels) group axesToEnd
          = .ok ⟨y, cs⟩ ∧ CoordsLabelled x.coords cs d (group.getD d) labels) ∧
      ∀ policy groups, policy = .drop ∨ (policy = .group ∧ groups = none) →
        ∃ cs, indexedC core k index start stop scale x moms axis dim policy groups group axesToEnd
          = .ok ⟨y, cs⟩ ∧ CoordsWithout x.coords cs [d] := by
  obtain ⟨y, e, hs⟩ := (C57_indexed hc k index start stop scale g hm hsel group (freeName_dims hgr)
    axesToEnd).2 hv hsc
  have hsz : y.size (group.getD d) = start.length := by
    rw [hs.size_eq _ (new_mem_renamed ((mem_dimsAfter g.present g.momPresent axesToEnd).2 g.present))]
    unfold sizesWith
    rw [if_pos rfl]
  have hw := exclude_without hx d (d :: moms)
  have ho := own_along hx g.present
  have hn := freeName_coords hx hgr
  refine ⟨y, e, fun labels hne => ?_, fun labels he => ?_, fun policy groups hp => ?_⟩
  · rw [indexedC_eq k g hsel e]
    simp only [hsz, (assign_labelled hw ho hn start.length labels).1 hne]
    rfl
  · obtain ⟨cs, e2, h2⟩ := (assign_labelled hw ho hn start.length labels).2 he
    rw [indexedC_eq k g hsel e]
    simp only [hsz, e2]
    exact ⟨cs, rfl, h2⟩
  · obtain ⟨cs, e2, h2⟩ := rename_without hw ho hn
    rw [indexedC_eq k g hsel e]
    rcases hp with rfl | ⟨rfl, rfl⟩
    · simp only [Except.bind, e2]
      exact ⟨cs, rfl, h2⟩
    · simp only [Except.bind, e2]
      exact ⟨cs, rfl, h2⟩

end

section Objects

variable {δ : Type} [DecidableEq δ] {K V M : Type} [Field K] [LinearOrder K] [IsStrictOrderedRing K]

/-- **C74** `rolling_data` keeps all coordinates: a window carries the labels of the sample it is written to. -/
theorem C74_rolling_data {γ : Type} {core : Nd.Core K M} (hc : core.Ok) (k : Kernel K V M)
    (hz : core.recd (fun _ => 0) = k.zero) (window : ℕ) (minPeriods : Option ℤ)
    (center zeroMissing : Bool) {x : Coorded δ γ K} {moms : List δ} {d : δ}
    (g : GoodNamed x.arr moms d) (hm : moms.length = core.nd) {axis : Option (Option AxisArg)}
    {dim : Option (Option δ)} (hsel : Chosen x.arr.dims moms axis dim d) (axesToEnd : Bool) :
    ∃ y, rollingX core k window minPeriods center zeroMissing x.arr moms axis dim axesToEnd = .ok y ∧
      rollingC core k window minPeriods center zeroMissing x moms axis dim axesToEnd
        = .ok ⟨y, x.coords⟩ := by
  obtain ⟨y, e, -⟩ := C57_rolling_data hc k hz window minPeriods center zeroMissing g hm hsel axesToEnd
  refine ⟨y, e, ?_⟩
  unfold rollingC
  rw [selectAxisDim_ok g.distinct g.present g.notMom hsel, e]
  show Except.ok (Coorded.mk y _) = _
  rw [ufunc_all]

/-- **C74** `rolling_exp_data` keeps all coordinates. -/
theorem C74_rolling_exp_data {γ : Type} {core : Nd.Core K M} (hc : core.Ok) (k : Kernel K V M)
    {alpha : K ⊕ List K} (adjust : Bool) (minPeriods : Option ℤ) (zeroMissing : Bool)
    {x : Coorded δ γ K} {moms : List δ} {d : δ} (g : GoodNamed x.arr moms d)
    (ha : ∀ l, alpha = .inr l → l.length = x.arr.size d)
    (hm : moms.length = core.nd) {axis : Option (Option AxisArg)}
    {dim : Option (Option δ)} (hsel : Chosen x.arr.dims moms axis dim d) (axesToEnd : Bool) :
    ∃ y, rollingExpPlainX core k alpha adjust minPeriods zeroMissing x.arr moms axis dim axesToEnd
        = .ok y ∧
      rollingExpC core k alpha adjust minPeriods zeroMissing x moms axis dim axesToEnd
        = .ok ⟨y, x.coords⟩ := by
  obtain ⟨y, e, -⟩ := (C57_rolling_exp_plain hc k alpha adjust minPeriods zeroMissing g hm hsel axesToEnd).2 ha
  refine ⟨y, e, ?_⟩
  unfold rollingExpC
  rw [selectAxisDim_ok g.distinct g.present g.notMom hsel, e]
  show Except.ok (Coorded.mk y _) = _
  rw [ufunc_all]

variable {core : Nd.Core K M} {x : Coorded δ ℤ K} {moms : List δ}

/-- With labels, or the name of a coordinate, the call goes on with these labels. -/
theorem reduceObjC_labels (k : Kernel K V M) (argsort : List ℤ → List ℕ)
    (axis : Option (Option AxisArg)) (dim : Option (Option δ)) (l : List (Option ℤ)) (block : Option ℤ)
    (policy : CoordsPolicy) (groups : Option (List ℤ)) (groupDim : Option δ) (keepdims axesToEnd : Bool) :
    reduceObjC core k argsort x moms (oneAxis axis) (oneDim dim) (some (.labels l)) block policy groups
      groupDim keepdims axesToEnd =
    reduceByC core k argsort x moms axis dim l false policy groups groupDim axesToEnd := by
  unfold reduceObjC
  simp only [single_axis, single_dim, Except.bind]

theorem reduceObjC_coord (k : Kernel K V M) (argsort : List ℤ → List ℕ)
    (axis : Option (Option AxisArg)) (dim : Option (Option δ)) (name : δ) (block : Option ℤ)
    (policy : CoordsPolicy) (groups : Option (List ℤ)) (groupDim : Option δ) (keepdims axesToEnd : Bool) :
    reduceObjC core k argsort x moms (oneAxis axis) (oneDim dim) (some (.coord name)) block policy groups
      groupDim keepdims axesToEnd = (coordLabels x name).bind fun l =>
    reduceByC core k argsort x moms axis dim l true policy groups groupDim axesToEnd := by
  unfold reduceObjC
  simp only [single_axis, single_dim, Except.bind]

theorem reduceObjC_block (k : Kernel K V M) (argsort : List ℤ → List ℕ)
    (axis : Option (Option AxisArg)) (dim : Option (Option δ)) (b : ℤ)
    (policy : CoordsPolicy) (groups : Option (List ℤ)) (groupDim : Option δ) (keepdims axesToEnd : Bool) :
    reduceObjC core k argsort x moms (oneAxis axis) (oneDim dim) none (some b) policy groups
      groupDim keepdims axesToEnd = (blockLabels x.arr moms axis dim b).bind fun l =>
    reduceByC core k argsort x moms axis dim l false policy (blockGroups groups l) groupDim axesToEnd := by
  unfold reduceObjC
  simp only [single_axis, single_dim, Except.bind]

/-- Labels with the policies `"first"` and `"last"`. -/
theorem reduceByC_ends (hc : core.Ok) (k : Kernel K V M) (hx : GoodCoords x) {d : δ}
    (g : GoodNamed x.arr moms d) (hm : moms.length = core.nd)
    {argsort : List ℤ → List ℕ} (ha : IsArgsort argsort) {axis : Option (Option AxisArg)}
    {dim : Option (Option δ)} (hsel : Chosen x.arr.dims moms axis dim d) {labels : List (Option ℤ)}
    {gs : List ℤ} (hg : GroupsOf labels gs) (hl : LabelsWithin labels (x.arr.size d)) (block : Option ℤ)
    {groupDim : Option δ} (hgr : FreeName x d groupDim) (last named : Bool) (groups : Option (List ℤ))
    (keepdims axesToEnd : Bool) :
    ∃ out pick, reduceByC core k argsort x moms axis dim labels named
        (if last then .last else .first) groups groupDim axesToEnd = .ok out ∧
      reduceObjX core k argsort x.arr moms (oneAxis axis) (oneDim dim) (some labels) block true groupDim
        keepdims axesToEnd = .ok out.arr ∧
      CoordsPicked x.coords out.coords d (groupDim.getD d) gs.length pick ∧
      ∀ j (hj : j < gs.length), labels[pick j]? = some (some gs[j]) ∧
        (IsStableArgsort argsort → EndWith last labels gs[j] (pick j)) := by
  obtain ⟨index, start, stop, e, l1, l2, hrow, hval⟩ := index_table (α := ℕ) ha hg
  obtain ⟨y, e1, -, h2⟩ := C74_indexed hc k (index := index.map (fun i : ℕ => (i : ℤ)))
    (start := start.map (fun i : ℕ => (i : ℤ))) (stop := stop.map (fun i : ℕ => (i : ℤ))) (scale := none)
    hx g hm hsel hgr ((hval _).1 hl) (by simp) last (some (groups.getD gs)) axesToEnd
  obtain ⟨cs, e2, h3⟩ := h2 (fun hi => by
    have hi : index = [] := by simpa using hi
    rcases Nat.eq_zero_or_pos start.length with h | h
    · rw [List.length_eq_zero_iff.1 h]; rfl
    · exfalso
      have hj : 0 < gs.length := by omega
      have h1 := (index_ends ha hg e false hj).1
      obtain ⟨q, hq⟩ : ∃ q, q ∈ labels := ⟨_, List.mem_of_getElem? h1⟩
      obtain ⟨a, b, ea, eb, hp⟩ := hrow 0 hj
      have hp := hp (List.range labels.length)
      rw [hi] at hp
      have hm : ((List.range labels.length)[_]?) = some _ := List.getElem?_range (by
        exact (List.getElem?_eq_some_iff.1 h1).1)
      have hn : withLabel gs[0] labels (List.range labels.length) = [] := by
        have : slice ([] : List ℕ) a b = [] := by simp [slice]
        rw [this] at hp
        exact List.nil_perm.1 hp
      rw [← positions_withLabel] at hn
      have hmem := List.filterMap_eq_nil_iff.1 hn
      have := hmem _ (List.mem_filter.2 ⟨List.mem_range.2 (List.getElem?_eq_some_iff.1 h1).1, by
        rw [h1]; simp⟩)
      rw [hm] at this
      cases this)
  refine ⟨⟨y, cs⟩, _, ?_, ?_, by rwa [List.length_map, l1] at h3, fun j hj => index_ends ha hg e last hj⟩
  · unfold reduceByC
    have hp : (if last then CoordsPolicy.last else .first) = .first ∨
        (if last then CoordsPolicy.last else .first) = .last := by cases last <;> simp
    rw [if_pos hp, e]
    exact e2
  · rw [reduce_by_eq, if_pos rfl]
    unfold reduceByIndex
    rw [e]
    exact e1

/-- **C74** `obj.reduce(dim, by=labels, coords_policy="first")`, or `"last"`: every coordinate is kept, and group `j`
carries the labels of one of its own samples; if the sort behind `np.argsort` is stable, of the first, or the last,
of them. `groups` has no effect. -/
theorem C74_reduce_by (hc : core.Ok) (k : Kernel K V M) (hx : GoodCoords x) {d : δ}
    (g : GoodNamed x.arr moms d) (hm : moms.length = core.nd)
    {argsort : List ℤ → List ℕ} (ha : IsArgsort argsort) {axis : Option (Option AxisArg)}
    {dim : Option (Option δ)} (hsel : Chosen x.arr.dims moms axis dim d) {labels : List (Option ℤ)}
    {gs : List ℤ} (hg : GroupsOf labels gs) (hl : LabelsWithin labels (x.arr.size d)) (block : Option ℤ)
    {groupDim : Option δ} (hgr : FreeName x d groupDim) (last : Bool) (groups : Option (List ℤ))
    (keepdims axesToEnd : Bool) :
    ∃ out pick, reduceObjC core k argsort x moms (oneAxis axis) (oneDim dim) (some (.labels labels)) block
        (if last then .last else .first) groups groupDim keepdims axesToEnd = .ok out ∧
      reduceObjX core k argsort x.arr moms (oneAxis axis) (oneDim dim) (some labels) block true groupDim
        keepdims axesToEnd = .ok out.arr ∧
      CoordsPicked x.coords out.coords d (groupDim.getD d) gs.length pick ∧
      ∀ j (hj : j < gs.length), labels[pick j]? = some (some gs[j]) ∧
        (IsStableArgsort argsort → EndWith last labels gs[j] (pick j)) := by
  simp only [reduceObjC_labels]
  exact reduceByC_ends hc k hx g hm ha hsel hg hl block hgr last false groups keepdims axesToEnd

theorem coordLabels_eq (hx : GoodCoords x) {name d : δ} {c : DataArray δ ℤ}
    (hname : x.coords.lookup name = some c) (hdim : c.dims = [d]) :
    coordLabels x name = .ok (labelsOf x c d) ∧ (name, c) ∈ x.coords := by
  have hmem : (name, c) ∈ x.coords := mem_of_lookup hname
  refine ⟨?_, hmem⟩
  unfold coordLabels labelsOf
  have hs := (hx.within _ hmem d (by rw [hdim]; exact List.mem_singleton_self _)).2
  have hs : c.size d = x.arr.size d := hs
  simp only [hname, hdim, hs]
  congr 1
  refine List.map_congr_left fun i _ => ?_
  unfold entry
  rw [hdim]
  rfl

/-- **C74** `obj.reduce(dim, by=name)` with `name` a coordinate along `dim`, and the policies `"first"` or `"last"`:
the moments are those for the labels of that coordinate, and in the result the same coordinate has the label
of the group, whatever the sort. -/
theorem C74_by_coord (hc : core.Ok) (k : Kernel K V M) (hx : GoodCoords x) {d : δ}
    (g : GoodNamed x.arr moms d) (hm : moms.length = core.nd)
    {argsort : List ℤ → List ℕ} (ha : IsArgsort argsort) {axis : Option (Option AxisArg)}
    {dim : Option (Option δ)} (hsel : Chosen x.arr.dims moms axis dim d) {name : δ} {c : DataArray δ ℤ}
    (hname : x.coords.lookup name = some c) (hdim : c.dims = [d])
    {gs : List ℤ} (hg : GroupsOf (labelsOf x c d) gs) (block : Option ℤ)
    {groupDim : Option δ} (hgr : FreeName x d groupDim) (last : Bool) (groups : Option (List ℤ))
    (keepdims axesToEnd : Bool) :
    ∃ out pick, reduceObjC core k argsort x moms (oneAxis axis) (oneDim dim) (some (.coord name)) block
        (if last then .last else .first) groups groupDim keepdims axesToEnd = .ok out ∧
      reduceObjX core k argsort x.arr moms (oneAxis axis) (oneDim dim) (some (labelsOf x c d)) block true
        groupDim keepdims axesToEnd = .ok out.arr ∧
      CoordsPicked x.coords out.coords d (groupDim.getD d) gs.length pick ∧
      (∀ j (hj : j < gs.length), (labelsOf x c d)[pick j]? = some (some gs[j]) ∧
        (IsStableArgsort argsort → EndWith last (labelsOf x c d) gs[j] (pick j))) ∧
      ∃ c', (if name = d then groupDim.getD d else name, c') ∈ out.coords ∧
        c'.dims = [groupDim.getD d] ∧ c'.size (groupDim.getD d) = gs.length ∧
        ∀ j (hj : j < gs.length), entry c' (fun _ => j) = gs[j] := by
  obtain ⟨el, hmem⟩ := coordLabels_eq hx hname hdim
  have hl : LabelsWithin (labelsOf x c d) (x.arr.size d) := by
    intro i z h _
    obtain ⟨h1, -⟩ := List.getElem?_eq_some_iff.1 h
    simpa [labelsOf] using h1
  simp only [reduceObjC_coord, el, Except.bind]
  obtain ⟨out, pick, e1, e2, h3, h4⟩ := reduceByC_ends hc k hx g hm ha hsel hg hl block hgr last true groups
    keepdims axesToEnd
  refine ⟨out, pick, e1, e2, h3, h4, ?_⟩
  obtain ⟨w, hw, h5, h6⟩ : ∃ w ∈ out.coords, w.1 = (if name = d then groupDim.getD d else name) ∧
      CoordPicked c w.2 d (groupDim.getD d) gs.length pick := by
    clear e1 e2
    unfold CoordsPicked at h3
    obtain ⟨n, hn, e⟩ := List.getElem_of_mem hmem
    have hn' : n < out.coords.length := by rw [← h3.length_eq]; exact hn
    have := h3.get hn hn'
    simp only [List.get_eq_getElem, e] at this
    exact ⟨out.coords[n], List.getElem_mem _, this⟩
  have hdc : d ∈ c.dims := by rw [hdim]; exact List.mem_singleton_self _
  obtain ⟨s1, s2, s3⟩ := h6.2 hdc
  have hren : renamed c.dims d (groupDim.getD d) = [groupDim.getD d] := by
    rw [hdim]
    unfold renamed
    rw [List.map_singleton, if_pos rfl]
  rw [hren] at s1 s2 s3
  refine ⟨w.2, by rw [← h5]; exact hw, s1, ?_, fun j hj => ?_⟩
  · rw [s2 _ (List.mem_singleton_self _)]
    exact if_pos rfl
  · rw [s3 (fun _ => j) (fun e he => by
      rw [List.mem_singleton.1 he]
      show j < if groupDim.getD d = groupDim.getD d then _ else _
      rw [if_pos rfl]
      exact hj)]
    obtain ⟨h7, h8⟩ := List.getElem?_eq_some_iff.1 (h4 j hj).1
    have h9 : some (entry c (fun _ => pick j)) = some gs[j] := by
      rw [← h8]
      simp [labelsOf]
    rw [← Option.some.inj h9]
    unfold entry
    rw [hdim]
    simp

/-- The name of a coordinate, and another policy. -/
theorem coord_group_named {ι σ : Type*} {k : Kernel K V M} {law : Lawful k ι} {H : List σ → M → Prop}
    {wt : List σ → K} {scaled : K → σ → σ} (T : Meaning k law H wt scaled) (hc : core.Ok)
    {L : (δ → ℕ) → List σ} (hS : StandsNamed core H x.arr moms L)
    (hw : ∀ c, InLabelled x.arr moms c → 0 ≤ wt (L c)) (hx : GoodCoords x) {d : δ}
    (argsort : List ℤ → List ℕ) {axis : Option (Option AxisArg)}
    {dim : Option (Option δ)} (hsel : Chosen x.arr.dims moms axis dim d) (hd : d ∈ valDims x.arr moms)
    (hne : x.arr.size d ≠ 0) {name : δ} {c : DataArray δ ℤ}
    (hname : x.coords.lookup name = some c) (hdim : c.dims = [d])
    {gs : List ℤ} (hg : GroupsOf (labelsOf x c d) gs) (block : Option ℤ)
    {groupDim : Option δ} (hgr : FreeName x d groupDim) {policy : CoordsPolicy}
    (hp : policy = .group ∨ policy = .drop) (keepdims axesToEnd : Bool) :
    (∀ groups : Option (List ℤ), (groups.getD gs).length = gs.length →
      ∃ out, reduceObjC core k argsort x moms (oneAxis axis) (oneDim dim) (some (.coord name)) block
          policy groups groupDim keepdims axesToEnd = .ok out ∧
        CoordsLabelled x.coords out.coords d (groupDim.getD d) (groups.getD gs) ∧
        ResultNamed core H out.arr moms
          (renamed (dimsAfter x.arr.dims d moms axesToEnd) d (groupDim.getD d))
          (sizesWith x.arr (groupDim.getD d) gs.length)
          (fun p => (withLabel (gs.getD (p (groupDim.getD d)) 0) (labelsOf x c d)
            (samplesAlongName L d (x.arr.size d) p)).flatten)) ∧
    ∀ l : List ℤ, l.length ≠ gs.length →
      reduceObjC core k argsort x moms (oneAxis axis) (oneDim dim) (some (.coord name)) block
          policy (some l) groupDim keepdims axesToEnd = .error .valueError := by
  have g := goodNamed_of hS hd
  obtain ⟨el, hmem⟩ := coordLabels_eq hx hname hdim
  obtain ⟨codes, ef, hlen, hmax1, hmax2, hrows⟩ := codes_table (β := List σ) hg
  have hll : (labelsOf x c d).length = x.arr.size d := by simp [labelsOf]
  have hlc : codes.length = x.arr.size d := hlen.trans hll
  have hmx : (gs.length : ℤ) - 1 ∈ codes := hmax1 fun h => hne (by rw [← hll, h]; rfl)
  have hmq : codes.max? = some ((gs.length : ℤ) - 1) := List.max?_eq_some_iff.2 ⟨hmx, hmax2⟩
  have hto : ((gs.length : ℤ) - 1 + 1).toNat = gs.length := by omega
  have key : ∀ groups, reduceObjC core k argsort x moms (oneAxis axis) (oneDim dim) (some (.coord name))
      block policy groups groupDim keepdims axesToEnd
        = groupedC core k codes x moms axis dim (some (groups.getD gs)) groupDim axesToEnd := by
    intro groups
    rw [reduceObjC_coord, el]
    show reduceByC core k argsort x moms axis dim _ true policy groups groupDim axesToEnd = _
    unfold reduceByC
    rw [if_neg (by rcases hp with rfl | rfl <;> simp), if_pos rfl, ef]
  obtain ⟨hbad, hok, -⟩ := C74_grouped hc k (by_ := codes) hx g hS.object.momCount hsel hgr axesToEnd
    hlc hmq (by omega)
  rw [hto] at hbad hok
  refine ⟨fun groups hgl => ?_, fun l hl => ?_⟩
  · obtain ⟨out, e1, e2, h3⟩ := hok _ hgl
    refine ⟨out, (key groups).trans e1, h3, ?_⟩
    obtain ⟨y, e4, h5⟩ := T.code_named hc hS hw argsort hsel hd hlc hmx hmax2 (by omega) block
      (freeName_dims hgr) keepdims axesToEnd
    have hy : y = out.arr := by
      rw [reduce_by_eq, if_neg (by simp)] at e4
      unfold reduceByCode at e4
      rw [if_neg (by simp), List.filterMap_map] at e4
      have hid : codes.filterMap (id ∘ some) = codes := by
        rw [Function.id_comp]; exact List.filterMap_some
      rw [hid, e2] at e4
      exact (Except.ok.inj e4).symm
    rw [hy, hto] at h5
    refine resultNamed_congr h5 fun p hpb r hr => ?_
    have hj : p (groupDim.getD d) < gs.length := by
      have hh := hpb (groupDim.getD d) (new_mem_renamed
        ((mem_dimsAfter g.present g.momPresent axesToEnd).2 g.present)) ?_
      · unfold sizesWith at hh
        rwa [if_pos rfl] at hh
      · cases groupDim with
        | none => exact g.notMom
        | some n =>
          rcases hgr n rfl with h | h
          · rw [Option.getD_some, h]; exact g.notMom
          · exact fun hn => h.1 (g.momPresent _ hn)
    rw [List.getD_eq_getElem _ _ hj, ← hrows _ hj]
    exact hr
  · rw [key]
    exact hbad l hl

/-- **C74** `obj.reduce(dim, by=name)` with `name` a coordinate along `dim`, and the policy `"group"`, or none at all: the
coordinates along `dim` are replaced by one, called like the dimension, with the labels of the groups (or with
`groups`, which must be as many); the cell with label `l` stands for the samples whose cells had label `l`. -/
theorem C74_by_coord_group {order : ℕ} (ho : 1 ≤ order) {md : δ} (hm : x.arr.size md = order + 1)
    {L : (δ → ℕ) → List (Sample K)} (hS : StandsNamed core1 (Holds order) x.arr [md] L)
    (hw : ∀ c, InLabelled x.arr [md] c → 0 ≤ weight (L c)) (hx : GoodCoords x) {d : δ}
    (argsort : List ℤ → List ℕ) {axis : Option (Option AxisArg)}
    {dim : Option (Option δ)} (hsel : Chosen x.arr.dims [md] axis dim d) (hd : d ∈ valDims x.arr [md])
    (hne : x.arr.size d ≠ 0) {name : δ} {c : DataArray δ ℤ}
    (hname : x.coords.lookup name = some c) (hdim : c.dims = [d])
    {gs : List ℤ} (hg : GroupsOf (labelsOf x c d) gs) (block : Option ℤ)
    {groupDim : Option δ} (hgr : FreeName x d groupDim) {policy : CoordsPolicy}
    (hp : policy = .group ∨ policy = .drop) (keepdims axesToEnd : Bool) :
    (∀ groups : Option (List ℤ), (groups.getD gs).length = gs.length →
      ∃ out, reduceObjC core1 (family1 [x.arr.size md]) argsort x [md] (oneAxis axis) (oneDim dim)
          (some (.coord name)) block policy groups groupDim keepdims axesToEnd = .ok out ∧
        CoordsLabelled x.coords out.coords d (groupDim.getD d) (groups.getD gs) ∧
        ResultNamed core1 (Holds order) out.arr [md]
          (renamed (dimsAfter x.arr.dims d [md] axesToEnd) d (groupDim.getD d))
          (sizesWith x.arr (groupDim.getD d) gs.length)
          (fun p => (withLabel (gs.getD (p (groupDim.getD d)) 0) (labelsOf x c d)
            (samplesAlongName L d (x.arr.size d) p)).flatten)) ∧
    ∀ l : List ℤ, l.length ≠ gs.length →
      reduceObjC core1 (family1 [x.arr.size md]) argsort x [md] (oneAxis axis) (oneDim dim)
          (some (.coord name)) block policy (some l) groupDim keepdims axesToEnd = .error .valueError := by
  rw [family1_eq hm]
  exact coord_group_named (meaning1 (K := K) order ho) core1_ok hS hw hx argsort hsel hd hne hname hdim hg
    block hgr hp keepdims axesToEnd

/-- **C74**, comoments. -/
theorem C74_by_coord_group_cov {o0 o1 : ℕ} (h0 : 1 ≤ o0) (h1 : 1 ≤ o1) {m0 m1 : δ}
    (hm0 : x.arr.size m0 = o0 + 1) (hm1 : x.arr.size m1 = o1 + 1)
    {L : (δ → ℕ) → List (Sample2 K)} (hS : StandsNamed core2 (Holds2 o0 o1) x.arr [m0, m1] L)
    (hw : ∀ c, InLabelled x.arr [m0, m1] c → 0 ≤ weight2 (L c)) (hx : GoodCoords x) {d : δ}
    (argsort : List ℤ → List ℕ) {axis : Option (Option AxisArg)}
    {dim : Option (Option δ)} (hsel : Chosen x.arr.dims [m0, m1] axis dim d)
    (hd : d ∈ valDims x.arr [m0, m1])
    (hne : x.arr.size d ≠ 0) {name : δ} {c : DataArray δ ℤ}
    (hname : x.coords.lookup name = some c) (hdim : c.dims = [d])
    {gs : List ℤ} (hg : GroupsOf (labelsOf x c d) gs) (block : Option ℤ)
    {groupDim : Option δ} (hgr : FreeName x d groupDim) {policy : CoordsPolicy}
    (hp : policy = .group ∨ policy = .drop) (keepdims axesToEnd : Bool) :
    (∀ groups : Option (List ℤ), (groups.getD gs).length = gs.length →
      ∃ out, reduceObjC core2 (family2 [x.arr.size m0, x.arr.size m1]) argsort x [m0, m1] (oneAxis axis)
          (oneDim dim) (some (.coord name)) block policy groups groupDim keepdims axesToEnd = .ok out ∧
        CoordsLabelled x.coords out.coords d (groupDim.getD d) (groups.getD gs) ∧
        ResultNamed core2 (Holds2 o0 o1) out.arr [m0, m1]
          (renamed (dimsAfter x.arr.dims d [m0, m1] axesToEnd) d (groupDim.getD d))
          (sizesWith x.arr (groupDim.getD d) gs.length)
          (fun p => (withLabel (gs.getD (p (groupDim.getD d)) 0) (labelsOf x c d)
            (samplesAlongName L d (x.arr.size d) p)).flatten)) ∧
    ∀ l : List ℤ, l.length ≠ gs.length →
      reduceObjC core2 (family2 [x.arr.size m0, x.arr.size m1]) argsort x [m0, m1] (oneAxis axis)
          (oneDim dim) (some (.coord name)) block policy (some l) groupDim keepdims axesToEnd
        = .error .valueError := by
  rw [family2_eq hm0 hm1]
  exact coord_group_named (meaning2 (K := K) o0 o1 h0 h1) core2_ok hS hw hx argsort hsel hd hne hname hdim
    hg block hgr hp keepdims axesToEnd

/-- The labels of the blocks. -/
theorem block_table {d : δ} (g : GoodNamed x.arr moms d) {axis : Option (Option AxisArg)}
    {dim : Option (Option δ)} (hsel : Chosen x.arr.dims moms axis dim d) {b : ℕ} (h1 : 1 ≤ b)
    (h2 : b ≤ x.arr.size d) :
    ∃ by_ : List ℤ, blockLabels x.arr moms axis dim b = .ok (by_.map some) ∧
      by_.length = x.arr.size d ∧
      GroupsOf (by_.map some) ((List.range (x.arr.size d / b)).map (fun i : ℕ => (i : ℤ))) ∧
      by_.max? = some ((x.arr.size d / b : ℕ) - 1 : ℤ) ∧
      ∀ i (j : ℕ), j < x.arr.size d / b →
        ((by_.map some)[i]? = some (some (j : ℤ)) ↔ b * j ≤ i ∧ i < b * (j + 1)) := by
  obtain ⟨by_, e, hlen, hat⟩ := (C33_labels (x.arr.size d) b h1 h2).1
  have hq : 0 < x.arr.size d / b := Nat.div_pos h2 (by omega)
  have hle : x.arr.size d / b * b ≤ x.arr.size d := Nat.div_mul_le_self _ _
  have hiff : ∀ i (j : ℕ), j < x.arr.size d / b →
      ((by_.map some)[i]? = some (some (j : ℤ)) ↔ b * j ≤ i ∧ i < b * (j + 1)) := by
    intro i j hj
    have hdiv : i / b = j ↔ b * j ≤ i ∧ i < b * (j + 1) := by
      rw [Nat.div_eq_iff (by omega : 0 < b)]
      constructor
      · rintro ⟨h3, h4⟩
        refine ⟨by nlinarith, ?_⟩
        rw [Nat.mul_add, Nat.mul_comm b j]
        omega
      · rintro ⟨h3, h4⟩
        rw [Nat.mul_add, Nat.mul_comm b j] at h4
        rw [Nat.mul_comm b j] at h3
        omega
    have hub : b * (j + 1) ≤ x.arr.size d / b * b := by
      rw [Nat.mul_comm]
      exact Nat.mul_le_mul_right b hj
    rw [List.getElem?_map]
    by_cases hi : i < x.arr.size d
    · rw [hat i hi]
      by_cases hi2 : i < x.arr.size d / b * b
      · rw [if_pos hi2, ← hdiv]
        constructor
        · intro h
          exact_mod_cast Option.some.inj (Option.some.inj h)
        · rintro rfl
          rfl
      · rw [if_neg hi2]
        constructor
        · intro h
          have h := Option.some.inj (Option.some.inj h)
          omega
        · intro h
          omega
    · rw [List.getElem?_eq_none (by omega)]
      constructor
      · intro h; cases h
      · intro h; omega
  have hval : ∀ z ∈ by_, z < x.arr.size d / b := by
    intro z hz
    obtain ⟨i, hi, e2⟩ := List.getElem_of_mem hz
    have hi' : i < x.arr.size d := by omega
    have := hat i hi'
    rw [List.getElem?_eq_getElem hi, e2] at this
    have := Option.some.inj this
    split_ifs at this with hi2
    · have := Nat.div_lt_of_lt_mul (by rwa [Nat.mul_comm] at hi2 : i < b * (x.arr.size d / b))
      omega
    · omega
  have hmem : ∀ j : ℕ, j < x.arr.size d / b → (j : ℤ) ∈ by_ := by
    intro j hj
    have h3 := (hiff (b * j) j hj).2 ⟨le_refl _, by nlinarith⟩
    have := List.mem_of_getElem? h3
    rwa [List.mem_map_of_injective (Option.some_injective ℤ)] at this
  refine ⟨by_, ?_, hlen, ⟨?_, fun z => ?_⟩, ?_, hiff⟩
  · unfold blockLabels selectNdatX
    rw [selectAxisDim_ok g.distinct g.present g.notMom hsel]
    show (Block.blockBy (x.arr.size d) b .dropLast).bind _ = _
    rw [e]
    show (if by_ = [] then _ else _) = _
    rw [if_neg]
    rintro rfl
    have : (0 : ℕ) = x.arr.size d := hlen
    omega
  · rw [List.pairwise_map]
    exact List.pairwise_lt_range.imp (fun h => by omega)
  · rw [List.mem_map, List.mem_map_of_injective (Option.some_injective ℤ)]
    constructor
    · rintro ⟨i, hi, rfl⟩
      exact ⟨hmem i (List.mem_range.1 hi), by omega⟩
    · rintro ⟨h3, h4⟩
      have := hval z h3
      exact ⟨z.toNat, List.mem_range.2 (by omega), by omega⟩
  · rw [List.max?_eq_some_iff]
    refine ⟨?_, fun z hz => ?_⟩
    · have := hmem (x.arr.size d / b - 1) (by omega)
      rwa [show ((x.arr.size d / b - 1 : ℕ) : ℤ) = ((x.arr.size d / b : ℕ) : ℤ) - 1 by omega] at this
    · have := hval z hz
      omega

/-- **C74** `obj.reduce(dim, block=b)` with the policies `"first"` and `"last"`: every coordinate is kept, and a block
carries the labels of one of its own samples, the first or the last one if the sort is stable. -/
theorem C74_block (hc : core.Ok) (k : Kernel K V M) (hx : GoodCoords x) {d : δ}
    (g : GoodNamed x.arr moms d) (hm : moms.length = core.nd)
    {argsort : List ℤ → List ℕ} (ha : IsArgsort argsort) {axis : Option (Option AxisArg)}
    {dim : Option (Option δ)} (hsel : Chosen x.arr.dims moms axis dim d) {b : ℕ} (h1 : 1 ≤ b)
    (h2 : b ≤ x.arr.size d) {groupDim : Option δ} (hgr : FreeName x d groupDim) (last : Bool)
    (groups : Option (List ℤ)) (keepdims axesToEnd : Bool) :
    ∃ out pick, reduceObjC core k argsort x moms (oneAxis axis) (oneDim dim) none (some (b : ℤ))
        (if last then .last else .first) groups groupDim keepdims axesToEnd = .ok out ∧
      reduceObjX core k argsort x.arr moms (oneAxis axis) (oneDim dim) none (some (b : ℤ)) true groupDim
        keepdims axesToEnd = .ok out.arr ∧
      CoordsPicked x.coords out.coords d (groupDim.getD d) (x.arr.size d / b) pick ∧
      ∀ j < x.arr.size d / b, (b * j ≤ pick j ∧ pick j < b * (j + 1)) ∧
        (IsStableArgsort argsort → pick j = if last then b * (j + 1) - 1 else b * j) := by
  obtain ⟨by_, e, hlen, hg, -, hiff⟩ := block_table g hsel h1 h2
  obtain ⟨out, pick, e1, e2, h3, h4⟩ := reduceByC_ends hc k hx g hm ha hsel hg
    (labelsWithin_of_length (by rw [List.length_map, hlen])) none hgr last false
    (blockGroups groups (by_.map some)) keepdims axesToEnd
  rw [List.length_map, List.length_range] at h3
  refine ⟨out, pick, ?_, ?_, h3, fun j hj => ?_⟩
  · rw [reduceObjC_block, e]
    exact e1
  · rw [reduce_block_eq, e]
    exact e2
  · obtain ⟨h5, h6⟩ := h4 j (by simpa using hj)
    rw [List.getElem_map, List.getElem_range] at h5 h6
    have hin := (hiff (pick j) j hj).1 h5
    refine ⟨hin, fun hst => ?_⟩
    have h7 := (h6 hst).2
    have hb : b * (j + 1) = b * j + b := by rw [Nat.mul_add, Nat.mul_one]
    cases last with
    | false =>
      have := h7 (b * j) ((hiff _ j hj).2 ⟨le_refl _, by omega⟩)
      simp only [Bool.false_eq_true, if_false] at this ⊢
      omega
    | true =>
      have := h7 (b * (j + 1) - 1) ((hiff _ j hj).2 ⟨by omega, by omega⟩)
      simp only [if_true] at this ⊢
      omega

/-- **C74** `obj.reduce(dim, block=b)` with the policy `"group"`, or none at all: the blocks are numbered from zero, or
labelled by `groups` if this has labels, which must be as many as there are blocks. -/
theorem C74_block_group (hc : core.Ok) (k : Kernel K V M) (hx : GoodCoords x) {d : δ}
    (g : GoodNamed x.arr moms d) (hm : moms.length = core.nd)
    (argsort : List ℤ → List ℕ) {axis : Option (Option AxisArg)}
    {dim : Option (Option δ)} (hsel : Chosen x.arr.dims moms axis dim d) {b : ℕ} (h1 : 1 ≤ b)
    (h2 : b ≤ x.arr.size d) {groupDim : Option δ} (hgr : FreeName x d groupDim) {policy : CoordsPolicy}
    (hp : policy = .group ∨ policy = .drop) (keepdims axesToEnd : Bool) :
    (∀ groups, groups = none ∨ groups = some [] →
      ∃ out, reduceObjC core k argsort x moms (oneAxis axis) (oneDim dim) none (some (b : ℤ)) policy groups
          groupDim keepdims axesToEnd = .ok out ∧
        reduceObjX core k argsort x.arr moms (oneAxis axis) (oneDim dim) none (some (b : ℤ)) false groupDim
          keepdims axesToEnd = .ok out.arr ∧
        CoordsLabelled x.coords out.coords d (groupDim.getD d)
          ((List.range (x.arr.size d / b)).map (fun i : ℕ => (i : ℤ)))) ∧
    (∀ l : List ℤ, l.length = x.arr.size d / b →
      ∃ out, reduceObjC core k argsort x moms (oneAxis axis) (oneDim dim) none (some (b : ℤ)) policy (some l)
          groupDim keepdims axesToEnd = .ok out ∧
        reduceObjX core k argsort x.arr moms (oneAxis axis) (oneDim dim) none (some (b : ℤ)) false groupDim
          keepdims axesToEnd = .ok out.arr ∧
        CoordsLabelled x.coords out.coords d (groupDim.getD d) l) ∧
    ∀ l : List ℤ, l ≠ [] → l.length ≠ x.arr.size d / b →
      reduceObjC core k argsort x moms (oneAxis axis) (oneDim dim) none (some (b : ℤ)) policy (some l)
        groupDim keepdims axesToEnd = .error .valueError := by
  obtain ⟨by_, e, hlen, hg, hmax, -⟩ := block_table g hsel h1 h2
  have hq : 0 < x.arr.size d / b := Nat.div_pos h2 (by omega)
  have hto : ((x.arr.size d / b : ℕ) - 1 + 1 : ℤ).toNat = x.arr.size d / b := by omega
  have hid : (by_.map some).filterMap id = by_ := by
    rw [List.filterMap_map, Function.id_comp]
    exact List.filterMap_some
  have key : ∀ groups, reduceObjC core k argsort x moms (oneAxis axis) (oneDim dim) none (some (b : ℤ))
      policy groups groupDim keepdims axesToEnd
        = groupedC core k by_ x moms axis dim (blockGroups groups (by_.map some)) groupDim axesToEnd := by
    intro groups
    rw [reduceObjC_block, e]
    show reduceByC core k argsort x moms axis dim _ false policy _ groupDim axesToEnd = _
    unfold reduceByC
    rw [if_neg (by rcases hp with rfl | rfl <;> simp), if_neg (by simp), if_neg (by simp), hid]
  have keyX : reduceObjX core k argsort x.arr moms (oneAxis axis) (oneDim dim) none (some (b : ℤ)) false
      groupDim keepdims axesToEnd = groupedX core k by_ x.arr moms axis dim groupDim axesToEnd := by
    rw [reduce_block_eq, e]
    show reduceObjX core k argsort x.arr moms (oneAxis axis) (oneDim dim) (some (by_.map some)) none false
      groupDim keepdims axesToEnd = _
    rw [reduce_by_eq, if_neg (by simp)]
    unfold reduceByCode
    rw [if_neg (by simp), hid]
  have hdef : ∀ groups, groups = none ∨ groups = some [] → blockGroups groups (by_.map some)
      = some ((List.range (x.arr.size d / b)).map (fun i : ℕ => (i : ℤ))) := by
    intro groups h
    unfold blockGroups
    rw [if_neg (by rcases h with rfl | rfl <;> simp), hid, hmax, Option.getD_some, hto]
  have hgiven : ∀ l : List ℤ, l ≠ [] → blockGroups (some l) (by_.map some) = some l :=
    fun l h => if_pos (by simpa using h)
  obtain ⟨hbad, hok, -⟩ := C74_grouped hc k (by_ := by_) hx g hm hsel hgr axesToEnd hlen hmax (by omega)
  rw [hto] at hbad hok
  refine ⟨fun groups h => ?_, fun l hl => ?_, fun l hl hne => ?_⟩
  · simp only [key, keyX, hdef groups h]
    exact hok _ (by simp)
  · have hl0 : l ≠ [] := by
      rintro rfl
      have : (0 : ℕ) = x.arr.size d / b := hl
      omega
    simp only [key, keyX, hgiven l hl0]
    exact hok l hl
  · simp only [key, hgiven l hl]
    exact hbad l hne

/-- **C74** `by` must be the name of a coordinate or of a dimension. -/
theorem C74_by_unknown (k : Kernel K V M) (argsort : List ℤ → List ℕ) (axis : Option (Option AxisArg))
    (dim : Option (Option δ)) {name : δ} (hd : name ∉ x.arr.dims) (hn : ∀ c ∈ x.coords, c.1 ≠ name)
    (block : Option ℤ) (policy : CoordsPolicy) (groups : Option (List ℤ)) (groupDim : Option δ)
    (keepdims axesToEnd : Bool) :
    reduceObjC core k argsort x moms (oneAxis axis) (oneDim dim) (some (.coord name)) block policy groups
      groupDim keepdims axesToEnd = .error .keyError := by
  have hl : x.coords.lookup name = none := by
    rw [List.lookup_eq_none_iff]
    intro c hc
    simpa using fun h => hn c hc h.symm
  rw [reduceObjC_coord]
  unfold coordLabels
  rw [hl]
  show ((if name ∈ x.arr.dims then _ else _ : Py (List (Option ℤ))).bind _) = _
  rw [if_neg hd]
  rfl

end Objects

section Examples

open ExDim

/-- Labels along one dimension. -/
def exAlong (d : ExDim) (l : List ℤ) : DataArray ExDim ℤ where
  dims := [d]
  data idx := l.getD (idx.headD 0) 0
  size _ := l.length

/-- Three samples with labels `10, 20, 30`, and two kinds of them, `7` and `5`. -/
def exCo : Coorded ExDim ℤ ℚ where
  arr := exGather
  coords := [(p, exAlong p [10, 20, 30]), (n, exAlong p [7, 5, 7]), (m, exAlong m [0, 1, 2])]

theorem exCo_good : GoodCoords exCo where
  names := by decide
  distinct := by decide
  within := by decide
  own := by decide

theorem exCo_named : GoodNamed exCo.arr [m] p where
  distinct := by decide
  momDistinct := by decide
  momPresent := by decide
  present := by decide
  notMom := by decide

theorem exCo_free (new : Option ExDim) (h : new ∈ [none, some p, some q, some b]) :
    FreeName exCo p new := by
  intro k hk
  subst hk
  simp only [List.mem_cons, reduceCtorEq, Option.some.injEq, List.not_mem_nil, or_false, false_or] at h
  rcases h with rfl | rfl | rfl
  · exact .inl rfl
  · exact .inr ⟨by decide, by decide⟩
  · exact .inr ⟨by decide, by decide⟩

/-- The coordinates of a result: name, dimensions and labels. -/
def coShown {α : Type} (r : Py (Coorded ExDim ℤ α)) : Option (List (ExDim × List ExDim × List ℤ)) :=
  match r with
  | .ok o => some (o.coords.map fun c =>
      (c.1, c.2.dims, (List.range (c.2.size (c.2.dims.headD t))).map (fun i => c.2.data [i])))
  | .error _ => none

example : coShown (reduceC core1 (kernel1 2) exCo [m] none (some (some [p])) true false)
    = some [(m, [m], [0, 1, 2])] := by decide +kernel
example := C74_reduce_data core1_ok (kernel1 (K := ℚ) 2) exCo_good (moms := [m]) (ds := [p])
  ⟨by decide, by decide, by decide, by decide, by decide, by decide, by decide, by decide⟩ rfl
  (axis := none) (dim := some (some [p])) (.inl ⟨rfl, rfl⟩) true false
example := C74_cumulative core1_ok (kernel1 (K := ℚ) 2) false exCo_named rfl (axis := none)
  (dim := some (some p)) (.inl ⟨rfl, rfl⟩) true
example := C74_moments_type core1_ok (fun c : Mom ℚ => Cmomy.Convert.centralToRaw 2 c (fun _ => 0)) true
  (x := exCo) (moms := [m]) (by decide) (by decide) (by decide) rfl false
example := C74_resample_data core1_ok (kernel1 (K := ℚ) 2) [[0, 1, 2], [1, 1, 1]] (nsamp := 3) exCo_good
  (rep := q) exCo_named (by decide) rfl (axis := none) (dim := some (some p)) (.inl ⟨rfl, rfl⟩) rfl false
example : coShown (jackknifeC core1 (kernel1 2) exCo [m] none (some (some p)) (some q) false)
    = some [(q, [q], [10, 20, 30]), (n, [q], [7, 5, 7]), (m, [m], [0, 1, 2])] := by decide +kernel
example := C74_jackknife_data core1_ok (kernel1 (K := ℚ) 2) exCo_good exCo_named (by decide) rfl
  (axis := none) (dim := some (some p)) (.inl ⟨rfl, rfl⟩) (exCo_free (some q) (by decide)) true
example := C74_rolling_data core1_ok (kernel1 (K := ℚ) 2) rfl 2 none false true exCo_named rfl
  (axis := none) (dim := some (some p)) (.inl ⟨rfl, rfl⟩) false
example := C74_rolling_exp_data core1_ok (kernel1 (K := ℚ) 2) (alpha := .inr [1 / 2, 1 / 3, 1 / 4]) true none
  false exCo_named (by rintro l h; cases h; rfl) rfl (axis := none) (dim := some (some p))
  (.inl ⟨rfl, rfl⟩) false

example : coShown (groupedC core1 (kernel1 2) [1, 0, 1] exCo [m] none (some (some p)) (some [3, 4]) (some q)
    false) = some [(m, [m], [0, 1, 2]), (q, [q], [3, 4])] := by decide +kernel
example := C74_grouped core1_ok (kernel1 (K := ℚ) 2) (by_ := [1, 0, 1]) exCo_good exCo_named rfl
  (axis := none) (dim := some (some p)) (.inl ⟨rfl, rfl⟩) (exCo_free (some q) (by decide)) false
  (m := 1) rfl rfl (by decide)

-- the empty group in the middle begins where the next one begins
example : coShown (indexedC core1 (kernel1 2) [2, 0, 1] [0, 1, 1] [1, 1, 3] none exCo [m] none (some (some p))
    .first none none false)
    = some [(p, [p], [30, 10, 10]), (n, [p], [7, 7, 7]), (m, [m], [0, 1, 2])] := by decide +kernel
-- an empty group in front takes the last entry
example : coShown (indexedC core1 (kernel1 2) [2, 0, 1] [0, 0, 2] [0, 2, 3] none exCo [m] none (some (some p))
    .last none (some q) false)
    = some [(q, [q], [20, 10, 20]), (n, [q], [5, 7, 5]), (m, [m], [0, 1, 2])] := by decide +kernel
example := C74_indexed core1_ok (kernel1 (K := ℚ) 2) (index := [2, 0, 1]) (start := [0, 0, 2])
  (stop := [0, 2, 3]) (scale := some [1, 2, 3]) exCo_good exCo_named rfl (axis := none)
  (dim := some (some p)) (.inl ⟨rfl, rfl⟩) (exCo_free (some q) (by decide)) (by decide) (by simp) true
  (some [1, 2, 3]) false
example : (indexedC core1 (kernel1 2) [] [0, 0] [0, 0] none exCo [m] none (some (some p)) .first
    none none false).map (fun _ => ()) = .error .indexError := by decide +kernel
example := C74_indexed_group core1_ok (kernel1 (K := ℚ) 2) (index := [2, 0, 1]) (start := [0, 0, 2])
  (stop := [0, 2, 3]) (scale := none) exCo_good exCo_named rfl (axis := none)
  (dim := some (some p)) (.inl ⟨rfl, rfl⟩) (exCo_free (some q) (by decide)) (by decide) (by simp) false

theorem exCo_groups : GroupsOf [some 7, some 5, some 7] [5, 7] := by
  refine ⟨by decide, fun z => ?_⟩
  simp only [List.mem_cons, Option.some.injEq, List.not_mem_nil, or_false]
  omega

theorem exCo_labels : labelsOf exCo (exAlong p [7, 5, 7]) p = [some 7, some 5, some 7] := by decide

example : coShown (reduceObjC core1 (family1 [3]) exArgsort exCo [m] none (some (some [p]))
    (some (.labels [some 7, some 5, some 7])) none .last none (some q) false false)
    = some [(q, [q], [20, 30]), (n, [q], [5, 7]), (m, [m], [0, 1, 2])] := by decide +kernel
example (last : Bool) := C74_reduce_by core1_ok (kernel1 (K := ℚ) 2) exCo_good exCo_named rfl
  exArgsort_isArgsort (axis := none) (dim := some (some p)) (.inl ⟨rfl, rfl⟩) exCo_groups
  (labelsWithin_of_length (by decide)) none (exCo_free (some q) (by decide)) last none false false

example (last : Bool) := C74_by_coord core1_ok (kernel1 (K := ℚ) 2) exCo_good exCo_named rfl
  exArgsort_isArgsort (axis := none) (dim := some (some p)) (.inl ⟨rfl, rfl⟩) (name := n)
  (c := exAlong p [7, 5, 7]) rfl rfl (by rw [exCo_labels]; exact exCo_groups) none
  (exCo_free none (by decide)) last none false true

example : coShown (reduceObjC core1 (family1 [3]) exArgsort exCo [m] none (some (some [p]))
    (some (.coord n)) none .drop none (some q) false false)
    = some [(m, [m], [0, 1, 2]), (q, [q], [5, 7])] := by decide +kernel
example := C74_by_coord_group (x := exCo) (by omega : 1 ≤ 2) rfl exGather_stands exGather_nonneg exCo_good
  exArgsort (axis := none) (dim := some (some p)) (.inl ⟨rfl, rfl⟩) (by decide) (by decide) (name := n)
  (c := exAlong p [7, 5, 7]) rfl rfl (by rw [exCo_labels]; exact exCo_groups) none
  (exCo_free none (by decide)) (.inr rfl) false true

example := C74_by_unknown (core := core1) (moms := [m]) (family1 (K := ℚ) [3]) exArgsort none
  (some (some p)) (x := exCo) (name := b) (by decide) (by decide) none .first none none false false

/-- The same labels for comoments. -/
def exCo2 : Coorded ExDim ℤ ℚ where
  arr := exGather2
  coords := [(q, exAlong p [7, 5, 7]), (n, exAlong n [0, 1])]

example := C74_by_coord_group_cov (x := exCo2) (by omega : 1 ≤ 1) (by omega : 1 ≤ 1) rfl rfl exGather2_stands
  exGather2_nonneg ⟨by decide, by decide, by decide, by decide⟩
  exArgsort (axis := none) (dim := some (some p)) (.inl ⟨rfl, rfl⟩) (by decide) (by decide) (name := q)
  (c := exAlong p [7, 5, 7]) rfl rfl (gs := [5, 7])
  (by
    rw [show labelsOf exCo2 (exAlong p [7, 5, 7]) p = [some 7, some 5, some 7] by decide]
    exact exCo_groups) none
  (groupDim := some b) (by
    intro k hk
    cases hk
    exact .inr ⟨by decide, by decide⟩) (.inl rfl) false true

example : coShown (reduceObjC core1 (family1 [3]) exArgsort exCo [m] none (some (some [p]))
    none (some 2) .first none none false false)
    = some [(p, [p], [10]), (n, [p], [7]), (m, [m], [0, 1, 2])] := by decide +kernel
example (last : Bool) := C74_block core1_ok (kernel1 (K := ℚ) 2) exCo_good exCo_named rfl
  exArgsort_isArgsort (axis := none) (dim := some (some p)) (.inl ⟨rfl, rfl⟩) (b := 1) (by decide) (by decide)
  (exCo_free (some q) (by decide)) last none false false
example := C74_block_group core1_ok (kernel1 (K := ℚ) 2) exCo_good exCo_named rfl
  exArgsort (axis := none) (dim := some (some p)) (.inl ⟨rfl, rfl⟩) (b := 1) (by decide) (by decide)
  (exCo_free (some q) (by decide)) (.inr rfl) false false

/-- A sort that reverses equal values. -/
def exUnstable (l : List ℤ) : List ℕ :=
  (List.range l.length).reverse.insertionSort (fun i j => (l[i]?).getD 0 ≤ (l[j]?).getD 0)

theorem exUnstable_isArgsort : IsArgsort exUnstable := by
  intro l
  refine ⟨(List.perm_insertionSort _ _).trans (List.reverse_perm _), ?_⟩
  rw [List.pairwise_map]
  have : Std.Total (fun i j : ℕ => (l[i]?).getD 0 ≤ (l[j]?).getD 0) := ⟨fun a b => le_total _ _⟩
  have : IsTrans ℕ (fun i j : ℕ => (l[i]?).getD 0 ≤ (l[j]?).getD 0) :=
    ⟨fun a b c h1 h2 => le_trans h1 h2⟩
  exact List.pairwise_insertionSort _ _

/-- **C74** For `"first"` to mean the first sample of a group, the sort must be stable, which `np.argsort` does not
promise: with a sort that is not, the group of the first and the third sample carries the labels of the third. -/
theorem C74_first_unstable : IsArgsort exUnstable ∧
    coShown (reduceObjC core1 (family1 [3]) exUnstable exCo [m] none (some (some [p]))
      (some (.labels [some 7, some 5, some 7])) none .first none none false false)
      = some [(p, [p], [20, 30]), (n, [p], [5, 7]), (m, [m], [0, 1, 2])] :=
  ⟨exUnstable_isArgsort, by decide +kernel⟩

end Examples

end Cmomy
