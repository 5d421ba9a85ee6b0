import Verif.Lemmas.LabelledNd
import Verif.Props.AxisOps

/-!
# C57: operations on labelled arrays of moments

The results are described by dimension names alone: what an operation gives at named coordinates
depends on the entries at named coordinates, not on the order in which dimensions are stored. `core`
and `k` are `core1`, `kernel1 order` for one variable and `core2`, `kernel2 o0 o1` for two.
-/

set_option linter.unusedSectionVars false

namespace Cmomy

open Spec Axes Labelled
open Nd (core1 core2 core1_ok core2_ok)

variable {δ : Type} [DecidableEq δ]

/-- Names for the examples. -/
inductive ExName
  | obs | wid | mom | mom2 | rep
  deriving DecidableEq

open ExName

/-- Stored with the moment dimension first, then the samples, then a further dimension. -/
def exLab : DataArray ExName ℚ where
  dims := [mom, obs, wid]
  data idx := match idx with
    | [m, s, c] => exNdFront.get (fun p => [m, s, c].getD p 0)
    | _ => 0
  size d := match d with
    | mom => 3
    | _ => 2

theorem exLab_good : GoodNamed exLab [mom] obs where
  distinct := by decide
  momDistinct := by decide
  momPresent := by decide
  present := by decide
  notMom := by decide

theorem exLab_reduce : GoodReduce exLab [mom] [obs] where
  distinct := by decide
  momDistinct := by decide
  momPresent := by decide
  dsDistinct := by decide
  present := by decide
  notMom := by decide
  some_dim := by decide
  nonempty := by decide

/-- Two variables: the moment dimensions around the samples. -/
def exLab2 : DataArray ExName ℚ where
  dims := [mom, obs, mom2]
  data idx := match idx with
    | [a, s, b] => if a = 0 ∧ b = 0 then s + 1 else if a = 0 then s else if b = 0 then 2 * s else 1
    | _ => 0
  size _ := 2

theorem exLab2_good : GoodNamed exLab2 [mom, mom2] obs where
  distinct := by decide
  momDistinct := by decide
  momPresent := by decide
  present := by decide
  notMom := by decide

/-- Dimensions, sizes and some entries of a result, at coordinates given by name. -/
def labEntries {α : Type} (r : Py (DataArray ExName α)) (cs : List (List (ExName × ℕ))) :
    Option (List ExName × List ℕ × List α) :=
  match r with
  | .ok y => some (y.dims, y.dims.map y.size,
      cs.map (fun c => entry y (fun d => ((c.find? (fun p => p.1 = d)).map Prod.snd).getD 0)))
  | .error _ => none

section

/-! ### Choosing the dimension -/

/-- A dimension may be named, or given by its number; a moment dimension is refused, a wrong name is
refused, `None` is refused, and exactly one of `axis` and `dim` has to be given. -/
theorem C57_select {dims moms : List δ} (hd : dims.Nodup) :
    (∀ axis dim d, d ∈ dims → d ∉ moms → Chosen dims moms axis dim d →
      selectAxisDim dims moms axis dim none none false = .ok (dims.idxOf d, d)) ∧
    (∀ axis dim d, d ∈ dims → d ∈ moms → Chosen dims moms axis dim d →
      selectAxisDim dims moms axis dim none none false = .error .valueError) ∧
    (∀ d, d ∉ dims →
      selectAxisDim dims moms none (some (some d)) none none false = .error .valueError) ∧
    (∀ z, ¬ InRange dims.length z →
      selectAxisDim dims moms (some (some (.int z))) none none none false = .error .axisError) ∧
    (∀ a d, selectAxisDim dims moms (some (some a)) (some (some d)) none none false
      = .error .valueError) ∧
    selectAxisDim dims moms none none none none false = .error .valueError ∧
    (∀ dim, selectAxisDim dims moms (some none) dim none none false = .error .typeError) ∧
    (∀ axis, axis ≠ some none →
      selectAxisDim dims moms axis (some none) none none false = .error .typeError) := by
  refine ⟨fun axis dim d hp hm h => selectAxisDim_ok hd hp hm h, fun axis dim d hp hm h => ?_,
    fun d hp => ?_, fun z hz => ?_, fun a d => rfl, rfl, fun dim => rfl, fun axis h => ?_⟩
  · unfold selectAxisDim
    rcases h with ⟨rfl, rfl⟩ | ⟨rfl, z, rfl, hr, hz⟩ | ⟨rfl, re, z, rfl, hle, hr, hz⟩
    · simp [notNone, axisDimDefaults, Except.bind, hp, hm]
    · have e : normalizeAxisIndex (.int z) dims.length (some moms.length)
          = .ok (wrap dims.length z) := (C38_int_axis _ _ _ _).2 ⟨hr, rfl⟩
      simp [notNone, axisDimDefaults, Except.bind, e, hz, hm]
    · have e : normalizeAxisIndex (.complex re z) dims.length (some moms.length)
          = .ok (wrap (dims.length - moms.length) z) :=
        (C38_imaginary_axis _ _ _ _ _).2 ⟨hle, by rw [truncate_int]; exact hr, by rw [truncate_int]⟩
      simp [notNone, axisDimDefaults, Except.bind, e, hz, hm]
  · simp [selectAxisDim, notNone, axisDimDefaults, Except.bind, hp]
  · have e : normalizeAxisIndex (.int z) dims.length (some moms.length) = .error .axisError :=
      ((C38_rejects z 0 0 dims.length 0 (some moms.length) .axisError).1).2 ⟨rfl, hz⟩
    simp [selectAxisDim, notNone, axisDimDefaults, Except.bind, e]
  · rcases axis with _ | _ | a
    · rfl
    · exact absurd rfl h
    · rfl

example : selectAxisDim exLab.dims [mom] (some (some (.int (-1)))) none none none false
    = .ok (2, wid) := (C57_select (dims := exLab.dims) (moms := [mom]) (by decide)).1 _ _ wid
      (by decide) (by decide) (.inr (.inl ⟨rfl, -1, rfl, by unfold InRange; decide, by decide⟩))

/-- For a `Dataset` only names are accepted. -/
theorem C57_select_dataset (moms : List δ) (axis : Option (Option AxisArg)) (dim : Option (Option δ))
    (r : ℕ × δ) :
    selectAxisDimDataset moms axis dim false = .ok r ↔
      axis = none ∧ dim = some (some r.2) ∧ r.2 ∉ moms ∧ r.1 = 0 := by
  obtain ⟨p, e⟩ := r
  rcases axis with _ | _ | a <;> rcases dim with _ | _ | d <;>
    simp [selectAxisDimDataset, notNone, Except.bind]
  by_cases h : d ∈ moms
  · rw [if_pos h]
    simp only [reduceCtorEq, false_iff]
    rintro ⟨rfl, h', -⟩
    exact h' h
  · rw [if_neg h]
    simp only [Except.ok.injEq, Prod.mk.injEq]
    constructor
    · rintro ⟨rfl, rfl⟩; exact ⟨rfl, h, rfl⟩
    · rintro ⟨rfl, -, rfl⟩; exact ⟨rfl, rfl⟩

example : selectAxisDimDataset [mom] none (some (some obs)) false = .ok (0, obs) :=
  (C57_select_dataset _ _ _ _).2 ⟨rfl, rfl, by decide, rfl⟩

/-- Several dimensions, for `reduce_data`: by name, all that are not moment dimensions, or by
numbers. `axis=None` is taken to mean the first dimensions, as many as there are besides the moment
dimensions: this is what `dim=None` means if the moment dimensions come last, and `ValueError` as soon
as one of them is among the first. -/
theorem C57_select_many {dims moms : List δ} (hd : dims.Nodup) :
    (∀ axis dim ds, ds.Nodup → (∀ d ∈ ds, d ∈ dims) → (∀ d ∈ ds, d ∉ moms) →
      ChosenMany dims moms axis dim ds →
      selectAxisDimMult dims moms axis dim = .ok (ds.map dims.idxOf, ds)) ∧
    (∀ front, dims = front ++ moms → selectAxisDimMult dims moms (some .all) none
      = selectAxisDimMult dims moms none (some none)) ∧
    ((∃ d ∈ dims.take (dims.length - moms.length), d ∈ moms) →
      selectAxisDimMult dims moms (some .all) none = .error .valueError) := by
  have hall : selectAxisDimMult dims moms (some .all) none =
      if ∃ d ∈ dims.take (dims.length - moms.length), d ∈ moms then .error .valueError
      else .ok (List.range (dims.length - moms.length),
        dims.take (dims.length - moms.length)) := by
    have hfm : (List.range (dims.length - moms.length)).filterMap (fun ax => dims[ax]?)
        = dims.take (dims.length - moms.length) := by
      have hle : dims.length - moms.length ≤ dims.length := Nat.sub_le _ _
      generalize dims.length - moms.length = n at hle
      clear hd
      induction n with
      | zero => rfl
      | succ n ih =>
        rw [List.range_succ, List.filterMap_append, ih (by omega), List.take_add_one]
        simp [List.getElem?_eq_getElem (show n < dims.length by omega)]
    simp only [selectAxisDimMult, axisDimDefaults, normalizeAxisTuple, Except.bind, hfm]
  refine ⟨fun axis dim ds h1 h2 h3 h4 => selectAxisDimMult_ok hd h1 h2 h3 h4, fun front hf => ?_,
    fun h => by rw [hall, if_pos h]⟩
  have hdis : ∀ d ∈ front, d ∉ moms := by
    rw [hf, List.nodup_append] at hd
    exact fun d h1 h2 => hd.2.2 d h1 d h2 rfl
  have hfn : front.Nodup := by
    rw [hf, List.nodup_append] at hd
    exact hd.1
  have hlen : dims.length - moms.length = front.length := by rw [hf]; simp
  have htake : dims.take (dims.length - moms.length) = front := by
    rw [hlen, hf, List.take_left]
  have hfilt : dims.filter (fun d => decide (d ∉ moms)) = front := by
    rw [hf, List.filter_append, List.filter_eq_self.2 (by simpa using hdis),
      List.filter_eq_nil_iff.2 (by simp), List.append_nil]
  rw [hall, htake, if_neg (by rintro ⟨d, h1, h2⟩; exact hdis d h1 h2), hlen,
    selectAxisDimMult_ok hd (ds := front) hfn (fun d h => by simp [hf, h]) hdis
      (.inr (.inl ⟨rfl, rfl, hfilt.symm⟩))]
  congr 2
  refine List.ext_getElem (by simp) fun p h1 h2 => ?_
  have hp : p < front.length := by simpa using h1
  have hi : dims.idxOf front[p] = p := by
    rw [hf, List.idxOf_append_of_mem (List.getElem_mem hp), hfn.idxOf_getElem]
  rw [List.getElem_range, List.getElem_map, hi]

example : selectAxisDimMult exLab.dims [mom] (some .all) none = .error .valueError :=
  (C57_select_many (by decide)).2.2 (by decide)
example : selectAxisDimMult exLab.dims [mom] none (some none) = .ok ([1, 2], [obs, wid]) :=
  (C57_select_many (by decide)).1 _ _ [obs, wid] (by decide) (by decide) (by decide)
    (.inr (.inl ⟨rfl, rfl, by decide⟩))

end

section

variable {K V M : Type} [Field K] [DecidableEq K]

/-! ### The operations -/

/-- `reduce_data` over some dimensions (no kept dimension may be empty). -/
theorem C57_reduce_data {core : Nd.Core K M} (hc : core.Ok) (k : Kernel K V M) {x : DataArray δ K}
    {moms ds : List δ} (g : GoodReduce x moms ds) (hm : moms.length = core.nd)
    {axis : Option AxesArg} {dim : Option (Option (List δ))}
    (hsel : ChosenMany x.dims moms axis dim ds) (keepdims axesToEnd : Bool) :
    ∃ y, reduceX core k x moms axis dim keepdims axesToEnd = .ok y ∧
      ShowsNamed y (dimsReduced x.dims ds moms keepdims axesToEnd)
        (fun d => if d ∈ ds then 1 else x.size d)
        (fun c => (k.reduceDataFromZero (recordsNamed core x moms ds c)).map
          (fun r => core.ent r (moms.map c))) := by
  obtain ⟨y, e, h1, h2, h3⟩ := reduceX_strong hc k g hm hsel keepdims axesToEnd
  exact ⟨y, e, h1, fun d hd => h2 d (by rw [h1]; exact hd), fun c _ => h3 c⟩

example : labEntries (reduceX core1 (kernel1 2) exLab [mom] none (some (some [obs])) false false)
    [[(mom, 0), (wid, 1)], [(mom, 1), (wid, 1)], [(mom, 2), (wid, 1)]]
    = some ([mom, wid], [3, 2], [some 3, some (11 / 3), some (11 / 9)]) := by decide +kernel

example := C57_reduce_data core1_ok (kernel1 2) exLab_reduce rfl (axis := none) (.inl ⟨rfl, rfl⟩)
  true false

/-- `axis=None` is refused by `reduce_data` when a moment dimension is not among the last ones. -/
theorem C57_reduce_axis_none (core : Nd.Core K M) (k : Kernel K V M) {x : DataArray δ K}
    {moms : List δ} (hx : x.dims.Nodup)
    (h : ∃ d ∈ x.dims.take (x.dims.length - moms.length), d ∈ moms) (keepdims axesToEnd : Bool) :
    reduceX core k x moms (some .all) none keepdims axesToEnd = .error .valueError := by
  unfold reduceX
  rw [(C57_select_many hx).2.2 h]
  rfl

example := C57_reduce_axis_none core1 (kernel1 (K := ℚ) 2) (x := exLab) (moms := [mom]) (by decide)
  (by decide) false false

/-- `cumulative` along a dimension. -/
theorem C57_cumulative {core : Nd.Core K M} (hc : core.Ok) (k : Kernel K V M) (inverse : Bool)
    {x : DataArray δ K} {moms : List δ} {d : δ} (g : GoodNamed x moms d)
    (hm : moms.length = core.nd) {axis : Option (Option AxisArg)} {dim : Option (Option δ)}
    (hsel : Chosen x.dims moms axis dim d) (axesToEnd : Bool) :
    ∃ y, cumulativeX core k inverse x moms axis dim axesToEnd = .ok y ∧
      ShowsNamed y (dimsAfter x.dims d moms axesToEnd) x.size (fun c =>
        (((if inverse then k.cumulativeInverse else k.cumulative)
          (recordsAlong core x moms d c)).bind (fun rows => rows[c d]?)).map
            (fun r => core.ent r (moms.map c))) := by
  unfold cumulativeX
  rw [selectAxisDim_ok g.distinct g.present g.notMom hsel]
  exact applyUfunc_same hc g hm (by simp) (R := fun rs p ms =>
    (((if inverse then k.cumulativeInverse else k.cumulative) rs).bind (fun rows => rows[p]?)).map
      (fun r => core.ent r ms))
    (fun a n ax mom size G P _ _ => Nd.cumulativeInner_spec hc k inverse P) axesToEnd

example : labEntries (cumulativeX core1 (kernel1 2) false exLab [mom] none (some (some obs)) true)
    [[(wid, 1), (obs, 0), (mom, 0)], [(wid, 1), (obs, 1), (mom, 0)], [(wid, 1), (obs, 1), (mom, 1)]]
    = some ([wid, obs, mom], [2, 2, 3], [some 1, some 3, some (11 / 3)]) := by decide +kernel

example := C57_cumulative core1_ok (kernel1 2) false exLab_good rfl (axis := none)
  (.inl ⟨rfl, rfl⟩) true
example := C57_cumulative core2_ok (kernel2 1 1) true exLab2_good rfl (dim := none)
  (.inr (.inl ⟨rfl, 1, rfl, by unfold InRange; decide, by decide⟩)) false

/-- `resample_data` along a dimension with a table without names: it has to be as wide as the
dimension is long; the replicates form a new dimension `rep`, in the place of the old one. -/
theorem C57_resample_data {core : Nd.Core K M} (hc : core.Ok) (k : Kernel K V M)
    (freq : List (List K)) (nsamp : ℕ) {x : DataArray δ K} {moms : List δ} {d rep : δ}
    (g : GoodNamed x moms d) (hrep : rep ∉ x.dims) (hm : moms.length = core.nd)
    {axis : Option (Option AxisArg)} {dim : Option (Option δ)}
    (hsel : Chosen x.dims moms axis dim d) (axesToEnd : Bool) :
    (nsamp ≠ x.size d →
      resampleX core k freq nsamp x moms axis dim rep axesToEnd = .error .valueError) ∧
    (nsamp = x.size d →
      ∃ y, resampleX core k freq nsamp x moms axis dim rep axesToEnd = .ok y ∧
        ShowsNamed y (renamed (dimsAfter x.dims d moms axesToEnd) d rep)
          (sizesWith x rep freq.length) (fun c =>
          ((k.resampleData freq (recordsAlong core x moms d c))[c rep]?).join.map
            (fun r => core.ent r (moms.map c)))) := by
  have hcore : ∀ e ∈ x.dims, (e ∉ ([] : List δ) ∧ e ∉ (d :: moms) ++ [rep, d] ++ (rep :: moms)) ↔
      e ∉ d :: moms := by
    intro e he
    have : e ≠ rep := fun h => hrep (h ▸ he)
    simp only [List.not_mem_nil, not_false_eq_true, true_and, List.mem_append, List.mem_cons]
    tauto
  unfold resampleX
  rw [selectAxisDim_ok g.distinct g.present g.notMom hsel]
  simp only [Except.bind]
  refine ⟨fun h => ?_, fun h => ?_⟩
  · rw [applyUfunc_fails g hm hcore (e := .valueError) (fun a n ax mom size G P hs _ =>
      (Nd.resampleInner_spec hc k freq nsamp P).1 (by rw [hs]; exact h))]
  · obtain ⟨y, e, hy⟩ := applyUfunc_rows (newSize := freq.length) hc g hm hcore (.inr hrep)
      (fun h => absurd (show rep ∈ x.dims by rw [h]; exact g.present) hrep)
      (R := fun rs p ms => (((k.resampleData freq rs)[p]?).join).map (fun r => core.ent r ms))
      (fun a n ax mom size G P hs _ => (Nd.resampleInner_spec hc k freq nsamp P).2
        (by rw [hs]; exact h))
    rw [e]
    simp only
    have hren : renamed (x.dims.filter (fun e => decide (e ∉ d :: moms)) ++ d :: moms) d rep
        = x.dims.filter (fun e => decide (e ∉ d :: moms)) ++ rep :: moms := by
      unfold renamed
      rw [List.map_append, List.map_cons, if_pos rfl]
      congr 1
      · refine (List.map_congr_left fun e he => ?_).trans (List.map_id _)
        have h2 := (List.mem_filter.1 he).2
        rw [decide_eq_true_iff, List.mem_cons, not_or] at h2
        rw [if_neg h2.1]; rfl
      · congr 1
        refine (List.map_congr_left fun e he => ?_).trans (List.map_id _)
        have hne : e ≠ d := fun h => g.notMom (h ▸ he)
        rw [if_neg hne]; rfl
    cases axesToEnd with
    | true =>
      refine ⟨y, rfl, ?_⟩
      unfold dimsAfter
      rw [if_pos rfl, hren]
      exact hy
    | false =>
      obtain ⟨z, e1, v1, d1⟩ := C47_resample_data x.dims d rep moms g.distinct g.momDistinct
        g.present g.momPresent g.notMom hrep false y.toArr (by
          rw [hy.dims_eq]
          unfold applyUfuncDims
          have : [rep, d].filter (fun e => decide (e ∉ [rep, d])) = [] := by
            rw [List.filter_eq_nil_iff]; intro e he; simpa [or_iff_not_imp_left] using he
          simp only [List.zip_cons_cons, List.zip_nil_right, List.flatMap_cons, List.flatMap_nil,
            this, List.append_nil]
          rw [List.dedup_eq_self.2 (List.nodup_reverse.2 (g.distinct.filter _)),
            List.reverse_reverse])
      refine step_shows hy e1 v1 d1 fun e => ?_
      rw [← hren]
      simp only [renamed, dimsAfter, List.mem_map, Bool.false_eq_true, if_false]
      simp only [mem_filter_append g.core]

example : labEntries (resampleX core1 (kernel1 2) [[2, 0], [1, 1], [0, 2]] 2 exLab [mom] none
    (some (some obs)) rep false)
    [[(mom, 0), (rep, 0), (wid, 1)], [(mom, 1), (rep, 1), (wid, 1)], [(mom, 2), (rep, 1), (wid, 1)]]
    = some ([mom, rep, wid], [3, 3, 2], [some 2, some (11 / 3), some (11 / 9)]) := by decide +kernel

example := (C57_resample_data core1_ok (kernel1 2) [[2, 0], [1, 1], [0, 2]] 2 exLab_good
  (rep := rep) (by decide) rfl (axis := none) (.inl ⟨rfl, rfl⟩) false).2 rfl

/-- `reduce_data_grouped` along a dimension: there has to be one label per sample, at least one
label, and not all of them below `-1`; `group_dim` renames the dimension. -/
theorem C57_grouped {core : Nd.Core K M} (hc : core.Ok) (k : Kernel K V M) (by_ : List ℤ)
    {x : DataArray δ K} {moms : List δ} {d : δ} (g : GoodNamed x moms d)
    (hm : moms.length = core.nd) {axis : Option (Option AxisArg)} {dim : Option (Option δ)}
    (hsel : Chosen x.dims moms axis dim d) (group : Option δ)
    (hgr : ∀ n, group = some n → n = d ∨ n ∉ x.dims) (axesToEnd : Bool) :
    ((by_.length ≠ x.size d ∨ ∀ m, by_.max? = some m → m < -1) →
      groupedX core k by_ x moms axis dim group axesToEnd = .error .valueError) ∧
    (∀ m, by_.length = x.size d → by_.max? = some m → -1 ≤ m →
      ∃ y, groupedX core k by_ x moms axis dim group axesToEnd = .ok y ∧
        ShowsNamed y (renamed (dimsAfter x.dims d moms axesToEnd) d (group.getD d))
          (sizesWith x (group.getD d) (m + 1).toNat) (fun c =>
          (match k.reduceDataGrouped (recordsAlong core x moms d c) by_ none with
            | .ok rows => (rows[c (group.getD d)]?).join
            | .error _ => none).map (fun r => core.ent r (moms.map c)))) := by
  unfold groupedX
  rw [selectAxisDim_ok g.distinct g.present g.notMom hsel]
  simp only [Except.bind]
  refine ⟨fun h => ?_, fun m h1 h2 h3 => ?_⟩
  · rw [applyUfunc_fails g hm (hcore_same x d moms (fun _ h => List.mem_singleton.1 h) (fun _ h => List.mem_singleton.1 h)) (e := .valueError)
      (fun a n ax mom size G P hs _ => by
        unfold Nd.groupedInner
        rw [P.size, hs]
        rcases h with h | h
        · rw [if_pos h]
        · split_ifs
          · rfl
          · cases hmx : by_.max? with
            | none => rfl
            | some m =>
              have := h m hmx
              simp only
              rw [if_pos (by omega)])]
  · exact applyUfunc_resized hc g hm (fun _ h => List.mem_singleton.1 h) (R := fun rs p ms =>
      (match k.reduceDataGrouped rs by_ none with
            | .ok rows => (rows[p]?).join
            | .error _ => none).map (fun r => core.ent r ms))
      (fun a n ax mom size G P hs _ => (Nd.groupedInner_spec hc k by_ P).1 m (by rw [hs]; exact h1)
        h2 h3) axesToEnd group hgr

example : labEntries (groupedX core1 (kernel1 2) [1, -1] exLab [mom] none (some (some obs))
    (some rep) false)
    [[(mom, 0), (rep, 0), (wid, 1)], [(mom, 0), (rep, 1), (wid, 1)], [(mom, 1), (rep, 1), (wid, 1)]]
    = some ([mom, rep, wid], [3, 2, 2], [some 0, some 1, some 3]) := by decide +kernel

example := (C57_grouped core1_ok (kernel1 2) [1, -1] exLab_good rfl (axis := none)
  (.inl ⟨rfl, rfl⟩) (some rep) (by intro n h; cases h; decide) true).2 1 rfl rfl (by decide)

/-- `reduce_data_indexed` along a dimension: the index arrays have to be valid for its length and
the scale as long as the index. -/
theorem C57_indexed {core : Nd.Core K M} (hc : core.Ok) (k : Kernel K V M)
    (index start stop : List ℤ) (scale : Option (List K))
    {x : DataArray δ K} {moms : List δ} {d : δ} (g : GoodNamed x moms d)
    (hm : moms.length = core.nd) {axis : Option (Option AxisArg)} {dim : Option (Option δ)}
    (hsel : Chosen x.dims moms axis dim d) (group : Option δ)
    (hgr : ∀ n, group = some n → n = d ∨ n ∉ x.dims) (axesToEnd : Bool) :
    ((Indexed.validateIndex (x.size d) index start stop ≠ .ok () ∨
        ∃ sc, scale = some sc ∧ sc.length ≠ index.length) →
      indexedX core k index start stop scale x moms axis dim group axesToEnd = .error .valueError) ∧
    (Indexed.validateIndex (x.size d) index start stop = .ok () →
      (∀ sc, scale = some sc → sc.length = index.length) →
      ∃ y, indexedX core k index start stop scale x moms axis dim group axesToEnd = .ok y ∧
        ShowsNamed y (renamed (dimsAfter x.dims d moms axesToEnd) d (group.getD d))
          (sizesWith x (group.getD d) start.length) (fun c =>
          (match Indexed.reduceDataIndexed k (recordsAlong core x moms d c) index start stop scale with
            | .ok rows => (rows[c (group.getD d)]?).join
            | .error _ => none).map (fun r => core.ent r (moms.map c)))) := by
  unfold indexedX
  rw [selectAxisDim_ok g.distinct g.present g.notMom hsel]
  simp only [Except.bind]
  refine ⟨fun h => ?_, fun hv hsc => ?_⟩
  · cases hv : Indexed.validateIndex (x.size d) index start stop with
    | error e => rw [Nd.validateIndex_error hv]
    | ok u =>
      rcases h with h | h
      · exact absurd hv h
      · simp only
        rw [applyUfunc_fails g hm (hcore_same x d moms (fun _ h => absurd h List.not_mem_nil) (fun _ h => List.mem_singleton.1 h)) (e := .valueError)
          (fun a n ax mom size G P hs _ =>
            (Nd.indexedInner_spec hc k index start stop scale P).2 h)]
  · rw [hv]
    exact applyUfunc_resized hc g hm (fun _ h => absurd h List.not_mem_nil) (R := fun rs p ms =>
      (match Indexed.reduceDataIndexed k rs index start stop scale with
            | .ok rows => (rows[p]?).join
            | .error _ => none).map (fun r => core.ent r ms))
      (fun a n ax mom size G P hs _ => (Nd.indexedInner_spec hc k index start stop scale P).1
        (by rw [hs]; exact hv) hsc) axesToEnd group hgr

example : labEntries (indexedX core1 (kernel1 2) [1, 0, 1] [0, 1, 1] [1, 3, 1] none exLab [mom] none
    (some (some obs)) none true)
    [[(wid, 1), (obs, 0), (mom, 0)], [(wid, 1), (obs, 1), (mom, 1)], [(wid, 1), (obs, 2), (mom, 0)]]
    = some ([wid, obs, mom], [2, 3, 3], [some 2, some (11 / 3), some 0]) := by decide +kernel

example := (C57_indexed core1_ok (kernel1 2) [1, 0, 1] [0, 1, 1] [1, 3, 1] none exLab_good rfl
  (axis := none) (.inl ⟨rfl, rfl⟩) (some rep) (by intro n h; cases h; decide) true).2 (by decide)
  (by simp)

theorem chosenMany_of_chosen {dims moms : List δ} {axis : Option (Option AxisArg)}
    {dim : Option (Option δ)} {d : δ} (h : Chosen dims moms axis dim d) :
    ChosenMany dims moms (oneAxis axis) (oneDim dim) [d] := by
  rcases h with ⟨rfl, rfl⟩ | ⟨rfl, z, rfl, hr, hz⟩ | ⟨rfl, re, z, rfl, hle, hr, hz⟩
  · exact .inl ⟨rfl, rfl⟩
  · exact .inr (.inr (.inr (.inl ⟨rfl, z, rfl, hr, d, rfl, hz⟩)))
  · exact .inr (.inr (.inr (.inr ⟨rfl, re, z, rfl, hle, hr, d, rfl, hz⟩)))

/-- `jackknife_data` along a dimension (no other dimension may be empty); `rep` renames it. -/
theorem C57_jackknife_data {core : Nd.Core K M} (hc : core.Ok) (k : Kernel K V M)
    {x : DataArray δ K} {moms : List δ} {d : δ} (g : GoodNamed x moms d)
    (hne : ∀ e ∈ x.dims, e ≠ d → x.size e ≠ 0)
    (hm : moms.length = core.nd) {axis : Option (Option AxisArg)} {dim : Option (Option δ)}
    (hsel : Chosen x.dims moms axis dim d) (rep : Option δ)
    (hrep : ∀ n, rep = some n → n = d ∨ n ∉ x.dims) (axesToEnd : Bool) :
    ∃ y, jackknifeX core k x moms axis dim rep axesToEnd = .ok y ∧
      ShowsNamed y (renamed (dimsAfter x.dims d moms axesToEnd) d (rep.getD d))
        (sizesWith x (rep.getD d) (x.size d)) (fun c =>
        ((k.jackknifeData (recordsAlong core x moms d c)).bind
          (fun rows => (rows[c (rep.getD d)]?).join)).map (fun r => core.ent r (moms.map c))) := by
  have gr : GoodReduce x moms [d] :=
    { distinct := g.distinct
      momDistinct := g.momDistinct
      momPresent := g.momPresent
      dsDistinct := List.nodup_singleton d
      present := by simpa using g.present
      notMom := by simpa using g.notMom
      some_dim := by simp
      nonempty := fun e he h => hne e he (by simpa using h) }
  obtain ⟨red, e1, hrd, hrs, hre⟩ := reduceX_strong hc k gr hm (chosenMany_of_chosen hsel) false true
  have hrd' : red.dims = x.dims.filter (fun e => decide (e ∉ d :: moms)) ++ moms := by
    rw [hrd]
    simp only [dimsReduced, List.singleton_append]
  have hdr : d ∉ red.dims := by
    rw [hrd']
    intro hd
    rcases List.mem_append.1 hd with hd | hd
    · simpa using (List.mem_filter.1 hd).2
    · exact g.notMom hd
  obtain ⟨y, e2, hy⟩ := jackknife_apply hc k g hm hrd'
    (fun e he => by
      rw [hrs e he, if_neg]
      intro h
      rw [List.mem_singleton] at h
      exact hdr (h ▸ he))
    (fun c => by rw [hre c, recordsNamed_one])
  obtain ⟨w, e3, hw⟩ := sameDims_shows g hy axesToEnd
  unfold jackknifeX
  rw [e1]
  simp only [Except.bind]
  rw [selectAxisDim_ok g.distinct g.present g.notMom hsel]
  simp only
  rw [e2]
  simp only
  rw [e3]
  simp only
  refine rename_end g (newSize := x.size d) (R := fun rs p ms => ((k.jackknifeData rs).bind
    (fun rows => (rows[p]?).join)).map (fun r => core.ent r ms)) (showsNamed_sizes hw ?_) rep hrep
  intro e _
  by_cases he : e = d
  · rw [if_pos he, he]
  · rw [if_neg he]

example : labEntries (jackknifeX core1 (kernel1 2) exLab [mom] none (some (some obs)) (some rep) true)
    [[(wid, 1), (rep, 0), (mom, 0)], [(wid, 1), (rep, 0), (mom, 1)], [(wid, 1), (rep, 1), (mom, 0)]]
    = some ([wid, rep, mom], [2, 2, 3], [some 2, some 4, some 1]) := by decide +kernel

example := C57_jackknife_data core1_ok (kernel1 2) exLab_good (by decide) rfl (axis := none)
  (.inl ⟨rfl, rfl⟩) (some rep) (by intro n h; cases h; decide) true

/-- `moments_type`: every record is converted on its own, and with `axes_to_end=False` nothing moves;
an explicit memory order is never refused, unlike for arrays without names (C55). -/
theorem C57_moments_type {core : Nd.Core K M} (hc : core.Ok) (conv : M → M) (orderCF : Bool)
    {x : DataArray δ K} {moms : List δ} (hx : x.dims.Nodup) (hmn : moms.Nodup)
    (hmp : ∀ d ∈ moms, d ∈ x.dims) (hm : moms.length = core.nd) (axesToEnd : Bool) :
    ∃ y, momentsTypeX core conv orderCF x moms axesToEnd = .ok y ∧
      ShowsNamed y (if axesToEnd then x.dims.filter (fun d => decide (d ∉ moms)) ++ moms else x.dims)
        x.size (fun c => core.ent (conv (recordNamed core x moms c)) (moms.map c)) :=
  momentsTypeX_spec hc conv orderCF hx hmn hmp hm axesToEnd

example : labEntries (momentsTypeX core1
    (fun c : Mom ℚ => Cmomy.Convert.centralToRaw 2 c (fun _ => 0)) true exLab [mom] true)
    [[(wid, 1), (obs, 1), (mom, 0)], [(wid, 1), (obs, 1), (mom, 1)], [(wid, 1), (obs, 1), (mom, 2)]]
    = some ([obs, wid, mom], [2, 2, 3], [2, 4, 17]) := by decide +kernel

example := C57_moments_type core1_ok (fun c : Mom ℚ => Cmomy.Convert.centralToRaw 2 c (fun _ => 0)) true
  exLab_good.distinct exLab_good.momDistinct exLab_good.momPresent rfl true

/-! ### The order of the dimensions does not matter -/

/-- The records along a dimension, and those over several, are the same for two arrays that differ in
the order of their dimensions only. By the theorems above, so are the entries of all results. -/
theorem C57_order {core : Nd.Core K M} {x y : DataArray δ K} (h : SameArray x y) (moms : List δ) :
    (∀ d ∈ x.dims, ∀ c, recordsAlong core x moms d c = recordsAlong core y moms d c) ∧
    (∀ ds, (∀ d ∈ ds, d ∈ x.dims) → ∀ c, recordsNamed core x moms ds c = recordsNamed core y moms ds c)
    := by
  have hr : ∀ c, recordNamed core x moms c = recordNamed core y moms c := by
    intro c
    unfold recordNamed
    simp only [h.entry_eq]
  refine ⟨fun d hd c => ?_, fun ds hds c => ?_⟩
  · unfold recordsAlong
    rw [h.size_eq d hd]
    simp only [hr]
  · have hall : ∀ ds c, (∀ d ∈ ds, d ∈ x.dims) → allCoords x.size ds c = allCoords y.size ds c := by
      intro ds
      induction ds with
      | nil => intro c _; rfl
      | cons d l ih =>
        intro c hl
        unfold allCoords
        rw [h.size_eq d (hl d List.mem_cons_self)]
        simp only [ih _ fun e he => hl e (List.mem_cons_of_mem _ he)]
    unfold recordsNamed
    rw [hall ds c hds]
    exact List.map_congr_left fun c _ => hr c

/-- For instance `reduce_data`: two arrays that differ in the order of their dimensions only give
results with the same entries and sizes at the same names. -/
theorem C57_order_reduce {core : Nd.Core K M} (hc : core.Ok) (k : Kernel K V M) {x x' : DataArray δ K}
    {moms ds : List δ} (h : SameArray x x') (g : GoodReduce x moms ds) (hm : moms.length = core.nd)
    (keepdims axesToEnd : Bool) :
    ∃ y y', reduceX core k x moms none (some (some ds)) keepdims axesToEnd = .ok y ∧
      reduceX core k x' moms none (some (some ds)) keepdims axesToEnd = .ok y' ∧ SameArray y y' := by
  have hmem : ∀ d, d ∈ x'.dims ↔ d ∈ x.dims := fun d => h.dims_perm.mem_iff.symm
  have g' : GoodReduce x' moms ds :=
    { distinct := h.dims_perm.nodup_iff.1 g.distinct
      momDistinct := g.momDistinct
      momPresent := fun d hd => (hmem d).2 (g.momPresent d hd)
      dsDistinct := g.dsDistinct
      present := fun d hd => (hmem d).2 (g.present d hd)
      notMom := g.notMom
      some_dim := g.some_dim
      nonempty := fun d hd hn => by
        rw [← h.size_eq d ((hmem d).1 hd)]
        exact g.nonempty d ((hmem d).1 hd) hn }
  obtain ⟨y, e, h1, h2, h3⟩ := reduceX_strong hc k g hm (.inl ⟨rfl, rfl⟩) keepdims axesToEnd
  obtain ⟨y', e', h1', h2', h3'⟩ := reduceX_strong hc k g' hm (.inl ⟨rfl, rfl⟩) keepdims axesToEnd
  have hperm : y.dims.Perm y'.dims := by
    rw [h1, h1']
    cases keepdims <;> cases axesToEnd <;> simp only [dimsReduced]
    · exact h.dims_perm.filter _
    · exact (h.dims_perm.filter _).append_right _
    · exact h.dims_perm
    · exact (h.dims_perm.filter _).append_right _
  have hyx : ∀ d ∈ y.dims, d ∈ x.dims := by
    rw [h1]
    intro d hd
    cases keepdims <;> cases axesToEnd <;> simp only [dimsReduced, List.mem_append] at hd
    · exact (List.mem_filter.1 hd).1
    · exact hd.elim (fun h => (List.mem_filter.1 h).1) (g.momPresent d)
    · exact hd
    · exact hd.elim (fun h => (List.mem_filter.1 h).1)
        (fun h => h.elim (g.present d) (g.momPresent d))
  refine ⟨y, y', e, e', hperm, fun d hd => ?_, fun c => ?_⟩
  · rw [h2 d hd, h2' d (hperm.mem_iff.1 hd), h.size_eq d (hyx d hd)]
  · rw [h3, h3', (C57_order h moms).2 ds g.present c]

/-- The example stored in another order. -/
def exLabMoved : DataArray ExName ℚ where
  dims := [wid, obs, mom]
  data idx := exLab.data idx.reverse
  size := exLab.size

example := C57_order_reduce core1_ok (kernel1 2) (x := exLab) (x' := exLabMoved)
  ⟨by decide, fun _ _ => rfl, fun _ => rfl⟩ exLab_reduce rfl false true

end

section Ordered

variable {K V M : Type} [Field K] [LinearOrder K] [IsStrictOrderedRing K]

/-- `rolling_data` along a dimension. -/
theorem C57_rolling_data {core : Nd.Core K M} (hc : core.Ok) (k : Kernel K V M)
    (hz : core.recd (fun _ => 0) = k.zero) (window : ℕ) (minPeriods : Option ℤ)
    (center zeroMissing : Bool) {x : DataArray δ K} {moms : List δ} {d : δ}
    (g : GoodNamed x moms d) (hm : moms.length = core.nd) {axis : Option (Option AxisArg)}
    {dim : Option (Option δ)} (hsel : Chosen x.dims moms axis dim d) (axesToEnd : Bool) :
    ∃ y, rollingX core k window minPeriods center zeroMissing x moms axis dim axesToEnd = .ok y ∧
      ShowsNamed y (dimsAfter x.dims d moms axesToEnd) x.size (fun c =>
        let row := ((k.rollingData window minPeriods center (recordsAlong core x moms d c)).bind
          (fun rows => (rows[c d]?).join)).map (fun r => core.ent r (moms.map c))
        if zeroMissing = true ∧ (∀ v ∈ moms.map c, v = 0) ∧ row = none then some 0 else row) := by
  unfold rollingX
  rw [selectAxisDim_ok g.distinct g.present g.notMom hsel]
  exact applyUfunc_same hc g hm (by simp) (R := fun rs p ms =>
    let row := ((k.rollingData window minPeriods center rs).bind
          (fun rows => (rows[p]?).join)).map (fun r => core.ent r ms)
    if zeroMissing = true ∧ (∀ v ∈ ms, v = 0) ∧ row = none then some 0 else row)
    (fun a n ax mom size G P _ hax => by
      obtain ⟨out, h1, h2⟩ := Nd.rollingInner_spec hc k hz window minPeriods center zeroMissing P hax
      refine ⟨out, h1, h2.1, fun i hi => ?_⟩
      rw [h2.2 i hi]
      simp only [List.forall_mem_map]) axesToEnd

example : labEntries (rollingX core1 (kernel1 2) 2 none false true exLab [mom] none
    (some (some obs)) false)
    [[(mom, 0), (obs, 0), (wid, 1)], [(mom, 0), (obs, 1), (wid, 1)], [(mom, 1), (obs, 1), (wid, 1)]]
    = some ([mom, obs, wid], [3, 2, 2], [some 0, some 3, some (11 / 3)]) := by decide +kernel

example := C57_rolling_data core1_ok (kernel1 2) rfl 2 none true false exLab_good rfl (axis := none)
  (.inl ⟨rfl, rfl⟩) false

/-- `rolling_exp_data` with a labelled `alpha` whose dimensions are dimensions of the data other
than moment dimensions, in any order, the sample dimension among them. -/
theorem C57_rolling_exp_data {core : Nd.Core K M} (hc : core.Ok) (k : Kernel K V M)
    {alpha : DataArray δ K} (adjust : Bool) (minPeriods : Option ℤ) (zeroMissing : Bool)
    {x : DataArray δ K} {moms : List δ} {d : δ} (g : GoodNamed x moms d)
    (han : alpha.dims.Nodup) (hax : ∀ e ∈ alpha.dims, e ∈ x.dims) (ham : ∀ e ∈ alpha.dims, e ∉ moms)
    (had : d ∈ alpha.dims) (has : ∀ e ∈ alpha.dims, alpha.size e = x.size e)
    (hm : moms.length = core.nd) {axis : Option (Option AxisArg)}
    {dim : Option (Option δ)} (hsel : Chosen x.dims moms axis dim d) (axesToEnd : Bool) :
    ∃ y, rollingExpX core k alpha adjust minPeriods zeroMissing x moms axis dim axesToEnd = .ok y ∧
      ShowsNamed y (dimsAfter x.dims d moms axesToEnd) x.size (fun c =>
        let row := ((k.rollingExpData adjust minPeriods
          ((List.range (x.size d)).map (fun s => entry alpha (Function.update c d s)))
          (recordsAlong core x moms d c)).bind
          (fun rows => (rows[c d]?).join)).map (fun r => core.ent r (moms.map c))
        if zeroMissing = true ∧ (∀ v ∈ moms.map c, v = 0) ∧ row = none then some 0 else row) := by
  obtain ⟨y, e, hy⟩ := rollingExp_apply hc k g hm han hax ham had has adjust minPeriods zeroMissing
  obtain ⟨w, e', hw⟩ := sameDims_shows g hy axesToEnd
  unfold rollingExpX
  rw [selectAxisDim_ok g.distinct g.present g.notMom hsel]
  simp only [Except.bind]
  rw [e]
  exact ⟨w, e', hw⟩

/-- Weights for the example: the two dimensions in the other order. -/
def exLabAlpha : DataArray ExName ℚ where
  dims := [wid, obs]
  data idx := match idx with
    | [c, s] => 1 / (2 + c + s)
    | _ => 0
  size _ := 2

example : labEntries (rollingExpX core1 (kernel1 2) exLabAlpha true none false exLab [mom] none
    (some (some obs)) false)
    [[(mom, 1), (obs, 0), (wid, 1)], [(mom, 1), (obs, 1), (wid, 1)]]
    = some ([mom, obs, wid], [3, 2, 2], [some 3, some (41 / 11)]) := by decide +kernel

example := C57_rolling_exp_data core1_ok (kernel1 2) (alpha := exLabAlpha) true none false exLab_good
  (by decide) (by decide) (by decide) (by decide) (by decide) rfl (axis := none) (.inl ⟨rfl, rfl⟩)
  false

/-- `rolling_exp_data` with one number for all samples, or a list with one per sample, which has to
be as long as the dimension. -/
theorem C57_rolling_exp_plain {core : Nd.Core K M} (hc : core.Ok) (k : Kernel K V M)
    (alpha : K ⊕ List K) (adjust : Bool) (minPeriods : Option ℤ) (zeroMissing : Bool)
    {x : DataArray δ K} {moms : List δ} {d : δ} (g : GoodNamed x moms d)
    (hm : moms.length = core.nd) {axis : Option (Option AxisArg)}
    {dim : Option (Option δ)} (hsel : Chosen x.dims moms axis dim d) (axesToEnd : Bool) :
    (∀ l, alpha = .inr l → l.length ≠ x.size d →
      rollingExpPlainX core k alpha adjust minPeriods zeroMissing x moms axis dim axesToEnd
        = .error .valueError) ∧
    ((∀ l, alpha = .inr l → l.length = x.size d) →
    ∃ y, rollingExpPlainX core k alpha adjust minPeriods zeroMissing x moms axis dim axesToEnd
        = .ok y ∧
      ShowsNamed y (dimsAfter x.dims d moms axesToEnd) x.size (fun c =>
        let row := ((k.rollingExpData adjust minPeriods
          (alpha.elim (fun a => List.replicate (x.size d) a) id)
          (recordsAlong core x moms d c)).bind
          (fun rows => (rows[c d]?).join)).map (fun r => core.ent r (moms.map c))
        if zeroMissing = true ∧ (∀ v ∈ moms.map c, v = 0) ∧ row = none then some 0 else row)) := by
  unfold rollingExpPlainX
  rw [selectAxisDim_ok g.distinct g.present g.notMom hsel]
  simp only [Except.bind]
  have h1d : InRange 1 (-1) := by unfold InRange; omega
  have hw : wrap 1 (-1) = 0 := by decide
  have hk1 : keptAxes 1 [0] = [] := by decide
  refine ⟨fun l hl hne => ?_, fun hall => ?_⟩
  · subst hl
    simp only
    rw [applyUfunc_fails g hm (hcore_same x d moms (fun _ h => List.mem_singleton.1 h) (fun _ h => absurd h List.not_mem_nil)) (e := .valueError)
      (fun a n ax mom size G P hs _ => by
        refine (Nd.rollingExpInner_spec hc k adjust minPeriods zeroMissing P
          (al := ⟨[l.length], fun i => l.getD (i 0) 0⟩) (cz := -1) h1d).1 ?_
        rw [hs]
        exact hne)]
  · have key : ∀ (al : Nd.Arr K) (as : List K), al.shape = [x.size d] →
        (∀ s < x.size d, al.get (fun ax => if ax ∈ [0] then [s].getD ([0].idxOf ax) 0 else
          if axisSize al ax = 1 then 0 else 0) = as.getD s 0) → as.length = x.size d →
        ∃ y, (Except.bind (applyUfunc x (d :: moms) [d] (d :: moms) [] (fun a =>
            Nd.rollingExpInner core k al (-1) adjust minPeriods zeroMissing a (axisBefore core.nd)
              (Nd.axesLast core.nd))) fun y =>
            y.step (fun z => sameDims z x.dims d moms axesToEnd false)) = .ok y ∧
          ShowsNamed y (dimsAfter x.dims d moms axesToEnd) x.size (fun c =>
        let row := ((k.rollingExpData adjust minPeriods as
          (recordsAlong core x moms d c)).bind
          (fun rows => (rows[c d]?).join)).map (fun r => core.ent r (moms.map c))
        if zeroMissing = true ∧ (∀ v ∈ moms.map c, v = 0) ∧ row = none then some 0 else row) := by
      intro al as hsh hget hlen
      refine applyUfunc_same hc g hm (by simp) (R := fun rs p ms =>
        let row := ((k.rollingExpData adjust minPeriods as rs).bind
          (fun rows => (rows[p]?).join)).map (fun r => core.ent r ms)
        if zeroMissing = true ∧ (∀ v ∈ ms, v = 0) ∧ row = none then some 0 else row)
        (fun a n ax mom size G P hs _ => ?_) axesToEnd
      have hl1 : al.shape.length = 1 := by rw [hsh]; rfl
      obtain ⟨out, h1, h2⟩ := (Nd.rollingExpInner_spec hc k adjust minPeriods zeroMissing P
        (al := al) (cz := -1) (by rw [hl1]; exact h1d)).2
        (by rw [hl1, hw, hs]; unfold axisSize; rw [hsh]; rfl)
        ⟨_, [], (List.append_nil _).symm, by rw [hl1, hw, hk1]; exact List.Forall₂.nil⟩
      refine ⟨out, h1, h2.1, fun i hi => ?_⟩
      rw [h2.2 i hi]
      have hmat : (List.range (size ax)).map (fun s => matched al [wrap al.shape.length (-1)]
          (keptAxes n (ax :: mom)) i [s]) = as := by
        rw [hs]
        refine List.ext_getElem (by simp [hlen]) fun p h1 h2 => ?_
        have hp : p < x.size d := by simpa using h1
        rw [List.getElem_map, List.getElem_range]
        unfold matched
        rw [hl1, hw, hk1]
        have := hget p hp
        rw [List.getD_eq_getElem _ _ h2] at this
        rw [← this]
        congr 1
        funext q
        by_cases hq : q ∈ [0]
        · rw [if_pos hq, if_pos hq]
        · rw [if_neg hq, if_neg hq]
          simp
      simp only [hmat, List.forall_mem_map]
    cases alpha with
    | inl a =>
      refine key _ _ rfl (fun s hs => ?_) (by simp)
      simp [List.getD_eq_getElem?_getD, hs]
    | inr l =>
      refine key _ _ (by simp [hall l rfl]) (fun s hs => ?_) (by simpa using hall l rfl)
      simp

example : labEntries (rollingExpPlainX core1 (kernel1 2) (.inr [1 / 3, 1 / 4]) true none false exLab
    [mom] none (some (some obs)) false)
    [[(mom, 1), (obs, 0), (wid, 1)], [(mom, 1), (obs, 1), (wid, 1)]]
    = some ([mom, obs, wid], [3, 2, 2], [some 3, some (41 / 11)]) := by decide +kernel

example := (C57_rolling_exp_plain core1_ok (kernel1 2) (.inl (1 / 2 : ℚ)) true none false exLab_good
  rfl (axis := none) (.inl ⟨rfl, rfl⟩) false).2 (by simp)

end Ordered

end Cmomy
