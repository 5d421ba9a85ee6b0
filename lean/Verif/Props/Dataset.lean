import Verif.Lemmas.Dataset
import Verif.Props.Labelled

/-!
# C73: data sets of moments

Every variable of a data set that has the sample dimension and the moment dimensions becomes what the
operation gives for it alone; the others are handed back.
-/

set_option linter.unusedSectionVars false

namespace Cmomy

open Spec Axes Labelled ExName
open Nd (core1 core2 core1_ok core2_ok)

variable {ν δ : Type} [DecidableEq ν] [DecidableEq δ]

/-! ### The data of the examples -/

/-- A variable without the moment dimension. -/
def exPlain : DataArray ExName ℚ where
  dims := [wid, obs]
  data idx := match idx with
    | [a, b] => 10 * a + b
    | _ => 0
  size _ := 2

/-- A variable with the moment dimension but without the samples. -/
def exMean : DataArray ExName ℚ where
  dims := [mom, wid]
  data idx := match idx with
    | [a, b] => 10 * a + b + 1
    | _ => 0
  size d := match d with
    | mom => 3
    | _ => 2

/-- Two variables with samples of moments, one with neither, and one without samples. -/
def exDs : List (ℕ × DataArray ExName ℚ) := [(0, exLab), (1, exPlain), (2, exMean), (3, exLab)]

theorem exDs_good : GoodDataset exDs where
  names := by decide
  distinct := by decide
  sizes := by decide

/-- Dimensions, sizes and some entries of a variable of a result. -/
def dsEntries {α : Type} (r : Py (List (ℕ × DataArray ExName α))) (name : ℕ)
    (cs : List (List (ExName × ℕ))) : Option (List ExName × List ℕ × List α) :=
  match r with
  | .ok out => (out.lookup name).bind fun y => labEntries (.ok y) cs
  | .error _ => none

section Field

variable {K V M : Type} [Field K] [DecidableEq K] [CharZero K]

/-! ### The dimension is kept -/

/-- `cumulative` of a data set. -/
theorem C73_cumulative {core : Nd.Core K M} (hc : core.Ok) (k : Kernel K V M) (inverse : Bool)
    {ds : List (ν × DataArray δ K)} (g : GoodDataset ds) {dim : δ} {moms : List δ}
    (hL : (dim :: moms).Nodup) (hm : moms.length = core.nd) (axesToEnd : Bool) :
    ∃ out, cumulativeDs core k inverse ds moms none (some (some dim)) axesToEnd = .ok out ∧
      EachVariable (OnItsOwn (dim :: moms)
        (fun _ x => cumulativeX core k inverse x moms none (some (some dim)) axesToEnd)
        (fun x y => CopyOf some x (copyDims x.dims dim moms axesToEnd) y)) ds out := by
  unfold cumulativeDs
  rw [(C57_select_dataset _ _ _ (0, dim)).2 ⟨rfl, rfl, (List.nodup_cons.1 hL).1, rfl⟩]
  refine (each_dataset g hL (S := commonSize ds)
    (single := fun _ x ate => cumulativeX core k inverse x moms none (some (some dim)) ate)
    (fun v hv hh ate => ?_) (fun v hv hh => ?_)
    (fun v hv _ d hd => (commonSize_eq g hv hd).symm) axesToEnd).1
  · have gn := goodNamed_of g hL hv hh
    unfold cumulativeX
    rw [selectAxisDim_ok gn.distinct gn.present gn.notMom (.inl ⟨rfl, rfl⟩)]
    rfl
  · obtain ⟨y, e, hy⟩ := C57_cumulative hc k inverse (goodNamed_of g hL hv hh) hm (axis := none)
      (.inl ⟨rfl, rfl⟩) true
    exact ⟨y, _, _, e, hy, fun d hd => (commonSize_eq g hv hd).symm⟩

example : dsEntries (cumulativeDs core1 (kernel1 2) false exDs [mom] none (some (some obs)) true) 0
    [[(wid, 1), (obs, 0), (mom, 0)], [(wid, 1), (obs, 1), (mom, 0)], [(wid, 1), (obs, 1), (mom, 1)]]
    = some ([wid, obs, mom], [2, 2, 3], [some 1, some 3, some (11 / 3)]) := by decide +kernel
example : dsEntries (cumulativeDs core1 (kernel1 2) false exDs [mom] none (some (some obs)) true) 2
    [[(wid, 1), (mom, 2)]] = some ([wid, mom], [2, 3], [some 22]) := by decide +kernel

example := C73_cumulative core1_ok (kernel1 2) false exDs_good (dim := obs) (moms := [mom]) (by decide)
  rfl true

/-- A dimension no variable has: `cumulative` hands the data set back. -/
theorem C73_unknown_dim {core : Nd.Core K M} (hc : core.Ok) (k : Kernel K V M) (inverse : Bool)
    {ds : List (ν × DataArray δ K)} (g : GoodDataset ds) {dim : δ} {moms : List δ}
    (hL : (dim :: moms).Nodup) (hm : moms.length = core.nd) (hno : ∀ v ∈ ds, dim ∉ v.2.dims) :
    ∃ out, cumulativeDs core k inverse ds moms none (some (some dim)) false = .ok out ∧
      EachVariable (fun _ x y => CopyOf some x x.dims y) ds out := by
  obtain ⟨out, e, h⟩ := C73_cumulative hc k inverse g hL hm false
  exact ⟨out, e, eachVariable_imp h fun v hv y hy => hy.2 fun hh => hno v hv (hh dim List.mem_cons_self)⟩

example : dsEntries (cumulativeDs core1 (kernel1 2) false exDs [mom] none (some (some rep)) false) 0
    [[(wid, 1), (obs, 1), (mom, 0)]] = some ([mom, obs, wid], [3, 2, 2], [some 2]) := by decide +kernel

example := C73_unknown_dim core1_ok (kernel1 2) false exDs_good (dim := rep) (moms := [mom]) (by decide)
  rfl (by decide)

/-! ### The dimension has a new size, and perhaps a new name -/

/-- `reduce_data_grouped` of a data set. -/
theorem C73_grouped {core : Nd.Core K M} (hc : core.Ok) (k : Kernel K V M) (by_ : List ℤ)
    {ds : List (ν × DataArray δ K)} (g : GoodDataset ds) {dim : δ} {moms : List δ}
    (hL : (dim :: moms).Nodup) (hm : moms.length = core.nd) {group : Option δ}
    (hgr : ∀ n, group = some n → n = dim ∨ ∀ v ∈ ds, n ∉ v.2.dims)
    (hdim : group ≠ none → ∃ v ∈ ds, dim ∈ v.2.dims) (axesToEnd : Bool) :
    ((∃ v ∈ ds, Has v.2 (dim :: moms) ∧ (by_.length ≠ v.2.size dim ∨ ∀ m, by_.max? = some m → m < -1)) →
      groupedDs core k by_ ds moms none (some (some dim)) group axesToEnd = .error .valueError) ∧
    (∀ m, by_.max? = some m → -1 ≤ m →
      (∀ v ∈ ds, Has v.2 (dim :: moms) → by_.length = v.2.size dim) →
      ((∃ v ∈ ds, ∃ w ∈ ds, Has v.2 (dim :: moms) ∧ ¬ Has w.2 (dim :: moms) ∧ dim ∈ w.2.dims ∧
          w.2.size dim ≠ (m + 1).toNat) →
        groupedDs core k by_ ds moms none (some (some dim)) group axesToEnd = .error .valueError) ∧
      ((∀ w ∈ ds, ¬ Has w.2 (dim :: moms) → dim ∈ w.2.dims → w.2.size dim = (m + 1).toNat) →
        ∃ out, groupedDs core k by_ ds moms none (some (some dim)) group axesToEnd = .ok out ∧
          EachVariable (OnItsOwn (dim :: moms)
            (fun _ x => groupedX core k by_ x moms none (some (some dim)) group axesToEnd)
            (fun x y => CopyAs some x (copyDims x.dims dim moms axesToEnd) dim (group.getD dim) y))
            ds out)) := by
  unfold groupedDs
  rw [(C57_select_dataset _ _ _ (0, dim)).2 ⟨rfl, rfl, (List.nodup_cons.1 hL).1, rfl⟩]
  obtain ⟨hf, hok⟩ := resized_dataset g hL (lift := some)
    (inner := fun _ x => applyUfunc x (dim :: moms) [dim] (dim :: moms) [dim] (fun a =>
        Nd.groupedInner core k by_ a (axisBefore core.nd) (Nd.axesLast core.nd)))
    (single := fun _ x grp ate => groupedX core k by_ x moms none (some (some dim)) grp ate)
    (fun v hv hh grp ate => by
      have gn := goodNamed_of g hL hv hh
      show groupedX core k by_ v.2 moms none (some (some dim)) grp ate = _
      unfold groupedX
      rw [selectAxisDim_ok gn.distinct gn.present gn.notMom (.inl ⟨rfl, rfl⟩)]
      rfl)
    (group := group) (fun n hn => (hgr n hn).imp id fun h ⟨v, hv, hd⟩ => h v hv hd) hdim axesToEnd
  constructor
  · rintro ⟨v, hv, hh, hbad⟩
    refine hf .valueError ⟨v, hv, hh⟩ fun w hw hw' => ?_
    have hszeq : w.2.size dim = v.2.size dim :=
      g.sizes w hw v hv dim (hw' dim List.mem_cons_self) (hh dim List.mem_cons_self)
    exact (C57_grouped hc k by_ (goodNamed_of g hL hw hw') hm (axis := none)
      (.inl ⟨rfl, rfl⟩) none (by simp) true).1 (by rw [hszeq]; exact hbad)
  · intro m h1 h2 h3
    refine hok _ fun v hv hh => ?_
    obtain ⟨y, e, hy⟩ := (C57_grouped hc k by_ (goodNamed_of g hL hv hh) hm (axis := none)
      (.inl ⟨rfl, rfl⟩) none (by simp) true).2 m (h3 v hv hh) h1 h2
    rw [Option.getD_none, renamed_refl] at hy
    exact ⟨y, _, e, hy⟩

example : dsEntries (groupedDs core1 (kernel1 2) [1, 1] exDs [mom] none (some (some obs)) (some rep)
    false) 0 [[(mom, 0), (rep, 1), (wid, 1)], [(mom, 1), (rep, 1), (wid, 1)]]
    = some ([mom, rep, wid], [3, 2, 2], [some 3, some (11 / 3)]) := by decide +kernel
example : dsEntries (groupedDs core1 (kernel1 2) [1, 1] exDs [mom] none (some (some obs)) (some rep)
    true) 1 [[(wid, 1), (rep, 1)]] = some ([wid, rep], [2, 2], [some 11]) := by decide +kernel
example : groupedDs core1 (kernel1 2) [0, 0] exDs [mom] none (some (some obs)) none false
    = .error .valueError :=
  ((C73_grouped core1_ok (kernel1 2) [0, 0] exDs_good (dim := obs) (moms := [mom]) (by decide) rfl
    (by simp) (by simp) false).2 0 (by decide) (by decide) (by decide)).1
    ⟨(0, exLab), by simp [exDs], (1, exPlain), by simp [exDs], by decide, by decide, by decide, by decide⟩

example := ((C73_grouped core1_ok (kernel1 2) [1, 1] exDs_good (dim := obs) (moms := [mom])
  (group := some rep) (by decide) rfl (by decide) (by decide) false).2 1 (by decide) (by decide)
  (by decide)).2 (by decide)

/-- `reduce_data_indexed` of a data set. -/
theorem C73_indexed {core : Nd.Core K M} (hc : core.Ok) (k : Kernel K V M)
    (index start stop : List ℤ) (scale : Option (List K))
    {ds : List (ν × DataArray δ K)} (g : GoodDataset ds) {dim : δ} {moms : List δ}
    (hL : (dim :: moms).Nodup) (hm : moms.length = core.nd) {group : Option δ}
    (hgr : ∀ n, group = some n → n = dim ∨ ∀ v ∈ ds, n ∉ v.2.dims) (axesToEnd : Bool) :
    ((∀ v ∈ ds, dim ∉ v.2.dims) →
      indexedDs core k index start stop scale ds moms none (some (some dim)) group axesToEnd
        = .error .keyError) ∧
    ((∃ v ∈ ds, dim ∈ v.2.dims ∧ Indexed.validateIndex (v.2.size dim) index start stop ≠ .ok ()) →
      indexedDs core k index start stop scale ds moms none (some (some dim)) group axesToEnd
        = .error .valueError) ∧
    ((∃ v ∈ ds, Has v.2 (dim :: moms)) → (∃ sc, scale = some sc ∧ sc.length ≠ index.length) →
      indexedDs core k index start stop scale ds moms none (some (some dim)) group axesToEnd
        = .error .valueError) ∧
    ((∃ v ∈ ds, dim ∈ v.2.dims) →
      (∀ v ∈ ds, dim ∈ v.2.dims → Indexed.validateIndex (v.2.size dim) index start stop = .ok ()) →
      (∀ sc, scale = some sc → sc.length = index.length) →
      ((∃ v ∈ ds, ∃ w ∈ ds, Has v.2 (dim :: moms) ∧ ¬ Has w.2 (dim :: moms) ∧ dim ∈ w.2.dims ∧
          w.2.size dim ≠ start.length) →
        indexedDs core k index start stop scale ds moms none (some (some dim)) group axesToEnd
          = .error .valueError) ∧
      ((∀ w ∈ ds, ¬ Has w.2 (dim :: moms) → dim ∈ w.2.dims → w.2.size dim = start.length) →
        ∃ out, indexedDs core k index start stop scale ds moms none (some (some dim)) group axesToEnd
            = .ok out ∧
          EachVariable (OnItsOwn (dim :: moms)
            (fun _ x => indexedX core k index start stop scale x moms none (some (some dim)) group
              axesToEnd)
            (fun x y => CopyAs some x (copyDims x.dims dim moms axesToEnd) dim (group.getD dim) y))
            ds out)) := by
  unfold indexedDs
  rw [(C57_select_dataset _ _ _ (0, dim)).2 ⟨rfl, rfl, (List.nodup_cons.1 hL).1, rfl⟩]
  simp only [Except.bind]
  have hsz : ∀ v ∈ ds, dim ∈ v.2.dims → Dataset.sizeOf ds dim = .ok (v.2.size dim) :=
    fun v hv hd => sizeOf_ok g hv hd
  have hbad : (∃ v ∈ ds, dim ∈ v.2.dims ∧
      Indexed.validateIndex (v.2.size dim) index start stop ≠ .ok ()) →
      (Dataset.sizeOf ds dim).bind (fun ndat => (Indexed.validateIndex ndat index start stop).bind fun _ =>
        (applyDataset ds (dim :: moms) some (fun _ x =>
          applyUfunc x (dim :: moms) [] (dim :: moms) [dim] (fun a =>
            Nd.indexedInner core k index start stop scale a (axisBefore core.nd)
              (Nd.axesLast core.nd)))).bind fun out =>
        (orderSame ds out dim moms axesToEnd).bind fun out => out.renameTo dim group)
        = .error .valueError := by
    rintro ⟨v, hv, hd, hne⟩
    rw [hsz v hv hd]
    simp only [Except.bind]
    cases he : Indexed.validateIndex (v.2.size dim) index start stop with
    | error e => rw [Nd.validateIndex_error he]
    | ok u => exact absurd he hne
  have hrun : ∀ v ∈ ds, dim ∈ v.2.dims →
      Indexed.validateIndex (v.2.size dim) index start stop = .ok () →
      (Dataset.sizeOf ds dim).bind (fun ndat => (Indexed.validateIndex ndat index start stop).bind fun _ =>
        (applyDataset ds (dim :: moms) some (fun _ x =>
          applyUfunc x (dim :: moms) [] (dim :: moms) [dim] (fun a =>
            Nd.indexedInner core k index start stop scale a (axisBefore core.nd)
              (Nd.axesLast core.nd)))).bind fun out =>
        (orderSame ds out dim moms axesToEnd).bind fun out => out.renameTo dim group)
      = (applyDataset ds (dim :: moms) some (fun _ x =>
          applyUfunc x (dim :: moms) [] (dim :: moms) [dim] (fun a =>
            Nd.indexedInner core k index start stop scale a (axisBefore core.nd)
              (Nd.axesLast core.nd)))).bind fun out =>
        (orderSame ds out dim moms axesToEnd).bind fun out => out.renameTo dim group := by
    intro v hv hd hok
    rw [hsz v hv hd]
    simp only [Except.bind]
    rw [hok]
  have hval : ∀ v ∈ ds, ∀ w ∈ ds, dim ∈ v.2.dims → dim ∈ w.2.dims → v.2.size dim = w.2.size dim :=
    fun v hv w hw h h' => g.sizes v hv w hw dim h h'
  have hgen : ∀ v ∈ ds, dim ∈ v.2.dims →
      Indexed.validateIndex (v.2.size dim) index start stop = .ok () → _ := fun v hv hd hok =>
    resized_dataset g hL (lift := some)
      (inner := fun _ x => applyUfunc x (dim :: moms) [] (dim :: moms) [dim] (fun a =>
            Nd.indexedInner core k index start stop scale a (axisBefore core.nd)
              (Nd.axesLast core.nd)))
      (single := fun _ x grp ate => indexedX core k index start stop scale x moms none
        (some (some dim)) grp ate)
      (fun w hw hh grp ate => by
        have gn := goodNamed_of g hL hw hh
        show indexedX core k index start stop scale w.2 moms none (some (some dim)) grp ate = _
        unfold indexedX
        rw [selectAxisDim_ok gn.distinct gn.present gn.notMom (.inl ⟨rfl, rfl⟩)]
        simp only [Except.bind]
        rw [hval w hw v hv gn.present hd, hok]
        rfl)
      (group := group) (fun n hn => (hgr n hn).imp id fun h ⟨v, hv, hd⟩ => h v hv hd)
      (fun _ => ⟨v, hv, hd⟩) axesToEnd
  refine ⟨fun hno => ?_, hbad, ?_, ?_⟩
  · rw [sizeOf_fails fun ⟨v, hv, hd⟩ => hno v hv hd]
  · rintro ⟨v, hv, hh⟩ hsc
    have hd := hh dim List.mem_cons_self
    by_cases hok : Indexed.validateIndex (v.2.size dim) index start stop = .ok ()
    · refine (hrun v hv hd hok).trans ?_
      refine (hgen v hv hd hok).1 .valueError ⟨v, hv, hh⟩ fun w hw hw' => ?_
      exact (C57_indexed hc k index start stop scale (goodNamed_of g hL hw hw') hm (axis := none)
        (.inl ⟨rfl, rfl⟩) none (by simp) true).1 (.inr hsc)
    · exact hbad ⟨v, hv, hd, hok⟩
  · rintro ⟨v, hv, hd⟩ hok hsc
    have hr := hrun v hv hd (hok v hv hd)
    have := (hgen v hv hd (hok v hv hd)).2 start.length fun w hw hh => by
      obtain ⟨y, e, hy⟩ := (C57_indexed hc k index start stop scale (goodNamed_of g hL hw hh) hm
        (axis := none) (.inl ⟨rfl, rfl⟩) none (by simp) true).2
        (hok w hw (hh dim List.mem_cons_self)) hsc
      rw [Option.getD_none, renamed_refl] at hy
      exact ⟨y, _, e, hy⟩
    refine ⟨fun h => hr.trans (this.1 h), fun h => ?_⟩
    obtain ⟨out, e, ho⟩ := this.2 h
    exact ⟨out, hr.trans e, ho⟩

example : dsEntries (indexedDs core1 (kernel1 2) [1, 0, 1] [0, 1] [1, 3] none exDs [mom] none
    (some (some obs)) none false) 3
    [[(mom, 0), (obs, 0), (wid, 1)], [(mom, 0), (obs, 1), (wid, 1)], [(mom, 1), (obs, 1), (wid, 1)]]
    = some ([mom, obs, wid], [3, 2, 2], [some 2, some 3, some (11 / 3)]) := by decide +kernel

example := ((C73_indexed core1_ok (kernel1 2) [1, 0, 1] [0, 1] [1, 3] none exDs_good (dim := obs)
  (moms := [mom]) (group := none) (by decide) rfl (by simp) false).2.2.2 (by decide) (by decide)
  (by simp)).2 (by decide)
example := (C73_indexed core1_ok (kernel1 2) [1, 0, 1] [0, 1] [1, 3] none exDs_good (dim := rep)
  (moms := [mom]) (group := none) (by decide) rfl (by simp) false).1 (by decide)

/-- `moments_type` of a data set: here only the moment dimensions matter. -/
theorem C73_moments_type {core : Nd.Core K M} (hc : core.Ok) (conv : M → M) (orderCF : Bool)
    {ds : List (ν × DataArray δ K)} (g : GoodDataset ds) {moms : List δ} (hmn : moms.Nodup)
    (hm : moms.length = core.nd) (axesToEnd : Bool) :
    ∃ out, momentsTypeDs core conv orderCF ds moms axesToEnd = .ok out ∧
      EachVariable (OnItsOwn moms (fun _ x => momentsTypeX core conv orderCF x moms axesToEnd)
        (fun x y => CopyOf id x x.dims y)) ds out := by
  have hin : ∀ v ∈ ds, Has v.2 moms → ∃ y, applyUfunc v.2 moms [] moms [] (fun a =>
      Nd.momentsTypeNd core conv orderCF a (Nd.axesLast core.nd) false) = .ok y ∧
      ∀ d ∈ y.dims, y.size d = commonSize ds d := by
    intro v hv hh
    obtain ⟨y, e, hy⟩ := C57_moments_type hc conv orderCF (g.distinct v hv) hmn hh hm true
    unfold momentsTypeX at e
    simp only [if_true, bind_ok_self] at e
    refine ⟨y, e, fun d hd => ?_⟩
    rw [hy.dims_eq] at hd
    rw [hy.size_eq d hd]
    rw [if_pos rfl] at hd
    exact (commonSize_eq g hv ((mem_filter_append hh d).1 hd)).symm
  unfold momentsTypeDs
  cases axesToEnd with
  | true =>
    simp only [if_true, bind_ok_self]
    obtain ⟨out, e, h⟩ := applyDataset_ok (lift := id) (core := moms)
      (inner := fun _ x => applyUfunc x moms [] moms [] (fun a =>
        Nd.momentsTypeNd core conv orderCF a (Nd.axesLast core.nd) false)) hin
      (fun v hv _ d hd => (commonSize_eq g hv hd).symm)
    refine ⟨out, e, eachVariable_imp h fun v hv y hy => ⟨fun hh => ⟨y, ?_, alike_refl y⟩, fun hh => ?_⟩⟩
    · unfold momentsTypeX
      simp only [if_true, bind_ok_self]
      exact hy.1 hh
    · rw [hy.2 hh]
      exact copyOf_mapData id v.2
  | false =>
    simp only [Bool.false_eq_true, if_false]
    obtain ⟨out, e, h⟩ := own_dataset g (lift := id) (core := moms)
      (post := fun dims y => y.step (fun z => transposeLike z dims [] [] [none] []))
      (C := fun x y => CopyOf id x x.dims y) (S := commonSize ds)
      (inner := fun _ x => applyUfunc x moms [] moms [] (fun a =>
        Nd.momentsTypeNd core conv orderCF a (Nd.axesLast core.nd) false))
      (fun v hv hh => by
        obtain ⟨y, e, hs⟩ := hin v hv hh
        refine ⟨y, e, ?_, hs⟩
        obtain ⟨z, ez, -⟩ := C57_moments_type hc conv orderCF (g.distinct v hv) hmn hh hm false
        unfold momentsTypeX at ez
        rw [e] at ez
        exact ⟨z, ez⟩)
      (fun v hv _ d hd => (commonSize_eq g hv hd).symm)
      (fun v hv _ => by
        have hx := g.distinct v hv
        obtain ⟨z, e, hv', hd⟩ := transposeLike_any (v.2.mapData id).toArr hx hx [] [] []
          (by simpa [wantedDims] using hx)
        have hd' : z.dims = v.2.dims := by
          rw [hd]
          simp only [wantedDims, List.not_mem_nil, not_false_eq_true, decide_true, List.filter_true,
            List.lookup_nil, Option.getD_none, List.map_id', List.append_nil]
          exact lastOf_self _
        exact copyOf_step e hv' hd' (List.Perm.refl _))
    refine ⟨out, e, eachVariable_imp h fun v hv y hy => ⟨fun hh => ⟨y, ?_, alike_refl y⟩, hy.2⟩⟩
    unfold momentsTypeX
    simp only [Bool.false_eq_true, if_false]
    exact hy.1 hh

example : dsEntries (momentsTypeDs core1
    (fun c : Mom ℚ => Cmomy.Convert.centralToRaw 2 c (fun _ => 0)) true exDs [mom] true) 3
    [[(wid, 1), (obs, 1), (mom, 0)], [(wid, 1), (obs, 1), (mom, 1)], [(wid, 1), (obs, 1), (mom, 2)]]
    = some ([obs, wid, mom], [2, 2, 3], [2, 4, 17]) := by decide +kernel

example := C73_moments_type core1_ok (fun c : Mom ℚ => Cmomy.Convert.centralToRaw 2 c (fun _ => 0)) true
  exDs_good (moms := [mom]) (by decide) rfl true

/-- `resample_data` of a data set, the same table for all variables or one for each. Copied
variables have the sample dimension first, unless `axes_to_end`. -/
theorem C73_resample_data {core : Nd.Core K M} (hc : core.Ok) (k : Kernel K V M)
    (tables : Tables ν K) {ds : List (ν × DataArray δ K)} (g : GoodDataset ds) {dim rep : δ}
    {moms : List δ} (hL : (dim :: moms).Nodup) (hm : moms.length = core.nd)
    (hrep : ∀ v ∈ ds, rep ∉ v.2.dims) (hrm : rep ∉ moms) (axesToEnd : Bool) :
    (¬ tables.Fits ds →
      resampleDs core k tables ds moms none (some (some dim)) rep axesToEnd = .error .valueError) ∧
    (tables.Fits ds → ∀ nrep,
      (∀ v ∈ ds, Has v.2 (dim :: moms) → (tables.for v.1).1.length = nrep ∧
        (tables.for v.1).2 = v.2.size dim) →
      ∃ out, resampleDs core k tables ds moms none (some (some dim)) rep axesToEnd = .ok out ∧
        EachVariable (OnItsOwn (dim :: moms)
          (fun n x => resampleX core k (tables.for n).1 (tables.for n).2 x moms none (some (some dim))
            rep axesToEnd)
          (fun x y => CopyOf some x
            (lastOf x.dims (if axesToEnd then rep :: moms else renamed x.dims dim rep)) y)) ds out) ∧
    (tables.Fits ds → (∃ v ∈ ds, Has v.2 (dim :: moms)) →
      (∀ v ∈ ds, Has v.2 (dim :: moms) → (tables.for v.1).2 ≠ v.2.size dim) →
      resampleDs core k tables ds moms none (some (some dim)) rep axesToEnd = .error .valueError) := by
  have hX : ∀ v ∈ ds, Has v.2 (dim :: moms) → ∀ ate,
      resampleX core k (tables.for v.1).1 (tables.for v.1).2 v.2 moms none (some (some dim)) rep ate =
      (applyUfunc v.2 (dim :: moms) [rep, dim] (rep :: moms) [] (fun a =>
        Nd.resampleInner core k (tables.for v.1).1 (tables.for v.1).2 a (axisBefore core.nd)
          (Nd.axesLast core.nd))).bind fun y =>
      y.step (fun z => resampleDataDims z v.2.dims dim rep (v.2.dims.idxOf dim) moms ate false) := by
    intro v hv hh ate
    have gn := goodNamed_of g hL hv hh
    unfold resampleX
    rw [selectAxisDim_ok gn.distinct gn.present gn.notMom (.inl ⟨rfl, rfl⟩)]
    rfl
  have hend : ∀ (y : DataArray δ (Option K)) (dims : List δ) (p : ℕ),
      y.step (fun z => resampleDataDims z dims dim rep p moms true false) = .ok y := fun _ _ _ => rfl
  have hfil : ∀ v ∈ ds, ∀ ms : List δ, dim ∉ ms → renamed (v.2.dims.filter (fun d => decide (d ∉ dim :: ms)) ++
      dim :: ms) dim rep = v.2.dims.filter (fun d => decide (d ∉ dim :: ms)) ++ rep :: ms := by
    intro v hv ms hms
    unfold renamed
    rw [List.map_append, List.map_cons, if_pos rfl]
    congr 1
    · refine (List.map_congr_left fun e he => ?_).trans (List.map_id _)
      have h2 := (List.mem_filter.1 he).2
      rw [decide_eq_true_iff, List.mem_cons, not_or] at h2
      rw [if_neg h2.1]; rfl
    · congr 1
      refine (List.map_congr_left fun e he => ?_).trans (List.map_id _)
      have hne : e ≠ dim := fun h => hms (h ▸ he)
      rw [if_neg hne]; rfl
  have hnm := (List.nodup_cons.1 hL).1
  unfold resampleDs
  rw [(C57_select_dataset _ _ _ (0, dim)).2 ⟨rfl, rfl, hnm, rfl⟩]
  simp only [Except.bind]
  refine ⟨fun h => if_pos h, fun hf nrep hn => ?_, fun hf ⟨v, hv, hh⟩ hbad => ?_⟩
  · rw [if_neg (by simpa using hf)]
    obtain ⟨out, e, h⟩ := applyDataset_ok (lift := some) (core := dim :: moms)
      (S := fun d => if d = rep then nrep else commonSize ds d)
      (inner := fun n x => applyUfunc x (dim :: moms) [rep, dim] (rep :: moms) [] (fun a =>
        Nd.resampleInner core k (tables.for n).1 (tables.for n).2 a (axisBefore core.nd)
          (Nd.axesLast core.nd)))
      (fun v hv hh => by
        obtain ⟨y, e, hy⟩ := (C57_resample_data hc k (tables.for v.1).1 (tables.for v.1).2
          (goodNamed_of g hL hv hh) (hrep v hv) hm (axis := none) (.inl ⟨rfl, rfl⟩) true).2
          (hn v hv hh).2
        rw [hX v hv hh] at e
        cases hi : applyUfunc v.2 (dim :: moms) [rep, dim] (rep :: moms) [] (fun a =>
          Nd.resampleInner core k (tables.for v.1).1 (tables.for v.1).2 a (axisBefore core.nd)
            (Nd.axesLast core.nd)) with
        | error e0 => rw [hi] at e; cases e
        | ok y0 =>
          rw [hi] at e
          have h0 : y0 = y := Except.ok.inj ((hend y0 _ _).symm.trans e)
          subst h0
          refine ⟨y0, rfl, fun d hd => ?_⟩
          rw [hy.dims_eq] at hd
          rw [hy.size_eq d hd]
          unfold sizesWith
          by_cases h1 : d = rep
          · rw [if_pos h1, if_pos h1]; exact (hn v hv hh).1
          · rw [if_neg h1, if_neg h1]
            obtain ⟨d', hd', rfl⟩ := List.mem_map.1 hd
            by_cases h2 : d' = dim
            · rw [if_pos h2] at h1; exact absurd rfl h1
            · rw [if_neg h2]
              unfold dimsAfter at hd'
              rw [if_pos rfl] at hd'
              exact (commonSize_eq g hv ((mem_filter_append hh d').1 hd')).symm)
      (fun v hv _ d hd => by
        have : d ≠ rep := fun h => hrep v hv (h ▸ hd)
        rw [if_neg this]
        exact (commonSize_eq g hv hd).symm)
    rw [e]
    refine mapVars_then h fun v hv y hy => ?_
    rw [dimsOf_mem g.names hv]
    have hx := g.distinct v hv
    by_cases hh : Has v.2 (dim :: moms)
    · have gn := goodNamed_of g hL hv hh
      have hi := hy.1 hh
      obtain ⟨y1, e1, hy1⟩ := (C57_resample_data hc k (tables.for v.1).1 (tables.for v.1).2
          gn (hrep v hv) hm (axis := none) (.inl ⟨rfl, rfl⟩) true).2 (hn v hv hh).2
      rw [hX v hv hh, hi] at e1
      have h1 : y = y1 := Except.ok.inj ((hend y _ _).symm.trans e1)
      subst h1
      have hyd := hy1.dims_eq
      unfold dimsAfter at hyd
      rw [if_pos rfl, hfil v hv moms hnm] at hyd
      have hal : ∃ w z, y.step (fun z => resampleDataDims z v.2.dims dim rep 0 moms axesToEnd true)
            = .ok w ∧
          y.step (fun z => resampleDataDims z v.2.dims dim rep (v.2.dims.idxOf dim) moms axesToEnd false)
            = .ok z ∧ Alike w z := by
        have hyu : y.toArr.dims = applyUfuncDims [v.2.dims, [rep, dim]] [dim :: moms, [rep, dim]]
            (rep :: moms) := by
          rw [hyd]
          unfold applyUfuncDims
          have : [rep, dim].filter (fun e => decide (e ∉ [rep, dim])) = [] := by
            rw [List.filter_eq_nil_iff]; intro e he; simpa [or_iff_not_imp_left] using he
          simp only [List.zip_cons_cons, List.zip_nil_right, List.flatMap_cons, List.flatMap_nil,
            this, List.append_nil]
          rw [List.dedup_eq_self.2 (List.nodup_reverse.2 (hx.filter _)), List.reverse_reverse]
        cases axesToEnd with
        | false =>
          obtain ⟨a, ea, va, da⟩ := C47_resample_data v.2.dims dim rep moms hx gn.momDistinct
            gn.present gn.momPresent gn.notMom (hrep v hv) true y.toArr hyu
          obtain ⟨b, eb, vb, db⟩ := C47_resample_data v.2.dims dim rep moms hx gn.momDistinct
            gn.present gn.momPresent gn.notMom (hrep v hv) false y.toArr hyu
          have ea' : resampleDataDims y.toArr v.2.dims dim rep 0 moms false true = .ok a := by
            rw [← ea]; rfl
          exact step_alike ea' eb va vb (da.trans db.symm)
        | true =>
          have hyn : y.toArr.dims.Nodup := by
            have := (lastOf_perm hx hL).nodup_iff.2 hx
            rw [lastOf_all hh] at this
            rw [show y.toArr.dims = _ from hyd]
            rw [List.nodup_append] at this ⊢
            refine ⟨this.1, List.nodup_cons.2 ⟨hrm, gn.momDistinct⟩, fun a ha b hb hab => ?_⟩
            subst hab
            rcases List.mem_cons.1 hb with h | h
            · exact hrep v hv (h ▸ (List.mem_filter.1 ha).1)
            · exact this.2.2 a ha a (List.mem_cons_of_mem _ h) rfl
          obtain ⟨a, ea, va, da⟩ := transpose_any y.toArr hyn
            (List.nodup_cons.2 ⟨hrm, gn.momDistinct⟩ : (rep :: moms).Nodup)
          refine step_alike (b := y.toArr) (g := fun z => resampleDataDims z v.2.dims dim rep
            (v.2.dims.idxOf dim) moms true false) ea rfl va (fun _ => rfl) ?_
          rw [da, lastOf_all (by
            intro d hd
            rw [show y.toArr.dims = _ from hyd]
            exact List.mem_append_right _ hd), show y.toArr.dims = _ from hyd, List.filter_append]
          have hnil : (rep :: moms).filter (fun d => decide (d ∉ rep :: moms)) = [] := by
            rw [List.filter_eq_nil_iff]; intro d hd; simpa [or_iff_not_imp_left] using hd
          rw [hnil, List.append_nil]
          congr 1
          rw [List.filter_eq_self]
          intro d hd
          rw [List.mem_filter, decide_eq_true_iff] at hd
          rw [decide_eq_true_iff, List.mem_cons, not_or]
          exact ⟨fun h => hrep v hv (h ▸ hd.1), fun h => hd.2 (List.mem_cons_of_mem _ h)⟩
      obtain ⟨w, z, ew, ez, ha⟩ := hal
      refine ⟨w, ew, fun _ => ⟨z, ?_, ha⟩, fun h => absurd hh h⟩
      show resampleX _ _ _ _ _ _ _ _ _ _ = _
      rw [hX v hv hh, hi]
      exact ez
    · rw [hy.2 hh]
      have hrn : (renamed v.2.dims dim rep).Nodup := by
        unfold renamed
        refine List.Nodup.map_on (fun a ha b hb hab => ?_) hx
        by_cases h1 : a = dim <;> by_cases h2 : b = dim
        · rw [h1, h2]
        · rw [if_pos h1, if_neg h2] at hab; exact absurd (hab ▸ hb) (hrep v hv)
        · rw [if_neg h1, if_pos h2] at hab; exact absurd (hab ▸ ha) (hrep v hv)
        · rwa [if_neg h1, if_neg h2] at hab
      have hcopy : ∃ w, (v.2.mapData some).step
          (fun z => resampleDataDims z v.2.dims dim rep 0 moms axesToEnd true) = .ok w ∧
          CopyOf some v.2 (lastOf v.2.dims (if axesToEnd then rep :: moms else
            renamed v.2.dims dim rep)) w := by
        have hW : wantedDims v.2.dims [(dim, rep)] [] [] = renamed v.2.dims dim rep := by
          unfold wantedDims renamed
          simp only [List.append_nil, List.not_mem_nil, not_false_eq_true, decide_true,
            List.filter_true]
          refine List.map_congr_left fun d _ => ?_
          rw [List.lookup_cons]
          by_cases h : d = dim
          · simp [h]
          · have : (d == dim) = false := by simpa using h
            rw [this, if_neg h]
            rfl
        cases axesToEnd with
        | false =>
          obtain ⟨z, e, hv', hd⟩ := transposeLike_any (v.2.mapData some).toArr hx hx [(dim, rep)] [] []
            (by rw [hW]; exact hrn)
          rw [hW] at hd
          refine copyOf_step ?_ hv' hd (lastOf_perm hx hrn)
          unfold resampleDataDims
          rw [if_pos rfl]
          rw [show transposeLike (v.2.mapData some).toArr v.2.dims [(dim, rep)] [] [none] [] = .ok z
            from e]
          rfl
        | true =>
          obtain ⟨z, e, hv', hd⟩ := transpose_any (v.2.mapData some).toArr hx
            (List.nodup_cons.2 ⟨hrm, (List.nodup_cons.1 hL).2⟩ : (rep :: moms).Nodup)
          exact copyOf_step e hv' hd
            (lastOf_perm hx (List.nodup_cons.2 ⟨hrm, (List.nodup_cons.1 hL).2⟩))
      obtain ⟨w, e1, hw⟩ := hcopy
      exact ⟨w, e1, fun h => absurd h hh, fun _ => hw⟩
  · rw [if_neg (by simpa using hf)]
    rw [applyDataset_fails (e := .valueError) hv hh]
    intro w hw hw'
    have := (C57_resample_data hc k (tables.for w.1).1 (tables.for w.1).2
      (goodNamed_of g hL hw hw') (hrep w hw) hm (axis := none) (.inl ⟨rfl, rfl⟩) true).1
      (hbad w hw hw')
    rw [hX w hw hw'] at this
    cases hi : applyUfunc w.2 (dim :: moms) [rep, dim] (rep :: moms) [] (fun a =>
      Nd.resampleInner core k (tables.for w.1).1 (tables.for w.1).2 a (axisBefore core.nd)
        (Nd.axesLast core.nd)) with
    | error e0 => rw [hi] at this; exact this
    | ok y => rw [hi] at this; cases this

/-- Tables for the examples. -/
def exTables : Tables ℕ ℚ := .one [[2, 0], [1, 1], [0, 2]] 2

example : dsEntries (resampleDs core1 (kernel1 2) exTables exDs [mom] none (some (some obs)) rep false) 3
    [[(mom, 0), (rep, 0), (wid, 1)], [(mom, 1), (rep, 1), (wid, 1)], [(mom, 2), (rep, 1), (wid, 1)]]
    = some ([mom, rep, wid], [3, 3, 2], [some 2, some (11 / 3), some (11 / 9)]) := by decide +kernel
example : dsEntries (resampleDs core1 (kernel1 2) exTables exDs [mom] none (some (some obs)) rep false) 1
    [[(wid, 1), (obs, 0)]] = some ([obs, wid], [2, 2], [some 10]) := by decide +kernel

example := (C73_resample_data core1_ok (kernel1 2) exTables exDs_good (dim := obs) (rep := rep)
  (moms := [mom]) (by decide) rfl (by decide) (by decide) false).2.1 trivial 3 (by decide)

/-- **C73** The table that a variable is resampled with: the common one, or its own. -/
theorem C73_own_table {name : ν} {t : List (List K) × ℕ} :
    (∀ freq nsamp, (Tables.one freq nsamp : Tables ν K).for name = (freq, nsamp)) ∧
    (∀ tables : List (ν × List (List K) × ℕ), (tables.map Prod.fst).Nodup → (name, t) ∈ tables →
      (Tables.each tables).for name = t) := by
  refine ⟨fun _ _ => rfl, fun tables hn ht => ?_⟩
  have := lookup_of_mem hn ht
  show (tables.lookup name).getD ([], 0) = t
  rw [this]
  rfl

example : (Tables.each [(0, [[1, 1]], 2), (1, [[2, 0]], 2)] : Tables ℕ ℚ).for 1 = ([[2, 0]], 2) :=
  C73_own_table.2 _ (by decide) (by decide)

/-- With `paired=False` and several variables to resample, the tables made for them are only accepted
when there is no other variable. -/
theorem C73_unpaired {ds : List (ν × DataArray δ K)} (g : GoodDataset ds) {dim : δ} {moms : List δ}
    {names : List ν} (h : tableNames ds dim moms false = some names)
    {tables : List (ν × List (List K) × ℕ)} (ht : tables.map Prod.fst = names) :
    (Tables.each tables).Fits ds ↔ ∀ v ∈ ds, Has v.2 (dim :: moms) := by
  have hn : names = (ds.filter (fun v => decide (∀ d ∈ dim :: moms, d ∈ v.2.dims))).map Prod.fst := by
    unfold tableNames at h
    simp only [Bool.false_eq_true, if_false] at h
    split at h
    · cases h
    · exact (Option.some.inj h).symm
  unfold Tables.Fits
  simp only [ht]
  constructor
  · intro hf v hv
    have := hf.1 v hv
    rw [hn, List.mem_map] at this
    obtain ⟨w, hw, he⟩ := this
    rw [List.mem_filter, decide_eq_true_iff] at hw
    have hvw : v.2 = w.2 := by
      have h1 := lookup_of_mem g.names hv
      rw [← he, lookup_of_mem g.names hw.1] at h1
      exact (Option.some.inj h1).symm
    rw [hvw]
    exact hw.2
  · intro hall
    constructor
    · intro v hv
      rw [hn]
      exact List.mem_map.2 ⟨v, List.mem_filter.2 ⟨hv, by rw [decide_eq_true_iff]; exact hall v hv⟩, rfl⟩
    · intro t htm
      have : t.1 ∈ names := by rw [← ht]; exact List.mem_map_of_mem htm
      rw [hn, List.mem_map] at this
      obtain ⟨w, hw, he⟩ := this
      rw [← he]
      exact List.mem_map_of_mem (List.mem_filter.1 hw).1

example : tableNames exDs obs [mom] false = some [0, 3] := by decide
example := C73_unpaired exDs_good (dim := obs) (moms := [mom]) (names := [0, 3]) (by decide)
  (tables := [(0, [[2, 0]], 2), (3, [[1, 1]], 2)]) rfl

/-! ### Reductions -/

/-- `reduce_data` of a data set over one dimension, or without `use_map`. -/
theorem C73_reduce_data {core : Nd.Core K M} (hc : core.Ok) (k : Kernel K V M)
    {ds : List (ν × DataArray δ K)} (g : GoodDataset ds) {moms l : List δ} (hmn : moms.Nodup)
    (hln : l.Nodup) (hl0 : l ≠ []) (hlm : ∀ d ∈ l, d ∉ moms)
    (hall : ∀ d ∈ l ++ moms, ∃ v ∈ ds, d ∈ v.2.dims)
    (hpos : ∀ v ∈ ds, Has v.2 (l ++ moms) → ∀ d ∈ v.2.dims, d ∉ l → v.2.size d ≠ 0)
    (hm : moms.length = core.nd) {useMap : Option Bool}
    (hum : useMap = some false ∨ l.length = 1) (keepdims axesToEnd : Bool) :
    ((∃ v ∈ ds, ∃ w ∈ ds, Has v.2 (l ++ moms) ∧ ¬ Has w.2 (l ++ moms) ∧ keepdims = true ∧
        ∃ d ∈ l, d ∈ w.2.dims ∧ w.2.size d ≠ 1) →
      reduceDs core k ds moms none (some (some l)) keepdims axesToEnd useMap = .error .valueError) ∧
    ((keepdims = true → ∀ w ∈ ds, ¬ Has w.2 (l ++ moms) → ∀ d ∈ l, d ∈ w.2.dims → w.2.size d = 1) →
      ∃ out, reduceDs core k ds moms none (some (some l)) keepdims axesToEnd useMap = .ok out ∧
        EachVariable (fun _ x y =>
          (Has x (l ++ moms) → reduceX core k x moms none (some (some l)) keepdims axesToEnd = .ok y) ∧
          (¬ Has x (l ++ moms) → CopyOf some x (copyReduced x.dims l moms keepdims axesToEnd) y))
          ds out) := by
  have hlm' : ¬ ∃ d ∈ l, d ∈ moms := fun ⟨d, h, h'⟩ => hlm d h h'
  have hcn : (l ++ moms).Nodup := by
    rw [List.nodup_append]
    exact ⟨hln, hmn, fun a ha b hb hab => hlm a ha (hab ▸ hb)⟩
  have gr : ∀ v ∈ ds, Has v.2 (l ++ moms) → GoodReduce v.2 moms l := fun v hv hh =>
    { distinct := g.distinct v hv
      momDistinct := hmn
      momPresent := fun d hd => hh d (List.mem_append_right _ hd)
      dsDistinct := hln
      present := fun d hd => hh d (List.mem_append_left _ hd)
      notMom := hlm
      some_dim := hl0
      nonempty := fun d hd h => hpos v hv hh d hd h }
  have hrun : reduceDs core k ds moms none (some (some l)) keepdims axesToEnd useMap =
      (applyDataset ds (l ++ moms) some (fun _ x => reduceInner core k x moms l keepdims)).bind
        fun out => out.mapVars fun n y => y.step (fun z =>
          reduceDataDims z (Dataset.dimsOf ds n) l moms keepdims axesToEnd) := by
    unfold reduceDs selectAxisDimMultDataset
    simp only [Except.bind, Except.map, if_neg hlm', Option.getD_some]
    rw [if_neg (by push Not; exact fun d hd => hall d hd)]
    have h1 : ¬ (useMap ≠ some false ∧
        ((some l : Option (List δ)).all fun l => decide (l.length > 1)) = true) := by
      rcases hum with h | h
      · simp [h]
      · simp [h]
    rw [if_neg h1, if_neg (by simp [hl0])]
    simp only [Option.isSome_some, if_true, if_neg hlm']
    rfl
  rw [hrun]
  constructor
  · rintro ⟨v, hv, w, hw, hh, hn, hk, d, hd, hdw, hne⟩
    obtain ⟨y, ey, hyd, hys, -⟩ := reduceInner_ok hc k (gr v hv hh) hm keepdims
    have hdy : d ∈ y.dims := by
      rw [hyd, hk]
      simp [hd]
    rw [applyDataset_conflict (fun v hv hh => by
      obtain ⟨y, ey, -⟩ := reduceInner_ok hc k (gr v hv hh) hm keepdims
      exact ⟨y, ey⟩) hv hw hh hn ey hdy hdw]
    · rfl
    · rw [hys d hdy, if_pos hd]
      exact Ne.symm hne
  · intro hcp
    obtain ⟨out, e, h⟩ := own_dataset g (lift := some) (core := l ++ moms)
      (inner := fun _ x => reduceInner core k x moms l keepdims)
      (post := fun dims y => y.step (fun z => reduceDataDims z dims l moms keepdims axesToEnd))
      (S := fun d => if keepdims = true ∧ d ∈ l then 1 else commonSize ds d)
      (C := fun x y => CopyOf some x (copyReduced x.dims l moms keepdims axesToEnd) y)
      (fun v hv hh => by
        obtain ⟨y, ey, hyd, hys, hst⟩ := reduceInner_ok hc k (gr v hv hh) hm keepdims
        refine ⟨y, ey, hst axesToEnd, fun d hd => ?_⟩
        rw [hys d hd]
        rw [hyd] at hd
        by_cases hdl : d ∈ l
        · have hk : keepdims = true := by
            cases keepdims
            · rcases List.mem_append.1 hd with h | h
              · have := (List.mem_filter.1 h).2
                rw [decide_eq_true_iff] at this
                exact absurd (List.mem_append_left _ hdl) this
              · exact absurd h (hlm d hdl)
            · rfl
          rw [if_pos hdl, if_pos ⟨hk, hdl⟩]
        · rw [if_neg hdl, if_neg fun h => hdl h.2]
          refine (commonSize_eq g hv ?_).symm
          rcases List.mem_append.1 hd with h | h
          · exact (List.mem_filter.1 h).1
          · refine hh d ?_
            cases keepdims
            · exact List.mem_append_right _ h
            · exact h)
      (fun v hv hn d hd => by
        by_cases h : keepdims = true ∧ d ∈ l
        · rw [if_pos h]; exact hcp h.1 v hv hn d h.2 hd
        · rw [if_neg h]; exact (commonSize_eq g hv hd).symm)
      (fun v hv hn => by
        have hx := g.distinct v hv
        unfold reduceDataDims
        have hsub : ∀ rem : List δ, wantedDims v.2.dims [] rem [] =
            v.2.dims.filter (fun d => decide (d ∉ rem)) := by
          intro rem
          unfold wantedDims
          simp
        cases axesToEnd with
        | false =>
          obtain ⟨z, e, hv', hd⟩ := transposeLike_any (v.2.mapData some).toArr hx hx []
            (if keepdims then [] else l) [] (by rw [hsub]; exact hx.filter _)
          rw [hsub] at hd
          have hd' : z.dims = copyReduced v.2.dims l moms keepdims false := by
            rw [hd]
            cases keepdims
            · simp [copyReduced, DataArray.mapData]
            · simp [copyReduced, DataArray.mapData]
          refine copyOf_step ?_ hv' hd' ?_
          · rw [if_pos rfl]; exact e
          · refine lastOf_perm hx ?_
            cases keepdims
            · simpa using hx.filter _
            · simpa using hx
        | true =>
          have hLn : (if keepdims then l ++ moms else moms).Nodup := by
            cases keepdims
            · exact hmn
            · exact hcn
          obtain ⟨z, e, hv', hd⟩ := transpose_any (v.2.mapData some).toArr hx hLn
          have hd' : z.dims = copyReduced v.2.dims l moms keepdims true := by
            rw [hd]
            cases keepdims <;> rfl
          refine copyOf_step ?_ hv' hd' ?_
          · rw [if_neg (by simp)]; exact e
          · refine lastOf_perm hx ?_
            cases keepdims
            · simpa using hmn
            · simpa using hcn)
    refine ⟨out, e, eachVariable_imp h fun v hv y hy => ⟨fun hh => ?_, hy.2⟩⟩
    rw [reduceX_named core k (gr v hv hh) (.inl ⟨rfl, rfl⟩)]
    exact hy.1 hh

example : dsEntries (reduceDs core1 (kernel1 2) exDs [mom] none (some (some [obs])) false false none) 0
    [[(mom, 0), (wid, 1)], [(mom, 1), (wid, 1)], [(mom, 2), (wid, 1)]]
    = some ([mom, wid], [3, 2], [some 3, some (11 / 3), some (11 / 9)]) := by decide +kernel
example : dsEntries (reduceDs core1 (kernel1 2) exDs [mom] none (some (some [obs])) false false none) 1
    [[(wid, 1), (obs, 0)]] = some ([obs, wid], [2, 2], [some 10]) := by decide +kernel
example : reduceDs core1 (kernel1 2) exDs [mom] none (some (some [obs])) true false none
    = .error .valueError :=
  (C73_reduce_data core1_ok (kernel1 2) exDs_good (moms := [mom]) (l := [obs]) (by decide) (by decide)
    (by decide) (by decide) (by decide) (by decide) rfl (.inr rfl) true false).1
    ⟨(0, exLab), by simp [exDs], (1, exPlain), by simp [exDs], by decide, by decide, rfl, obs,
      by decide, by decide, by decide⟩

example := (C73_reduce_data core1_ok (kernel1 2) exDs_good (moms := [mom]) (l := [obs]) (by decide)
  (by decide) (by decide) (by decide) (by decide) (by decide) rfl (useMap := none) (.inr rfl) false
  true).2 (by decide)

/-- `reduce_data` of a data set over several dimensions, or over all: each variable over those of the
dimensions that it has. -/
theorem C73_reduce_map {core : Nd.Core K M} (hc : core.Ok) (k : Kernel K V M)
    {ds : List (ν × DataArray δ K)} (g : GoodDataset ds) {moms : List δ} (hmn : moms.Nodup)
    {dim : Option (List δ)} (hln : ∀ l, dim = some l → l.Nodup ∧ 1 < l.length ∧ ∀ d ∈ l, d ∉ moms)
    (hall : ∀ d ∈ dim.getD [] ++ moms, ∃ v ∈ ds, d ∈ v.2.dims)
    (hpos : ∀ v ∈ ds, Has v.2 moms → ∀ d ∈ v.2.dims, d ∉ reducedOf v.2 moms dim → v.2.size d ≠ 0)
    (hsome : dim = none → ∀ v ∈ ds, Has v.2 moms → ∃ d ∈ v.2.dims, d ∉ moms)
    (hm : moms.length = core.nd) {useMap : Option Bool} (hum : useMap ≠ some false)
    (keepdims axesToEnd : Bool)
    (hcp : keepdims = true → ∀ v ∈ ds, ∀ w ∈ ds, Has v.2 moms → ¬ Has w.2 moms →
      ∀ d ∈ reducedOf v.2 moms dim, d ∈ w.2.dims → w.2.size d = 1) :
    ∃ out, reduceDs core k ds moms none (some dim) keepdims axesToEnd useMap = .ok out ∧
      EachVariable (fun _ x y =>
        (Has x moms → reducedOf x moms dim ≠ [] →
          reduceX core k x moms none (some (some (reducedOf x moms dim))) keepdims axesToEnd = .ok y) ∧
        (¬ Has x moms ∨ reducedOf x moms dim = [] → CopyOf some x x.dims y)) ds out := by
  have hrun : reduceDs core k ds moms none (some dim) keepdims axesToEnd useMap =
      (Dataset.mapVars (fun _ x => reduceMapped core k x moms dim keepdims axesToEnd) ds).bind
        Dataset.build := by
    unfold reduceDs selectAxisDimMultDataset
    cases dim with
    | none =>
      simp only [Except.bind]
      rw [if_neg (by push Not; exact fun d hd => hall d hd), if_pos ⟨hum, rfl⟩]
    | some l =>
      obtain ⟨-, h1, h2⟩ := hln l rfl
      have hlm' : ¬ ∃ d ∈ l, d ∈ moms := fun ⟨d, h, h'⟩ => h2 d h h'
      simp only [Except.bind, Except.map, if_neg hlm']
      rw [if_neg (by push Not; exact fun d hd => hall d hd), if_pos ⟨hum, by simpa using h1⟩]
  have gr : ∀ v ∈ ds, Has v.2 moms → reducedOf v.2 moms dim ≠ [] →
      GoodReduce v.2 moms (reducedOf v.2 moms dim) := fun v hv hh hne =>
    { distinct := g.distinct v hv
      momDistinct := hmn
      momPresent := hh
      dsDistinct := by
        cases dim with
        | none => exact (g.distinct v hv).filter _
        | some l => exact (hln l rfl).1.filter _
      present := by
        intro d hd
        cases dim with
        | none => exact (List.mem_filter.1 hd).1
        | some l => simpa using (List.mem_filter.1 hd).2
      notMom := by
        intro d hd
        cases dim with
        | none => simpa using (List.mem_filter.1 hd).2
        | some l => exact (hln l rfl).2.2 d (List.mem_filter.1 hd).1
      some_dim := hne
      nonempty := fun d hd h => hpos v hv hh d hd h }
  have hsel : ∀ v ∈ ds, Has v.2 moms → reducedOf v.2 moms dim ≠ [] →
      reduceMapped core k v.2 moms dim keepdims axesToEnd =
      reduceX core k v.2 moms none (some (some (reducedOf v.2 moms dim))) keepdims axesToEnd := by
    intro v hv hh hne
    have gv := gr v hv hh hne
    unfold reduceMapped
    rw [if_neg (not_not.2 (show ∀ d ∈ moms, d ∈ v.2.dims from hh))]
    cases dim with
    | none =>
      simp only
      rw [reduceX_named core k gv (.inr (.inl ⟨rfl, rfl, rfl⟩)),
        reduceX_named core k gv (.inl ⟨rfl, rfl⟩)]
    | some l => exact if_neg hne
  have hcopy : ∀ v ∈ ds, ¬ Has v.2 moms ∨ reducedOf v.2 moms dim = [] →
      reduceMapped core k v.2 moms dim keepdims axesToEnd = .ok (v.2.mapData some) := by
    intro v hv h
    unfold reduceMapped
    by_cases hh : Has v.2 moms
    · rw [if_neg (not_not.2 (show ∀ d ∈ moms, d ∈ v.2.dims from hh))]
      have he := h.resolve_left (not_not.2 hh)
      cases dim with
      | none =>
        obtain ⟨d, hd, hdm⟩ := hsome rfl v hv hh
        have : d ∈ reducedOf v.2 moms none := List.mem_filter.2 ⟨hd, by simpa using hdm⟩
        rw [he] at this
        cases this
      | some l => exact if_pos he
    · exact if_pos hh
  have hthe : ∀ v ∈ ds, ∀ v' ∈ ds, ∀ d, d ∈ reducedOf v'.2 moms dim → d ∈ v.2.dims →
      d ∈ reducedOf v.2 moms dim := by
    intro v hv v' hv' d hd hdv
    cases dim with
    | none => exact List.mem_filter.2 ⟨hdv, (List.mem_filter.1 hd).2⟩
    | some l => exact List.mem_filter.2 ⟨(List.mem_filter.1 hd).1, by simpa using hdv⟩
  classical
  let S : δ → ℕ := fun d => if keepdims = true ∧ ∃ v ∈ ds, Has v.2 moms ∧ d ∈ reducedOf v.2 moms dim
    then 1 else commonSize ds d
  obtain ⟨out, e, h⟩ := mapVars_ok (ds := ds)
    (f := fun _ x => reduceMapped core k x moms dim keepdims axesToEnd)
    (P := fun _ x y => ((Has x moms → reducedOf x moms dim ≠ [] →
          reduceX core k x moms none (some (some (reducedOf x moms dim))) keepdims axesToEnd = .ok y) ∧
        (¬ Has x moms ∨ reducedOf x moms dim = [] → CopyOf some x x.dims y)) ∧
        ∀ d ∈ y.dims, y.size d = S d)
    (fun v hv => by
      by_cases hc' : ¬ Has v.2 moms ∨ reducedOf v.2 moms dim = []
      · refine ⟨_, hcopy v hv hc', ⟨fun h1 h2 => ?_, fun _ => copyOf_mapData some v.2⟩, fun d hd => ?_⟩
        · rcases hc' with h | h
          exacts [absurd h1 h, absurd h h2]
        · show v.2.size d = S d
          by_cases hS : keepdims = true ∧ ∃ v ∈ ds, Has v.2 moms ∧ d ∈ reducedOf v.2 moms dim
          · obtain ⟨hk, v', hv', hh', hd'⟩ := hS
            have hSd : S d = 1 := if_pos ⟨hk, v', hv', hh', hd'⟩
            rw [hSd]
            rcases hc' with h | h
            · exact hcp hk v' hv' v hv hh' h d hd' hd
            · have := hthe v hv v' hv' d hd' hd
              rw [h] at this
              cases this
          · have hSd : S d = commonSize ds d := if_neg hS
            rw [hSd]
            exact (commonSize_eq g hv hd).symm
      · have hh : Has v.2 moms := by by_contra h; exact hc' (.inl h)
        have hne : reducedOf v.2 moms dim ≠ [] := fun h => hc' (.inr h)
        obtain ⟨y, ey, hyd, hys, -⟩ := reduceX_strong hc k (gr v hv hh hne) hm (axis := none)
          (dim := some (some (reducedOf v.2 moms dim))) (.inl ⟨rfl, rfl⟩) keepdims axesToEnd
        refine ⟨y, (hsel v hv hh hne).trans ey, ⟨fun _ _ => ey, fun h => absurd h hc'⟩, fun d hd => ?_⟩
        rw [hys d hd]
        rw [hyd] at hd
        by_cases hdr : d ∈ reducedOf v.2 moms dim
        · have hk : keepdims = true := by
            cases hk : keepdims
            · rw [hk] at hd
              cases axesToEnd
              · have := (List.mem_filter.1 hd).2
                rw [decide_eq_true_iff] at this
                exact absurd hdr this
              · rcases List.mem_append.1 hd with h | h
                · have := (List.mem_filter.1 h).2
                  rw [decide_eq_true_iff] at this
                  exact absurd (List.mem_append_left _ hdr) this
                · exact absurd h ((gr v hv hh hne).notMom d hdr)
            · rfl
          rw [if_pos hdr]
          exact (if_pos ⟨hk, v, hv, hh, hdr⟩).symm
        · have hdv : d ∈ v.2.dims := by
            cases axesToEnd <;> cases keepdims <;> simp only [dimsReduced] at hd
            · exact (List.mem_filter.1 hd).1
            · exact hd
            · rcases List.mem_append.1 hd with h | h
              exacts [(List.mem_filter.1 h).1, hh d h]
            · rcases List.mem_append.1 hd with h | h
              · exact (List.mem_filter.1 h).1
              · rcases List.mem_append.1 h with h | h
                exacts [absurd h hdr, hh d h]
          rw [if_neg hdr]
          have hSd : S d = commonSize ds d := if_neg (by
            rintro ⟨-, v', hv', hh', hd'⟩
            exact hdr (hthe v hv v' hv' d hd' hdv))
          rw [hSd]
          exact (commonSize_eq g hv hdv).symm)
  refine ⟨out, ?_, eachVariable_imp h fun _ _ _ h => h.1⟩
  rw [hrun, e]
  refine build_ok (S := S) fun w hw => ?_
  obtain ⟨v, _, _, h⟩ := (eachVariable_mem h).1 w hw
  exact h.2

example : dsEntries (reduceDs core1 (kernel1 2) exDs [mom] none (some (some [obs, rep, wid])) false false
    none) 0 [] = none := by decide +kernel
example : dsEntries (reduceDs core1 (kernel1 2) exDs [mom] none (some none) false false none) 2
    [[(mom, 0)]] = some ([mom], [3], [some 3]) := by decide +kernel
example : dsEntries (reduceDs core1 (kernel1 2) exDs [mom] none (some (some [obs, wid])) false false
    none) 2 [[(mom, 0)]] = some ([mom], [3], [some 3]) := by decide +kernel

example := C73_reduce_map core1_ok (kernel1 2) exDs_good (moms := [mom]) (dim := some [obs, wid])
  (by decide) (by rintro l h; obtain rfl := Option.some.inj h; decide) (by decide) (by decide) (by decide) rfl (useMap := none)
  (by decide) false true (by decide)
example := C73_reduce_map core1_ok (kernel1 2) exDs_good (moms := [mom]) (dim := none)
  (by decide) (by simp) (by decide) (by decide) (by decide) rfl (useMap := none)
  (by decide) false true (by decide)

/-- A dimension that no variable has is refused by `reduce_data`. -/
theorem C73_reduce_unknown (core : Nd.Core K M) (k : Kernel K V M) {ds : List (ν × DataArray δ K)}
    {moms : List δ} {dim : Option (List δ)} {d : δ} (hd : d ∈ dim.getD [] ++ moms)
    (hno : ∀ v ∈ ds, d ∉ v.2.dims) (keepdims axesToEnd : Bool) (useMap : Option Bool) :
    reduceDs core k ds moms none (some dim) keepdims axesToEnd useMap = .error .valueError := by
  have hn : ¬ ∀ d ∈ dim.getD [] ++ moms, Dataset.HasDim ds d := by
    intro h
    obtain ⟨v, hv, hdv⟩ := h d hd
    exact hno v hv hdv
  unfold reduceDs selectAxisDimMultDataset
  cases dim with
  | none => simp only [Except.bind]; rw [if_pos hn]
  | some l =>
    simp only
    by_cases h : ∃ d ∈ l, d ∈ moms
    · rw [if_pos h]; rfl
    · rw [if_neg h]
      simp only [Except.map, Except.bind]
      rw [if_pos hn]

example := C73_reduce_unknown core1 (kernel1 (K := ℚ) 2) (ds := exDs) (moms := [mom]) (dim := some [rep])
  (d := rep) (by decide) (by decide) false false none

/-- `jackknife_data` of a data set. -/
theorem C73_jackknife_data {core : Nd.Core K M} (hc : core.Ok) (k : Kernel K V M)
    {ds : List (ν × DataArray δ K)} (g : GoodDataset ds) {dim : δ} {moms : List δ}
    (hL : (dim :: moms).Nodup) (hm : moms.length = core.nd)
    (hall : ∀ d ∈ dim :: moms, ∃ v ∈ ds, d ∈ v.2.dims)
    (hpos : ∀ v ∈ ds, Has v.2 (dim :: moms) → ∀ d ∈ v.2.dims, d ≠ dim → v.2.size d ≠ 0)
    {rep : Option δ} (hrep : ∀ n, rep = some n → n = dim ∨ ∀ v ∈ ds, n ∉ v.2.dims)
    (axesToEnd : Bool) :
    ∃ out, jackknifeDs core k ds moms none (some (some dim)) rep axesToEnd = .ok out ∧
      EachVariable (OnItsOwn (dim :: moms)
        (fun _ x => jackknifeX core k x moms none (some (some dim)) rep axesToEnd)
        (fun x y => CopyAs some x (copyDims x.dims dim moms axesToEnd) dim (rep.getD dim) y)) ds out := by
  have hnm := (List.nodup_cons.1 hL).1
  obtain ⟨red, er, hr⟩ := (C73_reduce_data hc k g (moms := moms) (l := [dim])
    (List.nodup_cons.1 hL).2 (List.nodup_singleton dim) (by simp) (by simpa using hnm) hall
    (fun v hv hh d hd h => hpos v hv hh d hd (by simpa using h)) hm (useMap := none) (.inr rfl) false
    true).2 (by simp)
  have hlook : ∀ v ∈ ds, Has v.2 (dim :: moms) → ∃ r, red.lookup v.1 = some r ∧
      reduceX core k v.2 moms none (some (some [dim])) false true = .ok r ∧
      ∀ d ∈ moms, d ∈ r.dims := by
    intro v hv hh
    obtain ⟨w, hw, he, hr1, -⟩ := (eachVariable_mem hr).2 v hv
    have e := hr1 hh
    refine ⟨w.2, ?_, e, ?_⟩
    · rw [he]
      exact lookup_of_mem (by rw [eachVariable_names hr]; exact g.names) hw
    · have gn := goodNamed_of g hL hv hh
      have gr : GoodReduce v.2 moms [dim] :=
        { distinct := gn.distinct
          momDistinct := gn.momDistinct
          momPresent := gn.momPresent
          dsDistinct := List.nodup_singleton dim
          present := by simpa using gn.present
          notMom := by simpa using hnm
          some_dim := by simp
          nonempty := fun d hd h => hpos v hv hh d hd (by simpa using h) }
      obtain ⟨y, ey, hyd, -⟩ := reduceX_strong hc k gr hm (axis := none)
        (dim := some (some [dim])) (.inl ⟨rfl, rfl⟩) false true
      rw [e] at ey
      rw [Except.ok.inj ey, hyd]
      intro d hd
      exact List.mem_append_right _ hd
  unfold jackknifeDs
  rw [show reduceDs core k ds moms (oneAxis none) (oneDim (some (some dim))) false true none = .ok red
    from er, (C57_select_dataset _ _ _ (0, dim)).2 ⟨rfl, rfl, hnm, rfl⟩]
  refine ((resized_dataset g hL (lift := some)
    (inner := fun n x => match red.lookup n with
      | none => .error .valueError
      | some r =>
        if ¬ ∀ d ∈ moms, d ∈ r.dims then .ok (x.mapData some)
        else
          applyUfunc₂ x r (dim :: moms) moms (dim :: moms) (fun a r =>
            Nd.jackknifeReducedNd core k r none a (axisBefore core.nd) (Nd.axesLast core.nd)))
    (single := fun _ x grp ate => jackknifeX core k x moms none (some (some dim)) grp ate)
    (fun v hv hh grp ate => by
      have gn := goodNamed_of g hL hv hh
      obtain ⟨r, e1, e2, h3⟩ := hlook v hv hh
      show jackknifeX core k v.2 moms none (some (some dim)) grp ate = _
      unfold jackknifeX
      rw [show reduceX core k v.2 moms (oneAxis none) (oneDim (some (some dim))) false true = .ok r
        from e2, selectAxisDim_ok gn.distinct gn.present gn.notMom (.inl ⟨rfl, rfl⟩)]
      simp only [e1]
      rw [if_neg (not_not.2 h3)]
      rfl)
    (group := rep) (fun n hn => (hrep n hn).imp id fun h ⟨v, hv, hd⟩ => h v hv hd)
    (fun _ => hall dim List.mem_cons_self) axesToEnd).2 (commonSize ds dim) (fun v hv hh => ?_)).2
    (fun w hw _ hd => (commonSize_eq g hw hd).symm)
  obtain ⟨y, e, hy⟩ := C57_jackknife_data hc k (goodNamed_of g hL hv hh) (hpos v hv hh) hm
    (axis := none) (.inl ⟨rfl, rfl⟩) none (by simp) true
  rw [Option.getD_none, renamed_refl] at hy
  rw [commonSize_eq g hv (hh dim List.mem_cons_self)]
  exact ⟨y, _, e, hy⟩

example : dsEntries (jackknifeDs core1 (kernel1 2) exDs [mom] none (some (some obs)) (some rep) false) 3
    [[(mom, 0), (rep, 0), (wid, 1)], [(mom, 0), (rep, 1), (wid, 1)]]
    = some ([mom, rep, wid], [3, 2, 2], [some 2, some 1]) := by decide +kernel

example := C73_jackknife_data core1_ok (kernel1 2) exDs_good (dim := obs) (moms := [mom]) (by decide)
  rfl (by decide) (by decide) (rep := some rep) (by decide) false

/-- For a data set, `dim` has to be given and `axis` must not be; a moment dimension is refused. -/
theorem C73_arguments (core : Nd.Core K M) (k : Kernel K V M) (ds : List (ν × DataArray δ K))
    (moms : List δ) {axis : Option (Option AxisArg)} {dim : Option (Option δ)}
    (h : axis ≠ none ∨ dim = none ∨ dim = some none ∨ ∃ d ∈ moms, dim = some (some d)) :
    (∀ inverse ate, ∃ e, cumulativeDs core k inverse ds moms axis dim ate = .error e) ∧
    (∀ by_ grp ate, ∃ e, groupedDs core k by_ ds moms axis dim grp ate = .error e) ∧
    (∀ index start stop scale grp ate, ∃ e,
      indexedDs core k index start stop scale ds moms axis dim grp ate = .error e) ∧
    (∀ tables rep ate, ∃ e, resampleDs core k tables ds moms axis dim rep ate = .error e) ∧
    (∀ rep ate, ∃ e, jackknifeDs core k ds moms axis dim rep ate = .error e) := by
  obtain ⟨e, he⟩ : ∃ e, selectAxisDimDataset moms axis dim false = .error e := by
    cases hs : selectAxisDimDataset moms axis dim false with
    | error e => exact ⟨e, rfl⟩
    | ok r =>
      obtain ⟨h1, h2, h3, -⟩ := (C57_select_dataset moms axis dim r).1 hs
      subst h1 h2
      rcases h with h | h | h | ⟨d, hd, h⟩
      · exact absurd rfl h
      · cases h
      · cases h
      · obtain rfl := Option.some.inj (Option.some.inj h)
        exact absurd hd h3
  refine ⟨fun i a => ⟨e, ?_⟩, fun b gr a => ⟨e, ?_⟩, fun i s t sc gr a => ⟨e, ?_⟩, fun t r a => ⟨e, ?_⟩,
    fun r a => ?_⟩
  · unfold cumulativeDs; rw [he]; rfl
  · unfold groupedDs; rw [he]; rfl
  · unfold indexedDs; rw [he]; rfl
  · unfold resampleDs; rw [he]; rfl
  · unfold jackknifeDs
    cases reduceDs core k ds moms (oneAxis axis) (oneDim dim) false true none with
    | error e' => exact ⟨e', rfl⟩
    | ok red => exact ⟨e, by simp only [Except.bind, he]⟩

example := C73_arguments core1 (kernel1 (K := ℚ) 2) exDs [mom] (axis := some (some (.int 0)))
  (dim := none) (.inr (.inl rfl))

end Field

section Ordered

variable {K V M : Type} [Field K] [LinearOrder K] [IsStrictOrderedRing K]

/-! ### Rolling -/

/-- `rolling_data` of a data set. -/
theorem C73_rolling_data {core : Nd.Core K M} (hc : core.Ok) (k : Kernel K V M)
    (hz : core.recd (fun _ => 0) = k.zero) (window : ℕ) (minPeriods : Option ℤ)
    (center zeroMissing : Bool) {ds : List (ν × DataArray δ K)} (g : GoodDataset ds) {dim : δ}
    {moms : List δ} (hL : (dim :: moms).Nodup) (hm : moms.length = core.nd) (axesToEnd : Bool) :
    ∃ out, rollingDs core k window minPeriods center zeroMissing ds moms none (some (some dim))
        axesToEnd = .ok out ∧
      EachVariable (OnItsOwn (dim :: moms)
        (fun _ x => rollingX core k window minPeriods center zeroMissing x moms none (some (some dim))
          axesToEnd)
        (fun x y => CopyOf some x (copyDims x.dims dim moms axesToEnd) y)) ds out := by
  unfold rollingDs
  rw [(C57_select_dataset _ _ _ (0, dim)).2 ⟨rfl, rfl, (List.nodup_cons.1 hL).1, rfl⟩]
  refine (each_dataset g hL (S := commonSize ds)
    (single := fun _ x ate => rollingX core k window minPeriods center zeroMissing x moms none
      (some (some dim)) ate)
    (fun v hv hh ate => ?_) (fun v hv hh => ?_)
    (fun v hv _ d hd => (commonSize_eq g hv hd).symm) axesToEnd).1
  · have gn := goodNamed_of g hL hv hh
    unfold rollingX
    rw [selectAxisDim_ok gn.distinct gn.present gn.notMom (.inl ⟨rfl, rfl⟩)]
    rfl
  · obtain ⟨y, e, hy⟩ := C57_rolling_data hc k hz window minPeriods center zeroMissing
      (goodNamed_of g hL hv hh) hm (axis := none) (.inl ⟨rfl, rfl⟩) true
    exact ⟨y, _, _, e, hy, fun d hd => (commonSize_eq g hv hd).symm⟩

example : dsEntries (rollingDs core1 (kernel1 2) 2 none false true exDs [mom] none (some (some obs))
    false) 3 [[(mom, 0), (obs, 0), (wid, 1)], [(mom, 1), (obs, 1), (wid, 1)]]
    = some ([mom, obs, wid], [3, 2, 2], [some 0, some (11 / 3)]) := by decide +kernel

example := C73_rolling_data core1_ok (kernel1 2) rfl 2 none false true exDs_good (dim := obs)
  (moms := [mom]) (by decide) rfl false

/-- `rolling_exp_data` of a data set. -/
theorem C73_rolling_exp_plain {core : Nd.Core K M} (hc : core.Ok) (k : Kernel K V M)
    (alpha : K ⊕ List K) (adjust : Bool) (minPeriods : Option ℤ) (zeroMissing : Bool)
    {ds : List (ν × DataArray δ K)} (g : GoodDataset ds) {dim : δ}
    {moms : List δ} (hL : (dim :: moms).Nodup) (hm : moms.length = core.nd) (axesToEnd : Bool) :
    ((∀ v ∈ ds, dim ∉ v.2.dims) →
      rollingExpPlainDs core k alpha adjust minPeriods zeroMissing ds moms none (some (some dim))
        axesToEnd = .error .keyError) ∧
    ((∃ v ∈ ds, Has v.2 (dim :: moms) ∧ ∃ l, alpha = .inr l ∧ l.length ≠ v.2.size dim) →
      rollingExpPlainDs core k alpha adjust minPeriods zeroMissing ds moms none (some (some dim))
        axesToEnd = .error .valueError) ∧
    ((∃ v ∈ ds, dim ∈ v.2.dims) →
      (∀ v ∈ ds, Has v.2 (dim :: moms) → ∀ l, alpha = .inr l → l.length = v.2.size dim) →
      ∃ out, rollingExpPlainDs core k alpha adjust minPeriods zeroMissing ds moms none
          (some (some dim)) axesToEnd = .ok out ∧
        EachVariable (OnItsOwn (dim :: moms)
          (fun _ x => rollingExpPlainX core k alpha adjust minPeriods zeroMissing x moms none
            (some (some dim)) axesToEnd)
          (fun x y => CopyOf some x (copyDims x.dims dim moms axesToEnd) y)) ds out) := by
  have hX : ∀ n, ∀ v ∈ ds, Has v.2 (dim :: moms) → v.2.size dim = n → ∀ ate,
      rollingExpPlainX core k alpha adjust minPeriods zeroMissing v.2 moms none (some (some dim)) ate =
      (applyUfunc v.2 (dim :: moms) [dim] (dim :: moms) [] (fun a =>
        Nd.rollingExpInner core k
          (match alpha with
            | .inl al => ⟨[n], fun _ => al⟩
            | .inr l => ⟨[l.length], fun i => l.getD (i 0) 0⟩)
          (-1) adjust minPeriods zeroMissing a (axisBefore core.nd) (Nd.axesLast core.nd))).bind
      fun y => y.step (fun z => sameDims z v.2.dims dim moms ate false) := by
    intro n v hv hh hn ate
    have gn := goodNamed_of g hL hv hh
    subst hn
    unfold rollingExpPlainX
    rw [selectAxisDim_ok gn.distinct gn.present gn.notMom (.inl ⟨rfl, rfl⟩)]
    rfl
  unfold rollingExpPlainDs
  rw [(C57_select_dataset _ _ _ (0, dim)).2 ⟨rfl, rfl, (List.nodup_cons.1 hL).1, rfl⟩]
  simp only [Except.bind]
  refine ⟨fun hno => ?_, ?_, ?_⟩
  · rw [sizeOf_fails fun ⟨v, hv, hd⟩ => hno v hv hd]
  · rintro ⟨v, hv, hh, l, ha, hne⟩
    have hd := hh dim List.mem_cons_self
    rw [sizeOf_ok g hv hd]
    simp only
    rw [applyDataset_fails (e := .valueError) hv hh]
    intro w hw hw'
    have hwv : w.2.size dim = v.2.size dim := g.sizes w hw v hv dim (hw' dim List.mem_cons_self) hd
    have := (C57_rolling_exp_plain hc k alpha adjust minPeriods zeroMissing (goodNamed_of g hL hw hw')
      hm (axis := none) (.inl ⟨rfl, rfl⟩) true).1 l ha (by rw [hwv]; exact hne)
    rw [hX _ w hw hw' hwv] at this
    exact inner_fails this
  · rintro ⟨v, hv, hd⟩ hlen
    rw [sizeOf_ok g hv hd]
    simp only
    refine (each_dataset g hL (S := commonSize ds)
      (single := fun _ x ate => rollingExpPlainX core k alpha adjust minPeriods zeroMissing x moms none
        (some (some dim)) ate)
      (fun w hw hh ate => hX _ w hw hh (g.sizes w hw v hv dim (hh dim List.mem_cons_self) hd) ate)
      (fun w hw hh => ?_)
      (fun w hw _ d hd => (commonSize_eq g hw hd).symm) axesToEnd).1
    obtain ⟨y, e, hy⟩ := (C57_rolling_exp_plain hc k alpha adjust minPeriods zeroMissing
      (goodNamed_of g hL hw hh) hm (axis := none) (.inl ⟨rfl, rfl⟩) true).2 (hlen w hw hh)
    exact ⟨y, _, _, e, hy, fun d hd => (commonSize_eq g hw hd).symm⟩

example : dsEntries (rollingExpPlainDs core1 (kernel1 2) (.inl (1 / 2)) true none true exDs [mom] none
    (some (some obs)) false) 3 [[(mom, 0), (obs, 1), (wid, 1)]]
    = labEntries (rollingExpPlainX core1 (kernel1 2) (.inl (1 / 2)) true none true exLab [mom] none
    (some (some obs)) false) [[(mom, 0), (obs, 1), (wid, 1)]] := by decide +kernel

example := (C73_rolling_exp_plain core1_ok (kernel1 2) (.inr [1 / 2, 1 / 3]) true none true exDs_good
  (dim := obs) (moms := [mom]) (by decide) rfl false).2.2 (by decide) (by
    rintro v hv hh l h
    obtain rfl := Sum.inr.inj h
    revert v
    decide)

end Ordered

end Cmomy
