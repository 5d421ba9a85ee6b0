import Verif.Model.DatasetViews
import Verif.Spec.DatasetViews
import Verif.Lemmas.Dataset
import Verif.Lemmas.DatasetConvert
import Verif.Lemmas.AxisOps

/-!
# Lemmas about data sets seen as dictionaries
-/

set_option linter.unusedSectionVars false

namespace Cmomy.Labelled

open Spec Axes

variable {ν δ : Type} [DecidableEq ν] [DecidableEq δ] {α β : Type}

/-- The moment dimensions have the same size in all variables that have them. -/
def MomSizes (moms : List δ) (ds : Dataset ν δ α) : Prop :=
  ∀ v ∈ ds, ∀ w ∈ ds, ∀ d ∈ moms, d ∈ v.2.dims → d ∈ w.2.dims → v.2.size d = w.2.size d

theorem sizeOf_mom {ds : Dataset ν δ α} {moms : List δ} (h : MomSizes moms ds) {d : δ} (hm : d ∈ moms)
    {v : ν × DataArray δ α} (hv : v ∈ ds) (hd : d ∈ v.2.dims) : ds.sizeOf d = .ok (v.2.size d) := by
  unfold Dataset.sizeOf
  cases e : ds.find? (fun v => decide (d ∈ v.2.dims)) with
  | none => simpa [hd] using List.find?_eq_none.1 e v hv
  | some w =>
    have h1 := List.mem_of_find?_eq_some e
    have h2 := List.find?_some e
    simp only [decide_eq_true_eq] at h2
    exact congrArg Except.ok (h w h1 v hv d hm h2 hd)

theorem momShape_ok {ds : Dataset ν δ α} {moms : List δ} (h : MomSizes moms ds) {S : δ → ℕ}
    (hS : ∀ d ∈ moms, ∃ v ∈ ds, d ∈ v.2.dims ∧ v.2.size d = S d) :
    ds.momShape moms = .ok (moms.map S) := by
  unfold Dataset.momShape
  rw [Nd.mapM_ok_of_forall ds.sizeOf S moms]
  intro d hd
  obtain ⟨v, hv, h1, h2⟩ := hS d hd
  rw [sizeOf_mom h hd hv h1, h2]

theorem commonSize_mom {ds : Dataset ν δ α} {moms : List δ} (h : MomSizes moms ds) {d : δ}
    (hm : d ∈ moms) {v : ν × DataArray δ α} (hv : v ∈ ds) (hd : d ∈ v.2.dims) :
    commonSize ds d = v.2.size d := by
  unfold commonSize
  rw [sizeOf_mom h hm hv hd]

theorem momShape_common {ds : Dataset ν δ α} {moms : List δ} (h : MomSizes moms ds)
    (hp : ∀ d ∈ moms, ∃ v ∈ ds, d ∈ v.2.dims) : ds.momShape moms = .ok (moms.map (commonSize ds)) :=
  momShape_ok h fun d hd => by
    obtain ⟨v, hv, h1⟩ := hp d hd
    exact ⟨v, hv, h1, (commonSize_mom h hd hv h1).symm⟩

theorem getName_ok {ds : Dataset ν δ α} {moms : List δ} (hn : (ds.map Prod.fst).Nodup)
    (h : MomSizes moms ds) {v : ν × DataArray δ α} (hv : v ∈ ds) (hh : Has v.2 moms) :
    getName moms ds v.1 = .ok v.2 := by
  unfold getName
  rw [lookup_of_mem hn hv]
  simp only
  rw [if_neg (not_not.2 (show ∀ d ∈ moms, d ∈ v.2.dims from hh)), momShape_ok h (S := v.2.size) fun d hd => ⟨v, hv, hh d hd, rfl⟩]
  simp [Except.bind]

theorem lookup_absent {ds : List (ν × α)} {n : ν} (h : n ∉ ds.map Prod.fst) : ds.lookup n = none := by
  induction ds with
  | nil => rfl
  | cons w ds ih =>
    rw [List.map_cons, List.mem_cons, not_or] at h
    rw [List.lookup_cons]
    have : (n == w.1) = false := by simpa using h.1
    rw [this]
    exact ih h.2

theorem listed_ok {ds : Dataset ν δ α} (hn : (ds.map Prod.fst).Nodup) {names : List ν}
    (hs : ∀ n ∈ names, n ∈ ds.map Prod.fst) :
    ∃ sub, ds.listed names = .ok sub ∧ sub.map Prod.fst = firstNames names ∧ ∀ v ∈ sub, v ∈ ds := by
  have hs' : ∀ n ∈ firstNames names, n ∈ ds.map Prod.fst := fun n h => hs n (mem_firstNames.1 h)
  unfold Dataset.listed
  generalize firstNames names = l at hs'
  induction l with
  | nil => exact ⟨[], rfl, rfl, by simp⟩
  | cons n l ih =>
    obtain ⟨sub, e, h1, h2⟩ := ih fun m hm => hs' m (List.mem_cons_of_mem _ hm)
    obtain ⟨v, hv, rfl⟩ := List.mem_map.1 (hs' n List.mem_cons_self)
    refine ⟨v :: sub, ?_, by rw [List.map_cons, h1], ?_⟩
    · rw [List.mapM_cons, lookup_of_mem hn hv, e]
      rfl
    · intro w hw
      rcases List.mem_cons.1 hw with rfl | hw
      · exact hv
      · exact h2 w hw

theorem listed_fails {ds : Dataset ν δ α} {names : List ν} {n : ν} (h : n ∈ names)
    (hn : n ∉ ds.map Prod.fst) : ds.listed names = .error .keyError := by
  have h' : n ∈ firstNames names := mem_firstNames.2 h
  unfold Dataset.listed
  generalize firstNames names = l at h'
  induction l with
  | nil => cases h'
  | cons m l ih =>
    rw [List.mapM_cons]
    cases e : ds.lookup m with
    | none => rfl
    | some x =>
      have hne : n ≠ m := by
        rintro rfl
        rw [lookup_absent hn] at e
        cases e
      have := ih ((List.mem_cons.1 h').resolve_left hne)
      simp only [this]
      rfl

theorem good_of_subset {ds sub : Dataset ν δ α} (g : GoodDataset ds)
    (hn : (sub.map Prod.fst).Nodup) (h : ∀ v ∈ sub, v ∈ ds) : GoodDataset sub where
  names := hn
  distinct v hv := g.distinct v (h v hv)
  sizes v hv w hw := g.sizes v (h v hv) w (h w hw)

theorem momSizes_of_good {ds : Dataset ν δ α} (g : GoodDataset ds) (moms : List δ) : MomSizes moms ds :=
  fun v hv w hw d _ h h' => g.sizes v hv w hw d h h'

theorem checkLikeDs_ok {self obj : Dataset ν δ α} {moms : List δ} (hs : MomSizes moms self)
    (ho : MomSizes moms obj)
    (h : ∀ d ∈ moms, ∃ v ∈ obj, ∃ w ∈ self, d ∈ v.2.dims ∧ d ∈ w.2.dims ∧ v.2.size d = w.2.size d) :
    checkLikeDs moms self obj = .ok obj := by
  unfold checkLikeDs
  have hc : obj.ContainsDims moms := fun d hd => by
    obtain ⟨v, hv, -, -, h1, -⟩ := h d hd
    exact ⟨v, hv, h1⟩
  rw [if_neg (not_not.2 hc), momShape_common ho hc, momShape_ok hs (S := commonSize obj)]
  · simp [Except.bind]
  · intro d hd
    obtain ⟨v, hv, w, hw, h1, h2, h3⟩ := h d hd
    exact ⟨w, hw, h2, by rw [commonSize_mom ho hd hv h1, h3]⟩

theorem checkLikeDs_missing {self obj : Dataset ν δ α} {moms : List δ} {d : δ} (hd : d ∈ moms)
    (h : ∀ v ∈ obj, d ∉ v.2.dims) : checkLikeDs moms self obj = .error .valueError := by
  unfold checkLikeDs
  rw [if_pos]
  intro hc
  obtain ⟨v, hv, h'⟩ := hc d hd
  exact h v hv h'

theorem checkLikeDs_shape {self obj : Dataset ν δ α} {moms : List δ} (hs : MomSizes moms self)
    (ho : MomSizes moms obj) (hp : ∀ d ∈ moms, ∃ w ∈ self, d ∈ w.2.dims) {v w : ν × DataArray δ α}
    (hv : v ∈ obj) (hw : w ∈ self) {d : δ} (hd : d ∈ moms) (h1 : d ∈ v.2.dims) (h2 : d ∈ w.2.dims)
    (hne : v.2.size d ≠ w.2.size d) : checkLikeDs moms self obj = .error .valueError := by
  unfold checkLikeDs
  by_cases hc : obj.ContainsDims moms
  · rw [if_neg (not_not.2 hc), momShape_common ho hc, momShape_common hs hp]
    simp only [Except.bind]
    rw [if_pos]
    intro he
    have := List.map_inj_left.1 he d hd
    rw [commonSize_mom ho hd hv h1, commonSize_mom hs hd hw h2] at this
    exact hne this
  · rw [if_pos hc]

theorem constructDs_ok {ds : Dataset ν δ α} {moms : List δ} (h : MomSizes moms ds)
    (hp : ∀ d ∈ moms, ∃ v ∈ ds, d ∈ v.2.dims ∧ 2 ≤ v.2.size d) : constructDs moms ds = .ok ds := by
  unfold constructDs
  rw [momShape_common h fun d hd => ?_]
  · simp only [Except.bind]
    rw [if_neg]
    rintro ⟨n, hn, hle⟩
    obtain ⟨d, hd, rfl⟩ := List.mem_map.1 hn
    obtain ⟨v, hv, h1, h2⟩ := hp d hd
    rw [commonSize_mom h hd hv h1] at hle
    omega
  · obtain ⟨v, hv, h1, -⟩ := hp d hd
    exact ⟨v, hv, h1⟩

/-- The variables after an assignment. -/
def assigned (ds new : Dataset ν δ α) : Dataset ν δ α :=
  ds.map (fun v => (v.1, (new.lookup v.1).getD v.2)) ++
    new.filter (fun v => decide (v.1 ∉ ds.map Prod.fst))

theorem mem_assigned {ds new : Dataset ν δ α} (hn : (new.map Prod.fst).Nodup) (v : ν × DataArray δ α) :
    v ∈ assigned ds new ↔ After ds new v := by
  unfold assigned After
  rw [List.mem_append, List.mem_map, List.mem_filter]
  constructor
  · rintro (⟨u, hu, rfl⟩ | ⟨h, -⟩)
    · by_cases h : u.1 ∈ new.map Prod.fst
      · obtain ⟨w, hw, he⟩ := List.mem_map.1 h
        left
        rw [← he, lookup_of_mem hn hw]
        exact hw
      · right
        rw [lookup_absent h]
        exact ⟨hu, fun w hw he => h (List.mem_map.2 ⟨w, hw, he⟩)⟩
    · exact .inl h
  · rintro (h | ⟨h, hno⟩)
    · by_cases hm : v.1 ∈ ds.map Prod.fst
      · obtain ⟨u, hu, he⟩ := List.mem_map.1 hm
        left
        refine ⟨u, hu, ?_⟩
        rw [he, lookup_of_mem hn h]
        rfl
      · exact .inr ⟨h, by simpa using hm⟩
    · left
      refine ⟨v, h, ?_⟩
      rw [lookup_absent fun hm => ?_]
      · rfl
      · obtain ⟨u, hu, he⟩ := List.mem_map.1 hm
        exact hno u hu he

theorem assigned_names (ds new : Dataset ν δ α) : (assigned ds new).map Prod.fst =
    ds.map Prod.fst ++ (new.map Prod.fst).filter (fun n => decide (n ∉ ds.map Prod.fst)) := by
  unfold assigned
  rw [List.map_append, List.map_map, List.filter_map]
  rfl

theorem assigned_nodup {ds new : Dataset ν δ α} (h : (ds.map Prod.fst).Nodup)
    (hn : (new.map Prod.fst).Nodup) : ((assigned ds new).map Prod.fst).Nodup := by
  rw [assigned_names, List.nodup_append]
  refine ⟨h, hn.filter _, fun a ha b hb hab => ?_⟩
  subst hab
  simpa [ha] using (List.mem_filter.1 hb).2

/-! ### Operations on data sets and selecting -/

/-- The moment dimensions stay as they are. -/
def MomKept (moms : List δ) (x : DataArray δ α) (y : DataArray δ β) : Prop :=
  ∀ d ∈ moms, (d ∈ y.dims ↔ d ∈ x.dims) ∧ (d ∈ x.dims → y.size d = x.size d)

theorem keys_each {ds : Dataset ν δ α} {out : Dataset ν δ β} {moms : List δ}
    (h : EachVariable (fun _ x y => MomKept moms x y) ds out) : keysDs moms out = keysDs moms ds := by
  unfold keysDs asDict
  induction h with
  | nil => rfl
  | @cons v w ds out hd _ ih =>
    have hi : (∀ d ∈ moms, d ∈ w.2.dims) ↔ ∀ d ∈ moms, d ∈ v.2.dims :=
      ⟨fun h d hm => (hd.2 d hm).1.1 (h d hm), fun h d hm => (hd.2 d hm).1.2 (h d hm)⟩
    by_cases hv : ∀ d ∈ moms, d ∈ v.2.dims
    · rw [List.filter_cons_of_pos (by simpa using hi.2 hv), List.filter_cons_of_pos (by simpa using hv),
        List.map_cons, List.map_cons, ih, hd.1]
    · rw [List.filter_cons_of_neg (by rw [decide_eq_true_eq]; exact fun h => hv (hi.1 h)),
        List.filter_cons_of_neg (by rw [decide_eq_true_eq]; exact hv), ih]

theorem get_each {ds : Dataset ν δ α} {out : Dataset ν δ β} {moms : List δ} (g : GoodDataset ds)
    {R : ν → DataArray δ α → DataArray δ β → Prop} (h : EachVariable R ds out)
    (hk : ∀ v ∈ ds, ∀ y, R v.1 v.2 y → MomKept moms v.2 y) {v : ν × DataArray δ α} (hv : v ∈ ds)
    (hh : Has v.2 moms) : ∃ y, getName moms out v.1 = .ok y ∧ R v.1 v.2 y := by
  obtain ⟨w, hw, he, hr⟩ := (eachVariable_mem h).2 v hv
  refine ⟨w.2, ?_, hr⟩
  rw [he]
  refine getName_ok (by rw [eachVariable_names h]; exact g.names) ?_ hw
    fun d hd => ((hk v hv _ hr) d hd).1.2 (hh d hd)
  intro a ha b hb d hd h1 h2
  obtain ⟨a', ha', -, ra⟩ := (eachVariable_mem h).1 a ha
  obtain ⟨b', hb', -, rb⟩ := (eachVariable_mem h).1 b hb
  have ka := hk a' ha' _ ra d hd
  have kb := hk b' hb' _ rb d hd
  rw [ka.2 (ka.1.1 h1), kb.2 (kb.1.1 h2), g.sizes a' ha' b' hb' d (ka.1.1 h1) (kb.1.1 h2)]

theorem mem_dimsReduced {dims l moms : List δ} (hm : ∀ d ∈ moms, d ∈ dims) (hlm : ∀ d ∈ l, d ∉ moms)
    (keepdims axesToEnd : Bool) {d : δ} (hd : d ∈ moms) : d ∈ dimsReduced dims l moms keepdims axesToEnd := by
  have h1 := hm d hd
  have h2 : d ∉ l := fun h => hlm d h hd
  cases keepdims <;> cases axesToEnd <;> simp [dimsReduced, h1, h2, hd]

theorem mem_lastOf {dims last : List δ} {d : δ} : d ∈ lastOf dims last ↔ d ∈ dims := by
  unfold lastOf
  simp only [List.mem_append, List.mem_filter, decide_eq_true_eq]
  by_cases h : d ∈ last <;> simp [h]

theorem momKept_copy {lift : α → β} {x : DataArray δ α} {dims : List δ} {y : DataArray δ β}
    (h : CopyOf lift x dims y) (hd : ∀ d, d ∈ dims ↔ d ∈ x.dims) (moms : List δ) : MomKept moms x y :=
  fun d _ => ⟨by rw [h.dims_eq]; exact hd d, fun hx => h.size_eq d ((hd d).2 hx)⟩

theorem momKept_reduce {K V M : Type} [Field K] [DecidableEq K] [CharZero K] {core : Nd.Core K M}
    (hc : core.Ok) (k : Kernel K V M) {x : DataArray δ K} {moms l : List δ} (g : GoodReduce x moms l)
    (hm : moms.length = core.nd) {keepdims axesToEnd : Bool} {y : DataArray δ (Option K)}
    (e : reduceX core k x moms none (some (some l)) keepdims axesToEnd = .ok y) : MomKept moms x y := by
  obtain ⟨y', e', h1, h2, -⟩ := reduceX_strong hc k g hm (axis := none) (.inl ⟨rfl, rfl⟩) keepdims axesToEnd
  rw [e] at e'
  cases e'
  intro d hd
  have hmem := mem_dimsReduced g.momPresent g.notMom keepdims axesToEnd hd
  refine ⟨⟨fun _ => g.momPresent d hd, fun _ => by rw [h1]; exact hmem⟩, fun _ => ?_⟩
  rw [h2 d (by rw [h1]; exact hmem)]
  exact if_neg fun h => g.notMom d h hd

end Cmomy.Labelled
