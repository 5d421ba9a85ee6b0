import Verif.Spec.LabelledNd
import Verif.Lemmas.AxisOps
import Verif.Props.Labelled
import Verif.Props.Axes
import Mathlib.Data.List.TakeWhile

/-!
# Lemmas about operations on labelled arrays
-/

set_option linter.unusedSectionVars false

namespace Cmomy.Labelled

open Axes Spec

variable {δ : Type} [DecidableEq δ]

section Lists

/-- Coordinates by position. -/
def pos (T : List δ) (c : δ → ℕ) : ℕ → ℕ := fun p => (T[p]?.map c).getD 0

theorem pos_lt {T : List δ} {c : δ → ℕ} {p : ℕ} (h : p < T.length) : pos T c p = c T[p] := by
  simp [pos, h]

theorem pos_idxOf {T : List δ} {c : δ → ℕ} {d : δ} (h : d ∈ T) : pos T c (T.idxOf d) = c d := by
  have := List.idxOf_lt_length_iff.2 h
  rw [pos_lt this, List.getElem_idxOf]

theorem getElem?_filter_range {T : List δ} {f : δ → Bool} {d : δ} (hd : d ∈ T) (hf : f d = true) :
    ((List.range T.length).filter (fun p => (T.map f).getD p false))[(T.filter f).idxOf d]?
      = some (T.idxOf d) := by
  induction T with
  | nil => simp at hd
  | cons e l ih =>
    rw [List.length_cons, List.range_succ_eq_map, List.filter_cons, List.filter_map]
    have e1 : ((fun p => ((e :: l).map f).getD p false) ∘ Nat.succ)
        = fun p => (l.map f).getD p false := by
      funext p; simp only [Function.comp, List.map_cons, List.getD_cons_succ]
    have e0 : ((e :: l).map f).getD 0 false = f e := by simp
    rw [e1, e0]
    by_cases hde : d = e
    · subst hde
      rw [if_pos hf, List.filter_cons_of_pos hf]
      simp
    · have hl : d ∈ l := by simpa [hde] using hd
      have hne : ¬ e = d := fun h => hde h.symm
      rw [List.idxOf_cons_ne l hne]
      by_cases hfe : f e = true
      · rw [if_pos hfe, List.filter_cons_of_pos hfe, List.idxOf_cons_ne _ hne,
          List.getElem?_cons_succ, List.getElem?_map, ih hl]
        rfl
      · rw [if_neg hfe, List.filter_cons_of_neg hfe, List.getElem?_map, ih hl]
        rfl

theorem filter_take_getElem {T : List δ} {f : δ → Bool} {p : ℕ} (hp : p < T.length)
    (hf : f T[p] = true) : (T.filter f)[((T.map f).take p).count true]? = some T[p] := by
  induction T generalizing p with
  | nil => simp at hp
  | cons e l ih =>
    cases p with
    | zero =>
      rw [List.getElem_cons_zero] at hf ⊢
      simp [hf]
    | succ p =>
      rw [List.getElem_cons_succ] at hf ⊢
      have hp' : p < l.length := by simpa using hp
      rw [List.map_cons, List.take_succ_cons]
      cases hfe : f e with
      | true =>
        rw [List.filter_cons_of_pos hfe, List.count_cons_self, List.getElem?_cons_succ]
        exact ih hp' hf
      | false =>
        rw [List.filter_cons_of_neg (by simp [hfe]), List.count_cons_of_ne (by simp)]
        exact ih hp' hf

end Lists

section Arrays

variable {α β : Type}

theorem entry_congr (x : DataArray δ α) {c c' : δ → ℕ} (h : ∀ d ∈ x.dims, c d = c' d) :
    entry x c = entry x c' := by
  unfold entry
  rw [List.map_congr_left h]

theorem values_get (x : DataArray δ α) (hx : x.dims.Nodup) (i : ℕ → ℕ) :
    x.values.get i = entry x (fun d => i (x.dims.idxOf d)) := by
  show x.data _ = x.data _
  refine congrArg x.data ?_
  refine List.ext_getElem (by simp) fun p h1 h2 => ?_
  rw [List.getElem_map, List.getElem_map, List.getElem_range, hx.idxOf_getElem]

theorem selectAxisDim_ok {dims moms : List δ} (hd : dims.Nodup)
    {axis : Option (Option AxisArg)} {dim : Option (Option δ)} {d : δ} (hp : d ∈ dims)
    (hm : d ∉ moms) (h : Chosen dims moms axis dim d) :
    selectAxisDim dims moms axis dim none none false = .ok (dims.idxOf d, d) := by
  have key : ∀ p, dims[p]? = some d → p = dims.idxOf d := by
    intro p hp'
    obtain ⟨hlt, e⟩ := List.getElem?_eq_some_iff.1 hp'
    rw [← e, hd.idxOf_getElem]
  unfold selectAxisDim
  rcases h with ⟨rfl, rfl⟩ | ⟨rfl, z, rfl, hr, hz⟩ | ⟨rfl, re, z, rfl, hle, hr, hz⟩
  · simp [notNone, axisDimDefaults, Except.bind, hp, hm]
  · have e : normalizeAxisIndex (.int z) dims.length (some moms.length)
        = .ok (wrap dims.length z) := (C38_int_axis _ _ _ _).2 ⟨hr, rfl⟩
    simp only [notNone, axisDimDefaults, Except.bind, e, hz]
    rw [if_neg (by simp [hm]), key _ hz]
  · have e : normalizeAxisIndex (.complex re z) dims.length (some moms.length)
        = .ok (wrap (dims.length - moms.length) z) :=
      (C38_imaginary_axis _ _ _ _ _).2 ⟨hle, by rw [truncate_int]; exact hr, by rw [truncate_int]⟩
    simp only [notNone, axisDimDefaults, Except.bind, e, hz]
    rw [if_neg (by simp [hm]), key _ hz]

theorem selectAxisDimMult_ok {dims moms : List δ} (hd : dims.Nodup)
    {axis : Option AxesArg} {dim : Option (Option (List δ))} {ds : List δ} (hdn : ds.Nodup)
    (hp : ∀ d ∈ ds, d ∈ dims) (hm : ∀ d ∈ ds, d ∉ moms) (h : ChosenMany dims moms axis dim ds) :
    selectAxisDimMult dims moms axis dim = .ok (ds.map dims.idxOf, ds) := by
  have key : ∀ p d, dims[p]? = some d → p = dims.idxOf d := by
    intro p d hp'
    obtain ⟨hlt, e⟩ := List.getElem?_eq_some_iff.1 hp'
    rw [← e, hd.idxOf_getElem]
  have hno : ¬ ∃ d ∈ ds, d ∈ moms := by
    rintro ⟨d, h1, h2⟩
    exact hm d h1 h2
  have ints : ∀ zs : List ℤ, (∀ z ∈ zs, InRange dims.length z) →
      zs.map (fun z => dims[wrap dims.length z]?) = ds.map some →
      zs.map (wrap dims.length) = ds.map dims.idxOf := by
    intro zs _ he
    have hl : zs.length = ds.length := by simpa using congrArg List.length he
    refine List.ext_getElem (by simpa using hl) fun p h1 h2 => ?_
    rw [List.getElem_map, List.getElem_map]
    have h1' : p < zs.length := by simpa using h1
    have h2' : p < ds.length := by simpa using h2
    have := congrArg (fun l => l[p]?) he
    simp only [List.getElem?_map, List.getElem?_eq_getElem h1', List.getElem?_eq_getElem h2',
      Option.map_some, Option.some.injEq] at this
    exact key _ _ this
  have hinj : (ds.map dims.idxOf).Nodup :=
    hdn.map_on fun a ha b hb hab => (List.idxOf_inj (hp a ha)).1 hab
  have hfm : (ds.map dims.idxOf).filterMap (fun ax => dims[ax]?) = ds := by
    clear h hno ints hinj hm hdn
    induction ds with
    | nil => rfl
    | cons d l ih =>
      have hlt := List.idxOf_lt_length_iff.2 (hp d List.mem_cons_self)
      rw [List.map_cons, List.filterMap_cons_some (b := d)
        (by rw [List.getElem?_eq_getElem hlt, List.getElem_idxOf]),
        ih fun e he => hp e (List.mem_cons_of_mem _ he)]
  have intsOk : ∀ zs : List ℤ, (∀ z ∈ zs, InRange dims.length z) →
      zs.map (wrap dims.length) = ds.map dims.idxOf →
      ((normalizeAxes (zs.map .int) dims.length (some moms.length) false).bind fun axs =>
        (.ok (axs, axs.filterMap (fun ax => dims[ax]?)) : Py (List ℕ × List δ)))
        = .ok (ds.map dims.idxOf, ds) := by
    intro zs hr he
    rw [(normalizeAxes_int_ok_iff zs dims.length (some moms.length) false _).2
      ⟨hr, rfl, .inr (by rw [he]; exact hinj)⟩, he]
    simp only [Except.bind, hfm]
  unfold selectAxisDimMult
  rcases h with ⟨rfl, rfl⟩ | ⟨rfl, rfl, rfl⟩ | ⟨rfl, zs, rfl, hr, he⟩ | ⟨rfl, z, rfl, hr, d, rfl, he⟩ |
    ⟨rfl, re, z, rfl, hle, hr, d, rfl, he⟩
  · simp only [axisDimDefaults, Except.bind, Option.getD_some]
    rw [if_pos hp]
    simp only
    rw [if_neg hno]
  · simp only [axisDimDefaults, Except.bind, Option.getD_none]
    rw [if_pos hp]
    simp only
    rw [if_neg hno]
  · simp only [axisDimDefaults, normalizeAxisTuple]
    show (Except.bind (Except.bind _ _) _) = _
    rw [intsOk zs hr (ints zs hr he)]
    simp only [Except.bind]
    rw [if_neg hno]
  · simp only [axisDimDefaults, normalizeAxisTuple]
    show (Except.bind (Except.bind (normalizeAxes ([z].map .int) _ _ _) _) _) = _
    rw [intsOk [z] (by simpa using hr) (by simpa using key _ _ he)]
    simp only [Except.bind]
    rw [if_neg hno]
  · have e : normalizeAxisIndex (.complex re z) dims.length (some moms.length)
        = .ok (wrap (dims.length - moms.length) z) :=
      (C38_imaginary_axis _ _ _ _ _).2 ⟨hle, by rw [truncate_int]; exact hr, by rw [truncate_int]⟩
    have hk := key _ _ he
    have hn : normalizeAxes [.complex re z] dims.length (some moms.length) false
        = .ok ([d].map dims.idxOf) := by
      simp [normalizeAxes, e, hk, pure, Except.pure, bind, Except.bind]
    simp only [axisDimDefaults, normalizeAxisTuple]
    show (Except.bind (Except.bind (normalizeAxes _ _ _ _) _) _) = _
    rw [hn]
    simp only [Except.bind, hfm]
    rw [if_neg hno]

theorem step_shows {y : DataArray δ α} {dims dims' : List δ} {size : δ → ℕ} {F : (δ → ℕ) → α}
    (h : ShowsNamed y dims size F) {f : Arr δ α → Py (Arr δ α)} {z : Arr δ α}
    (hf : f y.toArr = .ok z) (hv : SameValues y.toArr z) (hd : z.dims = dims')
    (hmem : ∀ d, d ∈ dims ↔ d ∈ dims') :
    ∃ w, y.step f = .ok w ∧ ShowsNamed w dims' size F := by
  refine ⟨{ z with size := y.size }, by unfold DataArray.step; rw [hf]; rfl, hd,
    fun d hdd => h.size_eq d ((hmem d).2 hdd), fun c hc => ?_⟩
  rw [← h.entry_eq c fun d hdd => hc d ((hmem d).1 hdd)]
  exact (hv c).symm

theorem applyUfuncDims_one {data core out : List δ} (hd : data.Nodup) :
    applyUfuncDims [data] [core] out = data.filter (fun d => decide (d ∉ core)) ++ out := by
  unfold applyUfuncDims
  simp only [List.zip_cons_cons, List.zip_nil_right, List.flatMap_cons, List.flatMap_nil,
    List.append_nil]
  rw [List.dedup_eq_self.2 (List.nodup_reverse.2 (hd.filter _)), List.reverse_reverse]

theorem mem_filter_append {l cs : List δ} (hcs : ∀ d ∈ cs, d ∈ l) (d : δ) :
    d ∈ l.filter (fun e => decide (e ∉ cs)) ++ cs ↔ d ∈ l := by
  rw [List.mem_append, List.mem_filter]
  by_cases h : d ∈ cs
  · simp [h, hcs d h]
  · simp [h]

theorem _root_.Cmomy.Spec.GoodNamed.core {x : DataArray δ α} {moms : List δ} {dim : δ}
    (g : GoodNamed x moms dim) : ∀ d ∈ dim :: moms, d ∈ x.dims := by
  intro d hd
  rcases List.mem_cons.1 hd with rfl | hd
  exacts [g.present, g.momPresent d hd]

theorem sameDims_shows {x : DataArray δ α} {moms : List δ} {dim : δ} (g : GoodNamed x moms dim)
    {y : DataArray δ β} {size : δ → ℕ} {F : (δ → ℕ) → β}
    (h : ShowsNamed y (x.dims.filter (fun d => decide (d ∉ dim :: moms)) ++ dim :: moms) size F)
    (axesToEnd : Bool) :
    ∃ w, y.step (fun z => sameDims z x.dims dim moms axesToEnd false) = .ok w ∧
      ShowsNamed w (dimsAfter x.dims dim moms axesToEnd) size F := by
  obtain ⟨⟨z, e, v, d⟩, ⟨z', e', v', d'⟩⟩ := C47_same_dims x.dims dim moms g.distinct g.momDistinct
    g.present g.momPresent g.notMom false y.toArr
    (by rw [applyUfuncDims_one g.distinct]; exact h.dims_eq)
  cases axesToEnd with
  | false => exact step_shows h e v (d.trans rfl) fun d => mem_filter_append g.core d
  | true => exact step_shows h e' v' (d'.trans rfl) fun d => Iff.rfl

theorem rename_shows {y : DataArray δ α} {dims : List δ} {size : δ → ℕ} {F : (δ → ℕ) → α}
    (h : ShowsNamed y dims size F) {old new : δ} (ho : old ∈ dims) (hne : new ∉ dims) :
    ∃ w, y.rename old new = .ok w ∧ ShowsNamed w (renamed dims old new)
      (fun d => if d = new then size old else size d)
      (fun c => F (Function.update c old (c new))) := by
  have hno : new ≠ old := fun e => hne (e ▸ ho)
  unfold DataArray.rename
  rw [h.dims_eq, if_neg (by simpa using ho), if_neg hno, if_neg hne]
  refine ⟨_, rfl, rfl, fun d hd => ?_, fun c hc => ?_⟩
  · obtain ⟨e, he, rfl⟩ := List.mem_map.1 hd
    by_cases h1 : e = old
    · subst h1
      simp only [if_true]
      exact h.size_eq _ he
    · have : e ≠ new := fun h' => hne (h' ▸ he)
      simp only [h1, if_false, this]
      exact h.size_eq _ he
  · rw [← h.entry_eq]
    · show y.data (List.map c (renamed dims old new)) = y.data (y.dims.map _)
      rw [h.dims_eq, renamed, List.map_map]
      refine congrArg y.data (List.map_congr_left fun d hd => ?_)
      by_cases h1 : d = old
      · subst h1; simp
      · simp [h1]
    · intro d hd
      have h2 := hc (if d = old then new else d) (List.mem_map_of_mem (f := fun d => if d = old then new else d) hd)
      by_cases h1 : d = old
      · subst h1
        simpa using h2
      · have : d ≠ new := fun h' => hne (h' ▸ hd)
        simpa [h1, this] using h2

/-- `broadcast_compat_data`: what the function is handed. -/
theorem compatData_ok (x : DataArray δ α) (hx : x.dims.Nodup) {loop core : List δ}
    (hl : (loop ++ core).Nodup) (hc : ∀ d ∈ core, d ∈ x.dims) (hs : ∀ d ∈ x.dims, d ∈ loop ++ core) :
    ∃ a, compatData x loop core = .ok a ∧
      a.shape = ((loop ++ core).dropWhile (fun d => decide (d ∉ x.dims))).map
        (fun d => if d ∈ x.dims then x.size d else 1) ∧
      ∀ i, a.get i = entry x (fun d =>
        i (((loop ++ core).dropWhile (fun d => decide (d ∉ x.dims))).idxOf d)) := by
  unfold compatData
  by_cases heq : loop ++ core = x.dims
  · rw [if_pos heq]
    have hd : (loop ++ core).dropWhile (fun d => decide (d ∉ x.dims)) = x.dims := by
      rw [heq, List.dropWhile_eq_self_iff]
      intro h
      simp
    rw [hd]
    refine ⟨_, rfl, ?_, fun i => values_get x hx i⟩
    exact List.map_congr_left fun d h => by rw [if_pos h]
  rw [if_neg heq, if_neg (by push Not; exact hs)]
  set T := (loop ++ core).dropWhile (fun d => decide (d ∉ x.dims)) with hT
  set f : δ → Bool := fun d => decide (d ∈ x.dims) with hf
  have hTn : T.Nodup := hl.sublist (List.dropWhile_sublist _)
  have hR : loop.filter f ++ core = (loop ++ core).filter f := by
    have h : core.filter f = core :=
      List.filter_eq_self.2 (fun d hd => by simpa [hf] using hc d hd)
    rw [List.filter_append, h]
  have hTR : (loop ++ core).filter f = T.filter f := by
    rw [← List.takeWhile_append_dropWhile (p := fun d => decide (d ∉ x.dims)) (l := loop ++ core),
      List.filter_append, ← hT, List.filter_eq_nil_iff.2, List.nil_append]
    intro d hd
    have := List.mem_takeWhile_imp hd
    simpa [hf] using this
  have hmR : ∀ d, d ∈ T.filter f ↔ d ∈ x.dims := by
    intro d
    rw [← hTR, List.mem_filter]
    constructor
    · intro h; simpa [hf] using h.2
    · intro h; exact ⟨hs d h, by simpa [hf] using h⟩
  simp only
  rw [hR, hTR, if_neg]
  · refine ⟨_, rfl, ?_, fun i => ?_⟩
    · simp only [newAxes, Nd.Arr.transpose, List.length_map]
      refine List.ext_getElem (by simp) fun p h1 h2 => ?_
      have hp : p < T.length := by simpa using h2
      rw [List.getElem_map, List.getElem_map, List.getElem_range]
      have e : (T.map f).getD p false = f T[p] := by simp [hp]
      rw [e]
      by_cases hm : T[p] ∈ x.dims
      · have hft : f T[p] = true := by simpa [hf] using hm
        rw [if_pos hft, if_pos hm]
        have h3 := filter_take_getElem hp hft
        have hi := List.idxOf_lt_length_iff.2 hm
        simp [DataArray.values, h3, hi]
      · have hft : ¬ f T[p] = true := by simpa [hf] using hm
        rw [if_neg hft, if_neg hm]
    · show x.values.get _ = _
      rw [values_get x hx]
      refine entry_congr x fun d hd => ?_
      have hdT : d ∈ T.filter f := (hmR d).2 hd
      have h3 := getElem?_filter_range (f := f) (List.mem_of_mem_filter hdT) (List.mem_filter.1 hdT).2
      have h4 : ((T.filter f).map x.dims.idxOf).idxOf (x.dims.idxOf d) = (T.filter f).idxOf d := by
        have hq := List.idxOf_lt_length_iff.2 hdT
        have hnd : ((T.filter f).map x.dims.idxOf).Nodup := by
          refine (hTn.filter f).map_on ?_
          intro a ha b hb hab
          exact (List.idxOf_inj ((hmR a).1 ha)).1 hab
        have := hnd.idxOf_getElem ((T.filter f).idxOf d) (by simpa using hq)
        rwa [List.getElem_map, List.getElem_idxOf] at this
      simp only [List.length_map]
      rw [h4, List.getD_eq_getElem?_getD, h3]
      rfl
  · rintro (⟨d, hd, hn⟩ | h)
    · exact hn ((hmR d).1 hd)
    · exact h (hTn.filter f)

/-- The case in which no dimension is missing. -/
theorem compatData_all (x : DataArray δ α) (hx : x.dims.Nodup) {loop core : List δ}
    (hp : (loop ++ core).Perm x.dims) :
    ∃ a, compatData x loop core = .ok a ∧ a.shape = (loop ++ core).map x.size ∧
      ∀ i, a.get i = entry x (fun d => i ((loop ++ core).idxOf d)) := by
  obtain ⟨a, h1, h2, h3⟩ := compatData_ok x hx (hp.nodup_iff.2 hx)
    (fun d hd => hp.mem_iff.1 (List.mem_append_right _ hd)) (fun d hd => hp.mem_iff.2 hd)
  have hd : (loop ++ core).dropWhile (fun d => decide (d ∉ x.dims)) = loop ++ core := by
    rw [List.dropWhile_eq_self_iff]
    intro h
    have := hp.mem_iff.1 (List.getElem_mem h)
    simpa using this
  rw [hd] at h2 h3
  refine ⟨a, h1, ?_, h3⟩
  rw [h2]
  exact List.map_congr_left fun d hd => by rw [if_pos (hp.mem_iff.1 hd)]

theorem ofNd_entry (dims : List δ) (a : Nd.Arr α) (c : δ → ℕ) :
    entry (DataArray.ofNd dims a) c = a.get (pos dims c) := by
  show a.get _ = a.get _
  refine congrArg a.get (funext fun p => ?_)
  show (dims.map c).getD p 0 = _
  rw [List.getD_eq_getElem?_getD, List.getElem?_map]
  rfl

theorem along_pos (dims : List δ) (c : δ → ℕ) :
    along (List.range dims.length) (pos dims c) = pos dims c := by
  funext p
  unfold along
  by_cases hp : p < dims.length
  · simp [hp]
  · simp [hp, pos]

theorem firstNames_self {l : List δ} (h : l.Nodup) : firstNames l = l := by
  unfold firstNames
  rw [List.Nodup.dedup (List.nodup_reverse.2 h), List.reverse_reverse]

/-- `apply_ufunc` with one labelled input. -/
theorem applyUfunc_run (x : DataArray δ α) (hx : x.dims.Nodup) {core plain outCore exclude : List δ}
    (hcn : core.Nodup) (hcs : ∀ d ∈ core, d ∈ x.dims)
    (hcore : ∀ d ∈ x.dims, (d ∉ exclude ∧ d ∉ core ++ plain ++ outCore) ↔ d ∉ core)
    (f : Nd.Arr α → Py (Nd.Arr β)) :
    (x.dims.filter (fun d => decide (d ∉ core)) ++ core).Perm x.dims ∧
    ∃ a, a.shape = (x.dims.filter (fun d => decide (d ∉ core)) ++ core).map x.size ∧
      (∀ i, a.get i = entry x (fun d =>
        i ((x.dims.filter (fun d => decide (d ∉ core)) ++ core).idxOf d))) ∧
      applyUfunc x core plain outCore exclude f = (f a).bind (wrapResult [x.frame] exclude
        (x.dims.filter (fun d => decide (d ∉ core)) ++ outCore)) := by
  have hperm : (x.dims.filter (fun d => decide (d ∉ core)) ++ core).Perm x.dims := by
    rw [List.perm_ext_iff_of_nodup _ hx]
    · intro d
      rw [List.mem_append, List.mem_filter]
      by_cases h : d ∈ core
      · simp [h, hcs d h]
      · simp [h]
    · rw [List.nodup_append]
      refine ⟨hx.filter _, hcn, ?_⟩
      intro a ha b hb hab
      subst hab
      simpa [hb] using (List.mem_filter.1 ha).2
  refine ⟨hperm, ?_⟩
  have hloop : loopDims [x.frame] exclude (core ++ plain ++ outCore)
      = .ok (x.dims.filter (fun d => decide (d ∉ core))) := by
    unfold loopDims unifiedDims
    rw [if_neg, if_neg]
    · simp only [Except.map, DataArray.frame, List.flatMap_cons, List.flatMap_nil, List.append_nil]
      rw [firstNames_self (hx.filter _), List.filter_filter]
      congr 1
      refine List.filter_congr fun d hd => ?_
      have := hcore d hd
      rw [Bool.eq_iff_iff, Bool.and_eq_true, decide_eq_true_iff, decide_eq_true_iff,
        decide_eq_true_iff, and_comm]
      exact this
    · push Not
      intro f hf g hg d _ _ _
      rw [List.mem_singleton] at hf hg
      rw [hf, hg]
    · push Not
      intro f hf
      rw [List.mem_singleton] at hf
      rw [hf]
      exact hx
  obtain ⟨a, h1, h2, h3⟩ := compatData_all x hx hperm
  refine ⟨a, h2, h3, ?_⟩
  unfold applyUfunc
  rw [hloop]
  show (compatData x _ core).bind _ = _
  rw [h1]
  rfl

theorem firstNames_append {l m : List δ} (h : l.Nodup) (hs : ∀ d ∈ m, d ∈ l) :
    firstNames (l ++ m) = l := by
  unfold firstNames
  rw [List.reverse_append, List.Subset.dedup_append_right
    (fun d hd => List.mem_reverse.2 (hs d (List.mem_reverse.1 hd))),
    List.Nodup.dedup (List.nodup_reverse.2 h), List.reverse_reverse]

/-- `apply_ufunc` with two labelled inputs, the second having no dimension of its own. -/
theorem applyUfunc₂_run {γ : Type} (x : DataArray δ α) (y : DataArray δ β) (hx : x.dims.Nodup)
    (hy : y.dims.Nodup) (hyx : ∀ d ∈ y.dims, d ∈ x.dims) (hsz : ∀ d ∈ y.dims, y.size d = x.size d)
    {coreX coreY outCore : List δ} (hcn : coreX.Nodup) (hcs : ∀ d ∈ coreX, d ∈ x.dims)
    (hcy : coreY.Nodup) (hcys : ∀ d ∈ coreY, d ∈ y.dims) (hcyx : ∀ d ∈ coreY, d ∈ coreX)
    (hyc : ∀ d ∈ y.dims, d ∈ coreX → d ∈ coreY) (hox : ∀ d ∈ outCore, d ∈ coreX)
    (f : Nd.Arr α → Nd.Arr β → Py (Nd.Arr γ)) :
    (x.dims.filter (fun d => decide (d ∉ coreX)) ++ coreX).Perm x.dims ∧
    ∃ a b, a.shape = (x.dims.filter (fun d => decide (d ∉ coreX)) ++ coreX).map x.size ∧
      (∀ i, a.get i = entry x (fun d =>
        i ((x.dims.filter (fun d => decide (d ∉ coreX)) ++ coreX).idxOf d))) ∧
      b.shape = ((x.dims.filter (fun d => decide (d ∉ coreX)) ++ coreY).dropWhile
        (fun d => decide (d ∉ y.dims))).map (fun d => if d ∈ y.dims then y.size d else 1) ∧
      (∀ i, b.get i = entry y (fun d => i (((x.dims.filter (fun d => decide (d ∉ coreX)) ++ coreY
        ).dropWhile (fun d => decide (d ∉ y.dims))).idxOf d))) ∧
      applyUfunc₂ x y coreX coreY outCore f = (f a b).bind (wrapResult [x.frame, y.frame] []
        (x.dims.filter (fun d => decide (d ∉ coreX)) ++ outCore)) := by
  obtain ⟨hperm, -⟩ := applyUfunc_run x hx (plain := []) (outCore := []) (exclude := []) hcn hcs
    (by intro d _; simp) (fun a => (Except.ok a : Py (Nd.Arr α)))
  refine ⟨hperm, ?_⟩
  have hloop : loopDims [x.frame, y.frame] [] (coreX ++ coreY ++ outCore)
      = .ok (x.dims.filter (fun d => decide (d ∉ coreX))) := by
    unfold loopDims unifiedDims
    rw [if_neg, if_neg]
    · simp only [Except.map, DataArray.frame, List.flatMap_cons, List.flatMap_nil, List.append_nil,
        List.not_mem_nil, not_false_eq_true, decide_true, List.filter_true]
      rw [firstNames_append hx hyx]
      congr 1
      refine List.filter_congr fun d hd => ?_
      rw [decide_eq_decide]
      constructor
      · intro h h'
        exact h (by simp [h'])
      · intro h h'
        rcases List.mem_append.1 h' with h' | h'
        · rcases List.mem_append.1 h' with h' | h'
          exacts [h h', h (hcyx d h')]
        · exact h (hox d h')
    · push Not
      intro f hf g hg d hdf hdg _
      simp only [List.mem_cons, List.not_mem_nil, or_false] at hf hg
      rcases hf with rfl | rfl <;> rcases hg with rfl | rfl
      · rfl
      · exact (hsz d hdg).symm
      · exact hsz d hdf
      · rfl
    · push Not
      intro f hf
      simp only [List.mem_cons, List.not_mem_nil, or_false] at hf
      rcases hf with rfl | rfl
      exacts [hx, hy]
  obtain ⟨a, h1, h2, h3⟩ := compatData_all x hx hperm
  have hln : (x.dims.filter (fun d => decide (d ∉ coreX)) ++ coreY).Nodup := by
    rw [List.nodup_append]
    refine ⟨hx.filter _, hcy, ?_⟩
    intro p hp q hq hpq
    subst hpq
    have := (List.mem_filter.1 hp).2
    rw [decide_eq_true_iff] at this
    exact this (hcyx _ hq)
  obtain ⟨b, h4, h5, h6⟩ := compatData_ok y hy hln hcys (by
    intro d hd
    rw [List.mem_append, List.mem_filter]
    by_cases h : d ∈ coreX
    · exact .inr (hyc d hd h)
    · exact .inl ⟨hyx d hd, by simpa using h⟩)
  refine ⟨a, b, h2, h3, h5, h6, ?_⟩
  unfold applyUfunc₂
  rw [hloop]
  show (compatData x _ coreX).bind _ = _
  rw [h1]
  show (compatData y _ coreY).bind _ = _
  rw [h4]
  rfl

theorem wrapResult_ok {inputs : List (Frame δ)} {exclude dims : List δ} {out : Nd.Arr α}
    {size : δ → ℕ} (hd : dims.Nodup) (hs : out.shape = dims.map size)
    (hi : ∀ f ∈ inputs, ∀ d ∈ dims, d ∈ f.1 → d ∉ exclude → size d = f.2 d) :
    wrapResult inputs exclude dims out = .ok (.ofNd dims out) := by
  unfold wrapResult
  rw [if_neg (by simp [hs]), if_neg (by simpa using hd), if_neg]
  rintro ⟨f, hf, d, hdd, hdf, hde, hne⟩
  have hil := List.idxOf_lt_length_iff.2 hdd
  apply hne
  rw [hs, ← hi f hf d hdd hdf hde]
  simp [hil]

theorem showsNamed_ofNd {dims : List δ} (hd : dims.Nodup) {out : Nd.Arr α} {sz : ℕ → ℕ}
    {F : (ℕ → ℕ) → α} (h : Shows out (List.range dims.length) sz F) {size : δ → ℕ}
    (hsz : ∀ d ∈ dims, sz (dims.idxOf d) = size d) :
    ShowsNamed (DataArray.ofNd dims out) dims size (fun c => F (pos dims c)) := by
  refine ⟨rfl, fun d hdd => ?_, fun c hc => ?_⟩
  · have hil := List.idxOf_lt_length_iff.2 hdd
    show out.shape.getD (dims.idxOf d) 0 = _
    rw [h.1, List.getD_eq_getElem _ _ (by simpa using hil), List.getElem_map, List.getElem_range]
    exact hsz d hdd
  · rw [ofNd_entry]
    have e := h.2 (pos dims c) fun p hp => ?_
    · rw [along_pos] at e
      exact e
    have hp := List.mem_range.1 hp
    have := hsz dims[p] (List.getElem_mem hp)
    rw [hd.idxOf_getElem] at this
    rw [pos_lt hp, this]
    exact hc _ (List.getElem_mem hp)

theorem shape_map_size {dims : List δ} (hd : dims.Nodup) {out : Nd.Arr α} {sz : ℕ → ℕ}
    (h : out.shape = (List.range dims.length).map sz) {size : δ → ℕ}
    (hsz : ∀ d ∈ dims, sz (dims.idxOf d) = size d) : out.shape = dims.map size := by
  rw [h]
  refine List.ext_getElem (by simp) fun p h1 h2 => ?_
  have hp : p < dims.length := by simpa using h2
  have := hsz dims[p] (List.getElem_mem hp)
  rw [hd.idxOf_getElem] at this
  simpa using this

theorem axisSize_map {T : List δ} {a : Nd.Arr α} {size : δ → ℕ} (h : a.shape = T.map size) {d : δ}
    (hd : d ∈ T) : axisSize a (T.idxOf d) = size d := by
  have hil := List.idxOf_lt_length_iff.2 hd
  unfold axisSize
  rw [h]
  simp [hil]

end Arrays

section Rows

variable {K V M : Type} [Field K] [DecidableEq K]

/-- The positions of the moment dimensions in `loop ++ dim :: moms`. -/
def momPos (n nd : ℕ) : List ℕ := (List.range nd).map (fun j => n + 1 + j)

theorem arranged {x : DataArray δ K} {T : List δ} {n nd : ℕ} (hT : T.length = n + 1 + nd)
    {a : Nd.Arr K}
    (hs : a.shape = T.map x.size) (hd : ∀ d ∈ x.dims, d ∈ T)
    (hg : ∀ i, a.get i = entry x (fun d => i (T.idxOf d))) :
    Nd.Prepared a (axisBefore nd) (Nd.axesLast nd) T.length n (momPos n nd)
      (List.range T.length) (axisSize a) a.get := by
  have hl : a.shape.length = T.length := by rw [hs, List.length_map]
  have hw : wrap T.length (axisBefore nd) = n := by
    have := Nd.wrap_neg (n := T.length) (z := axisBefore nd)
      (by unfold InRange axisBefore; omega) (by unfold axisBefore; omega)
    unfold axisBefore at this ⊢
    omega
  have hwm : (Nd.axesLast nd).map (wrap T.length) = momPos n nd := by
    rw [Nd.axesLast_wrap' (by omega)]
    exact List.map_congr_left fun j _ => by omega
  have hmn : ∀ p ∈ momPos n nd, p < T.length := by
    intro p hp
    obtain ⟨j, hj, rfl⟩ := List.mem_map.1 hp
    have := List.mem_range.1 hj
    omega
  have hpr : a.Proper := by
    intro i j hij
    rw [hg, hg]
    refine entry_congr x fun d hdd => hij _ ?_
    rw [hl]
    exact List.idxOf_lt_length_iff.2 (hd d hdd)
  have hid : (momPos n nd).map (List.range T.length).idxOf = momPos n nd := by
    conv_rhs => rw [← List.map_id (momPos n nd)]
    exact List.map_congr_left fun p hp => Nd.idxOf_range (hmn p hp)
  exact {
    good := by
      refine ⟨hpr, ?_, ?_, ?_, ?_⟩
      · rw [hl]; exact Nd.axesLast_range' (by omega)
      · rw [hl, hwm]
        exact List.nodup_range.map (fun a b h => by simpa using h)
      · rw [hl]; unfold InRange axisBefore; omega
      · rw [hl, hwm, hw]
        intro h
        obtain ⟨j, _, hj⟩ := List.mem_map.1 h
        omega
    shows := by rw [← hl]; exact Nd.hasLayout_self hpr
    perm := List.Perm.refl _
    idx := by rw [hl, hw, Nd.idxOf_range (by omega)]
    idxm := by rw [hl, hwm, hid]
    others := by
      rw [hid, Nd.idxOf_range (by omega)]
      conv_rhs => rw [← List.map_id (keptAxes _ _)]
      refine List.map_congr_left fun p hp => ?_
      have := (Nd.mem_keptAxes.1 hp).1
      simp [this]
    axn := by omega
    momn := hmn }

theorem idxOf_loop {loop rest : List δ} {d : δ} (h : d ∈ loop) :
    (loop ++ rest).idxOf d = loop.idxOf d := List.idxOf_append_of_mem h

theorem idxOf_dim {loop rest : List δ} {d : δ} (h : d ∉ loop) :
    (loop ++ d :: rest).idxOf d = loop.length := by
  rw [List.idxOf_append_of_notMem h, List.idxOf_cons_self, Nat.add_zero]

theorem idxOf_mom {loop moms : List δ} {d e : δ} (h : e ∉ loop) (hne : e ≠ d) :
    (loop ++ d :: moms).idxOf e = loop.length + 1 + moms.idxOf e := by
  rw [List.idxOf_append_of_notMem h, List.idxOf_cons_ne _ hne.symm]
  omega

theorem momPos_idxOf {n nd j : ℕ} (hj : j < nd) : (momPos n nd).idxOf (n + 1 + j) = j := by
  have hn : (momPos n nd).Nodup := List.nodup_range.map (fun a b h => by simpa using h)
  have := hn.idxOf_getElem j (by simpa [momPos] using hj)
  simpa [momPos] using this

theorem mem_momPos {n nd p : ℕ} : p ∈ momPos n nd ↔ n + 1 ≤ p ∧ p < n + 1 + nd := by
  unfold momPos
  rw [List.mem_map]
  constructor
  · rintro ⟨j, hj, rfl⟩
    have := List.mem_range.1 hj
    omega
  · rintro ⟨h1, h2⟩
    exact ⟨p - (n + 1), List.mem_range.2 (by omega), by omega⟩

theorem recordsOf_named {core : Nd.Core K M} (hc : core.Ok) {x : DataArray δ K} {loop moms : List δ}
    {dim : δ} (hm : moms.length = core.nd)
    (hn : (loop ++ dim :: moms).Nodup) (hd : ∀ d ∈ x.dims, d ∈ loop ++ dim :: moms) {a : Nd.Arr K}
    (hs : a.shape = (loop ++ dim :: moms).map x.size)
    (hg : ∀ i, a.get i = entry x (fun d => i ((loop ++ dim :: moms).idxOf d)))
    {i : ℕ → ℕ} {c : δ → ℕ} (hi : ∀ d ∈ loop, i (loop.idxOf d) = c d) :
    Nd.recordsOf core (axisSize a) a.get (momPos loop.length core.nd) loop.length i
      = recordsAlong core x moms dim c := by
  have hdl : dim ∉ loop := by
    intro h
    rw [List.nodup_append] at hn
    exact hn.2.2 dim h dim List.mem_cons_self rfl
  have hsz : axisSize a loop.length = x.size dim := by
    have := axisSize_map hs (d := dim) (by simp)
    rwa [idxOf_dim hdl] at this
  unfold Nd.recordsOf recordsAlong
  have hall : ∀ s : ℕ, allIdx [(loop.length, s)] i
      = (List.range s).map (fun t => Function.update i loop.length t) := by
    intro s
    simp only [allIdx]
    rw [List.map_eq_flatMap]
  rw [hsz, hall, List.map_map]
  refine List.map_congr_left fun t _ => ?_
  unfold recordNamed
  refine hc.recd_congr _ _ fun ms hms => ?_
  beta_reduce
  rw [hg]
  refine entry_congr x fun d hdd => ?_
  have hdT := hd d hdd
  unfold Nd.setAxes withNames
  by_cases h1 : d ∈ loop
  · have hml : d ∉ dim :: moms := by
      intro h
      rw [List.nodup_append] at hn
      exact hn.2.2 d h1 d h rfl
    rw [List.mem_cons, not_or] at hml
    have hlt := List.idxOf_lt_length_iff.2 h1
    rw [idxOf_loop h1, if_neg (by rw [mem_momPos]; omega), if_neg hml.2,
      Function.update_of_ne (by omega), Function.update_of_ne hml.1, hi d h1]
  by_cases h2 : d = dim
  · subst h2
    have : d ∉ moms := by
      rw [List.nodup_append] at hn
      exact (List.nodup_cons.1 hn.2.1).1
    rw [idxOf_dim hdl, if_neg (by rw [mem_momPos]; omega), if_neg this, Function.update_self,
      Function.update_self]
  · have h3 : d ∈ moms := by simpa [h1, h2] using hdT
    have hlt := List.idxOf_lt_length_iff.2 h3
    rw [idxOf_mom h1 h2, if_pos (by rw [mem_momPos]; omega), if_pos h3,
      momPos_idxOf (by omega)]

/-- From positions to names. -/
theorem rows_named {L : Type} {core : Nd.Core K M} (hc : core.Ok) {x : DataArray δ K}
    {loop moms : List δ} {dim outDim : δ} (hm : moms.length = core.nd)
    (hn : (loop ++ dim :: moms).Nodup) (hmem : ∀ d ∈ x.dims, d ∈ loop ++ dim :: moms)
    (hon : (loop ++ outDim :: moms).Nodup) {a : Nd.Arr K}
    (hs : a.shape = (loop ++ dim :: moms).map x.size)
    (hg : ∀ i, a.get i = entry x (fun d => i ((loop ++ dim :: moms).idxOf d)))
    {newSize : ℕ} {out : Nd.Arr L} {R : (ℕ → ℕ) → List M → ℕ → List ℕ → L}
    {R' : (δ → ℕ) → List M → ℕ → List ℕ → L}
    (hshow : Shows out (List.range (loop ++ dim :: moms).length)
      (fun b => if b = loop.length then newSize else axisSize a b)
      (fun i => R i (Nd.recordsOf core (axisSize a) a.get (momPos loop.length core.nd) loop.length i)
        (i loop.length) ((momPos loop.length core.nd).map i)))
    (hR : ∀ c, (∀ d ∈ loop ++ outDim :: moms, c d < if d = outDim then newSize else x.size d) →
      R (pos (loop ++ outDim :: moms) c) = R' c) :
    out.shape = (loop ++ outDim :: moms).map (fun d => if d = outDim then newSize else x.size d) ∧
    ShowsNamed (DataArray.ofNd (loop ++ outDim :: moms) out) (loop ++ outDim :: moms)
        (fun d => if d = outDim then newSize else x.size d)
        (fun c => R' c (recordsAlong core x moms dim c) (c outDim) (moms.map c)) := by
  have hlm : ∀ {e : δ}, (loop ++ e :: moms).Nodup → e ∉ loop ∧ e ∉ moms := by
    intro e h
    rw [List.nodup_append, List.nodup_cons] at h
    exact ⟨fun h' => h.2.2 e h' e List.mem_cons_self rfl, h.2.1.1⟩
  obtain ⟨hol, hom⟩ := hlm hon
  obtain ⟨hdl, hdm⟩ := hlm hn
  have hml : ∀ d ∈ moms, d ∉ loop := by
    rw [List.nodup_append] at hn
    exact fun d h1 h2 => hn.2.2 d h2 d (List.mem_cons_of_mem _ h1) rfl
  have hmn : moms.Nodup := by
    rw [List.nodup_append, List.nodup_cons] at hn
    exact hn.2.1.2
  have hOl : (loop ++ outDim :: moms).length = (loop ++ dim :: moms).length := by simp
  have hsizes : ∀ d ∈ loop ++ outDim :: moms,
      (fun b => if b = loop.length then newSize else axisSize a b)
        ((loop ++ outDim :: moms).idxOf d) = if d = outDim then newSize else x.size d := by
    intro d hd
    beta_reduce
    by_cases h1 : d ∈ loop
    · have hlt := List.idxOf_lt_length_iff.2 h1
      have hne : ¬ d = outDim := fun h => hol (h ▸ h1)
      rw [idxOf_loop h1, if_neg (by omega), if_neg hne,
        ← idxOf_loop (rest := dim :: moms) h1]
      exact axisSize_map hs (List.mem_append_left _ h1)
    by_cases h2 : d = outDim
    · subst h2
      rw [idxOf_dim hol, if_pos rfl, if_pos rfl]
    · have h3 : d ∈ moms := by simpa [h1, h2] using hd
      have hnd : d ≠ dim := fun h => hdm (h ▸ h3)
      rw [idxOf_mom h1 h2, if_neg (by omega), if_neg h2, ← idxOf_mom h1 hnd]
      exact axisSize_map hs (by simp [h3])
  rw [← hOl] at hshow
  refine ⟨shape_map_size hon hshow.1 hsizes, ?_⟩
  have hS := showsNamed_ofNd hon hshow hsizes
  refine ⟨hS.dims_eq, hS.size_eq, fun c hcb => ?_⟩
  rw [hS.entry_eq c hcb]
  beta_reduce
  have hi : ∀ d ∈ loop, pos (loop ++ outDim :: moms) c (loop.idxOf d) = c d := by
    intro d hd
    rw [← idxOf_loop (rest := outDim :: moms) hd]
    exact pos_idxOf (List.mem_append_left _ hd)
  rw [recordsOf_named hc hm hn hmem hs hg hi, hR c hcb]
  have h1 : pos (loop ++ outDim :: moms) c loop.length = c outDim := by
    have := pos_idxOf (T := loop ++ outDim :: moms) (c := c) (d := outDim) (by simp)
    rwa [idxOf_dim hol] at this
  have h2 : (momPos loop.length core.nd).map (pos (loop ++ outDim :: moms) c) = moms.map c := by
    unfold momPos
    rw [List.map_map]
    refine List.ext_getElem (by simp [hm]) fun p hp1 hp2 => ?_
    have hp : p < moms.length := by simpa using hp2
    rw [List.getElem_map, List.getElem_map, List.getElem_range]
    have hmp := List.getElem_mem hp
    have hne : moms[p] ≠ outDim := fun h => hom (h ▸ hmp)
    have h3 := pos_idxOf (T := loop ++ outDim :: moms) (c := c) (d := moms[p]) (by simp)
    rw [idxOf_mom (hml _ hmp) hne, hmn.idxOf_getElem] at h3
    exact h3
  rw [h1, h2]

/-- Operations along one dimension, by name, from the operation along one axis of the arranged
array. -/
theorem applyUfunc_rows {L : Type} {core : Nd.Core K M} (hc : core.Ok) {x : DataArray δ K}
    {moms : List δ}
    {dim : δ} (g : GoodNamed x moms dim) (hm : moms.length = core.nd) {plain exclude : List δ}
    {outDim : δ} {newSize : ℕ} {f : Nd.Arr K → Py (Nd.Arr L)}
    {R : List M → ℕ → List ℕ → L}
    (hcore : ∀ d ∈ x.dims, (d ∉ exclude ∧ d ∉ (dim :: moms) ++ plain ++ (outDim :: moms)) ↔
      d ∉ dim :: moms)
    (hout : outDim = dim ∨ outDim ∉ x.dims)
    (hsz : outDim = dim → dim ∉ exclude → newSize = x.size dim)
    (H : ∀ a n ax mom size G, Nd.Prepared a (axisBefore core.nd) (Nd.axesLast core.nd) n ax mom
      (List.range n) size G → size ax = x.size dim → ax ∉ mom →
      ∃ out, f a = .ok out ∧
        Shows out (List.range n) (fun b => if b = ax then newSize else size b)
          (fun i => R (Nd.recordsOf core size G mom ax i) (i ax) (mom.map i))) :
    ∃ y, applyUfunc x (dim :: moms) plain (outDim :: moms) exclude f = .ok y ∧
      ShowsNamed y (x.dims.filter (fun d => decide (d ∉ dim :: moms)) ++ outDim :: moms)
        (fun d => if d = outDim then newSize else x.size d)
        (fun c => R (recordsAlong core x moms dim c) (c outDim) (moms.map c)) := by
  obtain ⟨hperm, a, hs, hg, e⟩ := applyUfunc_run x g.distinct
    (List.nodup_cons.2 ⟨g.notMom, g.momDistinct⟩) g.core hcore f
  set loop := x.dims.filter (fun d => decide (d ∉ dim :: moms)) with hloop
  have hn : (loop ++ dim :: moms).Nodup := hperm.nodup_iff.2 g.distinct
  have hmem : ∀ d ∈ x.dims, d ∈ loop ++ dim :: moms := fun d hd => hperm.mem_iff.2 hd
  have hlm : ∀ d ∈ loop, d ∈ x.dims := fun d hd => (List.mem_filter.1 hd).1
  have hnl : ∀ d ∈ dim :: moms, d ∉ loop := by
    intro d hd h
    have := (List.mem_filter.1 h).2
    rw [decide_eq_true_iff] at this
    exact this hd
  have hol : outDim ∉ loop := by
    rcases hout with rfl | h
    exacts [hnl _ List.mem_cons_self, fun h' => h (hlm _ h')]
  have hom : outDim ∉ moms := by
    rcases hout with rfl | h
    exacts [g.notMom, fun h' => h (g.momPresent _ h')]
  have hon : (loop ++ outDim :: moms).Nodup := by
    rw [List.nodup_append, List.nodup_cons]
    refine ⟨g.distinct.filter _, ⟨hom, g.momDistinct⟩, ?_⟩
    intro p hp q hq hpq
    subst hpq
    rcases List.mem_cons.1 hq with rfl | hq
    exacts [hol hp, hnl _ (List.mem_cons_of_mem _ hq) hp]
  have hTl : (loop ++ dim :: moms).length = loop.length + 1 + core.nd := by
    simp [hm]; omega
  have P := arranged hTl hs hmem hg
  have hax : loop.length ∉ momPos loop.length core.nd := by rw [mem_momPos]; omega
  have hsd : axisSize a loop.length = x.size dim := by
    have := axisSize_map hs (d := dim) (by simp)
    rwa [idxOf_dim (hnl _ List.mem_cons_self)] at this
  obtain ⟨out, hf, hshow⟩ := H a _ _ _ _ _ P hsd hax
  obtain ⟨h1, h2⟩ := rows_named hc hm hn hmem hon hs hg (R := fun _ => R) (R' := fun _ => R) hshow
    (fun _ _ => rfl)
  rw [e, hf]
  refine ⟨_, wrapResult_ok hon h1 ?_, h2⟩
  intro fr hfr d hd hdx hde
  rw [List.mem_singleton] at hfr
  subst hfr
  by_cases h : d = outDim
  · rw [if_pos h]
    subst h
    rcases hout with h | h
    · subst h; exact hsz rfl hde
    · exact absurd hdx h
  · rw [if_neg h]; rfl

/-- When the operation on the arranged array fails, so does the labelled one. -/
theorem applyUfunc_fails {L : Type} {core : Nd.Core K M} {x : DataArray δ K}
    {moms : List δ}
    {dim : δ} (g : GoodNamed x moms dim) (hm : moms.length = core.nd) {plain exclude : List δ}
    {outDim : δ} {f : Nd.Arr K → Py (Nd.Arr L)} {e : PyErr}
    (hcore : ∀ d ∈ x.dims, (d ∉ exclude ∧ d ∉ (dim :: moms) ++ plain ++ (outDim :: moms)) ↔
      d ∉ dim :: moms)
    (H : ∀ a n ax mom size G, Nd.Prepared a (axisBefore core.nd) (Nd.axesLast core.nd) n ax mom
      (List.range n) size G → size ax = x.size dim → ax ∉ mom → f a = .error e) :
    applyUfunc x (dim :: moms) plain (outDim :: moms) exclude f = .error e := by
  obtain ⟨hperm, a, hs, hg, e1⟩ := applyUfunc_run x g.distinct
    (List.nodup_cons.2 ⟨g.notMom, g.momDistinct⟩) g.core hcore f
  set loop := x.dims.filter (fun d => decide (d ∉ dim :: moms)) with hloop
  have hnl : dim ∉ loop := by
    intro h
    have := (List.mem_filter.1 h).2
    rw [decide_eq_true_iff] at this
    exact this List.mem_cons_self
  have hTl : (loop ++ dim :: moms).length = loop.length + 1 + core.nd := by
    simp [hm]; omega
  have P := arranged hTl hs (fun d hd => hperm.mem_iff.2 hd) hg
  have hsd : axisSize a loop.length = x.size dim := by
    have := axisSize_map hs (d := dim) (by simp)
    rwa [idxOf_dim hnl] at this
  rw [e1, H a _ _ _ _ _ P hsd (by rw [mem_momPos]; omega)]
  rfl

theorem showsNamed_sizes {L : Type} {y : DataArray δ L} {dims : List δ} {size size' : δ → ℕ}
    {F : (δ → ℕ) → L} (h : ShowsNamed y dims size F) (hs : ∀ d ∈ dims, size d = size' d) :
    ShowsNamed y dims size' F :=
  ⟨h.dims_eq, fun d hd => (h.size_eq d hd).trans (hs d hd), fun c hc =>
    h.entry_eq c fun d hd => (hs d hd) ▸ hc d hd⟩

theorem hcore_same (x : DataArray δ K) (dim : δ) (moms : List δ) {plain exclude : List δ}
    (h1 : ∀ d ∈ plain, d = dim) (h2 : ∀ d ∈ exclude, d = dim) :
    ∀ d ∈ x.dims, (d ∉ exclude ∧ d ∉ (dim :: moms) ++ plain ++ (dim :: moms)) ↔ d ∉ dim :: moms := by
  intro d _
  constructor
  · rintro ⟨_, h⟩ h'
    exact h (List.mem_append_right _ h')
  · intro h
    refine ⟨fun h' => h (by rw [h2 d h']; exact List.mem_cons_self), fun h' => ?_⟩
    rcases List.mem_append.1 h' with h' | h'
    · rcases List.mem_append.1 h' with h' | h'
      · exact h h'
      · exact h (by rw [h1 d h']; exact List.mem_cons_self)
    · exact h h'

/-- The dimension and its size are kept. -/
theorem applyUfunc_same {L : Type} {core : Nd.Core K M} (hc : core.Ok) {x : DataArray δ K}
    {moms : List δ} {dim : δ} (g : GoodNamed x moms dim) (hm : moms.length = core.nd)
    {plain : List δ} (hpl : ∀ d ∈ plain, d = dim) {f : Nd.Arr K → Py (Nd.Arr L)}
    {R : List M → ℕ → List ℕ → L}
    (H : ∀ a n ax mom size G, Nd.Prepared a (axisBefore core.nd) (Nd.axesLast core.nd) n ax mom
      (List.range n) size G → size ax = x.size dim → ax ∉ mom →
      ∃ out, f a = .ok out ∧ Shows out (List.range n) size
          (fun i => R (Nd.recordsOf core size G mom ax i) (i ax) (mom.map i)))
    (axesToEnd : Bool) :
    ∃ y, ((applyUfunc x (dim :: moms) plain (dim :: moms) [] f).bind fun y =>
        y.step (fun z => sameDims z x.dims dim moms axesToEnd false)) = .ok y ∧
      ShowsNamed y (dimsAfter x.dims dim moms axesToEnd) x.size
        (fun c => R (recordsAlong core x moms dim c) (c dim) (moms.map c)) := by
  obtain ⟨y, e, h⟩ := applyUfunc_rows (newSize := x.size dim) hc g hm
    (hcore_same x dim moms hpl (exclude := []) (fun _ h => absurd h List.not_mem_nil)) (.inl rfl)
    (fun _ _ => rfl)
    (by
      intro a n ax mom size G P hs hax
      obtain ⟨out, h1, h2⟩ := H a n ax mom size G P hs hax
      refine ⟨out, h1, ?_⟩
      rw [← hs, Nd.sizes_same]
      exact h2)
  obtain ⟨w, e', h'⟩ := sameDims_shows g h axesToEnd
  refine ⟨w, by rw [e]; exact e', showsNamed_sizes h' fun d _ => ?_⟩
  by_cases hd : d = dim
  · rw [if_pos hd, hd]
  · rw [if_neg hd]

/-- Giving the resized dimension its new name, if any. -/
theorem rename_end {L : Type} {core : Nd.Core K M} {x : DataArray δ K} {moms : List δ} {dim : δ}
    (g : GoodNamed x moms dim) {newSize : ℕ} {w : DataArray δ L} {axesToEnd : Bool}
    {R : List M → ℕ → List ℕ → L}
    (h' : ShowsNamed w (dimsAfter x.dims dim moms axesToEnd)
      (fun d => if d = dim then newSize else x.size d)
      (fun c => R (recordsAlong core x moms dim c) (c dim) (moms.map c)))
    (group : Option δ) (hgr : ∀ n, group = some n → n = dim ∨ n ∉ x.dims) :
    ∃ y, (match group with
          | none => .ok w
          | some n => w.rename dim n : Py (DataArray δ L)) = .ok y ∧
      ShowsNamed y (renamed (dimsAfter x.dims dim moms axesToEnd) dim (group.getD dim))
        (sizesWith x (group.getD dim) newSize)
        (fun c => R (recordsAlong core x moms dim c) (c (group.getD dim)) (moms.map c)) := by
  have hmemd : ∀ d, d ∈ dimsAfter x.dims dim moms axesToEnd ↔ d ∈ x.dims := by
    intro d
    cases axesToEnd
    · exact Iff.rfl
    · exact mem_filter_append g.core d
  have hself : renamed (dimsAfter x.dims dim moms axesToEnd) dim dim
      = dimsAfter x.dims dim moms axesToEnd := by
    unfold renamed
    conv_rhs => rw [← List.map_id (dimsAfter _ _ _ _)]
    refine List.map_congr_left fun d _ => ?_
    by_cases hd : d = dim
    · rw [if_pos hd, hd]; rfl
    · rw [if_neg hd]; rfl
  cases group with
  | none =>
    refine ⟨w, rfl, ?_⟩
    rw [Option.getD_none, hself]
    exact h'
  | some n =>
    rw [Option.getD_some]
    by_cases hnd : n = dim
    · subst hnd
      refine ⟨w, ?_, by rw [hself]; exact h'⟩
      show w.rename n n = _
      unfold DataArray.rename
      rw [h'.dims_eq, if_neg (not_not.2 ((hmemd n).2 g.present)), if_pos rfl]
    · have hn : n ∉ x.dims := (hgr n rfl).resolve_left hnd
      obtain ⟨v, e'', h''⟩ := rename_shows h' ((hmemd dim).2 g.present)
        (fun h => hn ((hmemd n).1 h))
      refine ⟨v, e'', ?_⟩
      refine ⟨h''.dims_eq, fun d hd => (h''.size_eq d hd).trans ?_, fun c hcb => ?_⟩
      · unfold sizesWith
        by_cases h1 : d = n
        · simp [h1]
        · rw [if_neg h1, if_neg h1, if_neg]
          rintro rfl
          obtain ⟨q, hq, hqd⟩ := List.mem_map.1 hd
          by_cases h2 : q = d
          · rw [if_pos h2] at hqd; exact h1 hqd.symm
          · rw [if_neg h2] at hqd; exact h2 hqd
      · rw [h''.entry_eq c]
        · have hr : recordsAlong core x moms dim (Function.update c dim (c n))
              = recordsAlong core x moms dim c := by
            unfold recordsAlong
            simp only [Function.update_idem]
          have hmm : moms.map (Function.update c dim (c n)) = moms.map c :=
            List.map_congr_left fun d hd => by
              have hne : d ≠ dim := fun h => g.notMom (h ▸ hd)
              exact Function.update_of_ne hne _ _
          rw [hr, hmm, Function.update_self]
        · intro d hd
          have := hcb d hd
          unfold sizesWith at this
          by_cases h1 : d = n
          · simpa [h1] using this
          · rw [if_neg h1] at this ⊢
            rw [if_neg]
            · exact this
            · rintro rfl
              obtain ⟨q, hq, hqd⟩ := List.mem_map.1 hd
              by_cases h2 : q = d
              · rw [if_pos h2] at hqd; exact h1 hqd.symm
              · rw [if_neg h2] at hqd; exact h2 hqd

/-- The dimension is kept with a new size. -/
theorem applyUfunc_resized {L : Type} {core : Nd.Core K M} (hc : core.Ok) {x : DataArray δ K}
    {moms : List δ} {dim : δ} (g : GoodNamed x moms dim) (hm : moms.length = core.nd)
    {plain : List δ} (hpl : ∀ d ∈ plain, d = dim) {f : Nd.Arr K → Py (Nd.Arr L)}
    {R : List M → ℕ → List ℕ → L} {newSize : ℕ}
    (H : ∀ a n ax mom size G, Nd.Prepared a (axisBefore core.nd) (Nd.axesLast core.nd) n ax mom
      (List.range n) size G → size ax = x.size dim → ax ∉ mom →
      ∃ out, f a = .ok out ∧ Shows out (List.range n) (fun b => if b = ax then newSize else size b)
          (fun i => R (Nd.recordsOf core size G mom ax i) (i ax) (mom.map i)))
    (axesToEnd : Bool) (group : Option δ) (hgr : ∀ n, group = some n → n = dim ∨ n ∉ x.dims) :
    ∃ y, ((applyUfunc x (dim :: moms) plain (dim :: moms) [dim] f).bind fun y =>
        (y.step (fun z => sameDims z x.dims dim moms axesToEnd false)).bind fun z =>
          match group with
          | none => .ok z
          | some n => z.rename dim n) = .ok y ∧
      ShowsNamed y (renamed (dimsAfter x.dims dim moms axesToEnd) dim (group.getD dim))
        (sizesWith x (group.getD dim) newSize)
        (fun c => R (recordsAlong core x moms dim c) (c (group.getD dim)) (moms.map c)) := by
  obtain ⟨y, e, h⟩ := applyUfunc_rows (newSize := newSize) hc g hm
    (hcore_same x dim moms hpl (exclude := [dim]) (fun _ h => List.mem_singleton.1 h)) (.inl rfl)
    (fun _ h => absurd List.mem_cons_self h) H
  obtain ⟨w, e', h'⟩ := sameDims_shows g h axesToEnd
  rw [e]
  simp only [Except.bind]
  rw [e']
  exact rename_end g h' group hgr

theorem allIdx_named {T : List δ} {B : Type} {f : (ℕ → ℕ) → B} {g : (δ → ℕ) → B}
    (hfg : ∀ i c, (∀ d ∈ T, i (T.idxOf d) = c d) → f i = g c) (sz : ℕ → ℕ) {size : δ → ℕ}
    (hsz : ∀ d ∈ T, sz (T.idxOf d) = size d) (ds : List δ) (hds : ∀ d ∈ ds, d ∈ T) (i : ℕ → ℕ)
    (c : δ → ℕ) (hic : ∀ d ∈ T, i (T.idxOf d) = c d) :
    (allIdx ((ds.map T.idxOf).map (fun a => (a, sz a))) i).map f = (allCoords size ds c).map g := by
  induction ds generalizing i c with
  | nil => simp [allIdx, allCoords, hfg i c hic]
  | cons d l ih =>
    simp only [List.map_cons, allIdx, allCoords]
    rw [hsz d (hds d List.mem_cons_self), List.map_flatMap, List.map_flatMap]
    refine List.flatMap_congr fun s _ => ?_
    refine ih (fun e he => hds e (List.mem_cons_of_mem _ he)) _ _ fun e he => ?_
    by_cases h : e = d
    · subst h; rw [Function.update_self, Function.update_self]
    · rw [Function.update_of_ne h, Function.update_of_ne, hic e he]
      intro h'
      exact h ((List.idxOf_inj he).1 h')

theorem setAxes_named {T moms : List δ} (hm : ∀ d ∈ moms, d ∈ T) {i : ℕ → ℕ} {c : δ → ℕ}
    (hic : ∀ d ∈ T, i (T.idxOf d) = c d) (hmd : moms.Nodup) (ms : List ℕ) :
    ∀ d ∈ T, Nd.setAxes (moms.map T.idxOf) ms i (T.idxOf d) = withNames moms ms c d := by
  intro d hd
  unfold Nd.setAxes withNames
  by_cases h : d ∈ moms
  · have hlt := List.idxOf_lt_length_iff.2 h
    have hn : (moms.map T.idxOf).Nodup := hmd.map_on fun a ha b hb hab =>
      (List.idxOf_inj (hm a ha)).1 hab
    have e := hn.idxOf_getElem (moms.idxOf d) (by simpa using hlt)
    rw [List.getElem_map, List.getElem_idxOf] at e
    rw [if_pos (List.mem_map_of_mem h), if_pos h, e]
  · rw [if_neg h, if_neg, hic d hd]
    intro h'
    obtain ⟨q, hq, e⟩ := List.mem_map.1 h'
    exact h (((List.idxOf_inj (hm q hq)).1 e) ▸ hq)

/-- `reduce_data` of the arranged array, by name. -/
theorem reduce_arranged {core : Nd.Core K M} (hc : core.Ok) (k : Kernel K V M) {x : DataArray δ K}
    {loop ds moms : List δ} (hn : (loop ++ (ds ++ moms)).Nodup)
    (hd : ∀ d ∈ x.dims, d ∈ loop ++ (ds ++ moms)) (hm : moms.length = core.nd) (hds : ds ≠ [])
    (hne : ∀ d ∈ loop ++ moms, x.size d ≠ 0) {a : Nd.Arr K}
    (hs : a.shape = (loop ++ (ds ++ moms)).map x.size)
    (hg : ∀ i, a.get i = entry x (fun d => i ((loop ++ (ds ++ moms)).idxOf d)))
    (keepdims : Bool) :
    ∃ out, Nd.reduceNd core k a (Nd.axesLast core.nd)
        (.many ((List.range ds.length).map (fun j : ℕ => .int (-(ds.length : ℤ) - core.nd + j))))
        keepdims false = .ok out ∧
      out.shape = (loop ++ (if keepdims then ds ++ moms else moms)).map
        (fun d => if d ∈ ds then 1 else x.size d) ∧
      ∀ c, out.get (pos (loop ++ (if keepdims then ds ++ moms else moms)) c)
        = (k.reduceDataFromZero (recordsNamed core x moms ds c)).map
          (fun r => core.ent r (moms.map c)) := by
  set T := loop ++ (ds ++ moms) with hT
  have hl : a.shape.length = T.length := by rw [hs, List.length_map]
  have hTl : T.length = loop.length + ds.length + core.nd := by
    rw [hT]; simp [hm]; omega
  have hmT : ∀ d ∈ moms, d ∈ T := fun d hd => by simp [hT, hd]
  have hdT : ∀ d ∈ ds, d ∈ T := fun d hd => by simp [hT, hd]
  have hdn : ds.Nodup := by
    rw [List.nodup_append] at hn
    exact (List.nodup_append.1 hn.2.1).1
  have hmn : moms.Nodup := by
    rw [List.nodup_append] at hn
    exact (List.nodup_append.1 hn.2.1).2.1
  have hdm : ∀ d ∈ ds, d ∉ moms := by
    rw [List.nodup_append] at hn
    exact fun d h1 h2 => (List.nodup_append.1 hn.2.1).2.2 d h1 d h2 rfl
  have hlr : ∀ d ∈ ds ++ moms, d ∉ loop := by
    rw [List.nodup_append] at hn
    exact fun d h1 h2 => hn.2.2 d h2 d h1 rfl
  have hid : ∀ p (hp : p < ds.length), T.idxOf ds[p] = loop.length + p := by
    intro p hp
    rw [hT, List.idxOf_append_of_notMem (hlr _ (by simp)),
      List.idxOf_append_of_mem (List.getElem_mem hp), hdn.idxOf_getElem]
  have him : ∀ p (hp : p < moms.length), T.idxOf moms[p] = loop.length + ds.length + p := by
    intro p hp
    rw [hT, List.idxOf_append_of_notMem (hlr _ (by simp)),
      List.idxOf_append_of_notMem (fun h => hdm _ h (List.getElem_mem hp)), hmn.idxOf_getElem]
    omega
  set zs : List ℤ := (List.range ds.length).map (fun j : ℕ => -(ds.length : ℤ) - core.nd + j) with hzs
  have hzi : (List.range ds.length).map (fun j : ℕ => AxisArg.int (-(ds.length : ℤ) - core.nd + j))
      = zs.map .int := by rw [hzs, List.map_map]; rfl
  have hwz : zs.map (wrap T.length) = ds.map T.idxOf := by
    rw [hzs, List.map_map]
    refine List.ext_getElem (by simp) fun p h1 h2 => ?_
    have hp : p < ds.length := by simpa using h2
    rw [List.getElem_map, List.getElem_map, List.getElem_range, hid p hp]
    have := Nd.wrap_neg (n := T.length) (z := -(ds.length : ℤ) - core.nd + p)
      (by unfold InRange; omega) (by omega)
    simp only [Function.comp]
    omega
  have hwm : (Nd.axesLast core.nd).map (wrap T.length) = moms.map T.idxOf := by
    rw [Nd.axesLast_wrap' (by omega)]
    refine List.ext_getElem (by simp [hm]) fun p h1 h2 => ?_
    have hp : p < moms.length := by simpa using h2
    rw [List.getElem_map, List.getElem_map, List.getElem_range, him p hp]
    omega
  have hpr : a.Proper := by
    intro i j hij
    rw [hg, hg]
    refine entry_congr x fun d hdd => hij _ ?_
    rw [hl]
    exact List.idxOf_lt_length_iff.2 (hd d hdd)
  have hinj : ∀ l : List δ, (∀ d ∈ l, d ∈ T) → l.Nodup → (l.map T.idxOf).Nodup := fun l h1 h2 =>
    h2.map_on fun p hp q hq hpq => (List.idxOf_inj (h1 p hp)).1 hpq
  have hmemT : ∀ {l : List δ} {d : δ}, (∀ e ∈ l, e ∈ T) → (T.idxOf d ∈ l.map T.idxOf ↔ d ∈ l) := by
    intro l d hl'
    constructor
    · intro h
      obtain ⟨q, hq, e⟩ := List.mem_map.1 h
      exact ((List.idxOf_inj (hl' q hq)).1 e) ▸ hq
    · exact fun h => List.mem_map_of_mem h
  have G : GoodCall a (Nd.axesLast core.nd) zs := {
    proper := hpr
    momRange := by rw [hl]; exact Nd.axesLast_range' (by omega)
    momDistinct := by rw [hl, hwm]; exact hinj _ hmT hmn
    range := by
      rw [hl, hzs]
      intro z hz
      obtain ⟨j, hj, rfl⟩ := List.mem_map.1 hz
      have := List.mem_range.1 hj
      unfold InRange; omega
    distinct := by rw [hl, hwz]; exact hinj _ hdT hdn
    some_axis := by rw [hzs]; simpa using hds
    disjoint := by
      rw [hl, hwm, hwz]
      intro p hp hp'
      obtain ⟨d, hd', rfl⟩ := List.mem_map.1 hp
      exact hdm d ((hmemT hdT).1 hp') hd'
    nonempty := by
      rw [hl, hwz]
      intro p hp
      obtain ⟨h1, h2⟩ := Nd.mem_keptAxes.1 hp
      have hpT : T.idxOf T[p] = p := hn.idxOf_getElem _ _
      have e := axisSize_map hs (List.getElem_mem h1)
      rw [hpT] at e
      rw [e]
      refine hne _ ?_
      have h3 : T[p] ∉ ds := fun h => h2 (by rw [← hpT]; exact List.mem_map_of_mem h)
      have h4 : T[p] ∈ loop ++ (ds ++ moms) := List.getElem_mem h1
      simp only [List.mem_append] at h4 ⊢
      tauto }
  obtain ⟨out, h1, h2, _⟩ := Nd.reduceNd_spec hc k G keepdims false
  rw [hl, hwz, hwm] at h2
  set outDims := loop ++ (if keepdims then ds ++ moms else moms) with hod
  have hlay : (resultAxes T.length (moms.map T.idxOf) (ds.map T.idxOf) keepdims false)
      = outDims.map T.idxOf := by
    have hself : T.map T.idxOf = List.range T.length := by
      refine List.ext_getElem (by simp) fun p h1 h2 => ?_
      rw [List.getElem_map, List.getElem_range, hn.idxOf_getElem]
    cases keepdims with
    | true =>
      show List.range T.length = _
      rw [hod, if_pos rfl, ← hT, hself]
    | false =>
      show keptAxes T.length (ds.map T.idxOf) = _
      rw [hod, if_neg (by simp)]
      unfold keptAxes
      rw [← hself, List.filter_map]
      congr 1
      have e : T.filter ((fun p => decide (p ∉ ds.map T.idxOf)) ∘ T.idxOf)
          = T.filter (fun d => decide (d ∉ ds)) :=
        List.filter_congr fun d _ => by
          simp only [Function.comp]
          rw [decide_eq_decide, hmemT hdT]
      have e1 : loop.filter (fun d => decide (d ∉ ds)) = loop :=
        List.filter_eq_self.2 fun d hd' => by
          rw [decide_eq_true_iff]
          exact fun h => hlr d (List.mem_append_left _ h) hd'
      have e2 : ds.filter (fun d => decide (d ∉ ds)) = [] :=
        List.filter_eq_nil_iff.2 fun d hd' => by simpa using hd'
      have e3 : moms.filter (fun d => decide (d ∉ ds)) = moms :=
        List.filter_eq_self.2 fun d hd' => by
          rw [decide_eq_true_iff]
          exact fun h => hdm d h hd'
      rw [e, hT, List.filter_append, List.filter_append, e1, e2, e3, List.nil_append]
  have hodT : ∀ d ∈ outDims, d ∈ T := by
    intro d hd'
    rw [hod] at hd'
    cases keepdims <;> simp [hT] at hd' ⊢ <;> tauto
  rw [hlay] at h2
  refine ⟨out, by rw [hzi]; exact h1, ?_, fun c => ?_⟩
  · rw [h2.1, List.map_map]
    refine List.map_congr_left fun d hd' => ?_
    simp only [Function.comp]
    have hm' := hmemT (d := d) hdT
    rw [axisSize_map hs (hodT d hd')]
    by_cases h : d ∈ ds
    · have : keepdims = true := by
        by_contra hk
        rw [hod, if_neg hk] at hd'
        rcases List.mem_append.1 hd' with h' | h'
        exacts [hlr d (List.mem_append_left _ h) h', hdm d h h']
      rw [if_pos ⟨this, hm'.2 h⟩, if_pos h]
    · rw [if_neg (fun h' => h (hm'.1 h'.2)), if_neg h]
  · have hic : ∀ d ∈ T, pos T c (T.idxOf d) = c d := fun d hd' => pos_idxOf hd'
    have hal : along (outDims.map T.idxOf) (pos T c) = pos outDims c := by
      funext p
      unfold along
      rw [List.getElem?_map, Option.map_map]
      unfold pos
      by_cases hp : p < outDims.length
      · rw [List.getElem?_eq_getElem hp]
        simp only [Option.map_some, Option.getD_some, Function.comp]
        exact hic _ (hodT _ (List.getElem_mem hp))
      · rw [List.getElem?_eq_none (by omega)]; rfl
    rw [← hal, h2.2]
    unfold valueAt
    have hrec : recordsOver core a (moms.map T.idxOf) (ds.map T.idxOf) (pos T c)
        = recordsNamed core x moms ds c := by
      unfold recordsOver recordsNamed
      refine allIdx_named ?_ (axisSize a) (fun d hd' => axisSize_map hs hd') ds hdT _ c hic
      intro i c' hic'
      unfold recordAt recordNamed
      refine hc.recd_congr _ _ fun ms _ => ?_
      beta_reduce
      rw [hg]
      refine entry_congr x fun d hd' => ?_
      exact setAxes_named hmT hic' hmn ms d (hd d hd')
    rw [hrec, List.map_map]
    congr 1
    funext r
    congr 1
    exact List.map_congr_left fun d hd' => hic d (hmT d hd')

/-- `reduce_data` of a labelled array; the entries of the result are known at all coordinates. -/
theorem reduceX_strong {core : Nd.Core K M} (hc : core.Ok) (k : Kernel K V M) {x : DataArray δ K}
    {moms ds : List δ} (g : GoodReduce x moms ds) (hm : moms.length = core.nd)
    {axis : Option AxesArg} {dim : Option (Option (List δ))}
    (hsel : ChosenMany x.dims moms axis dim ds) (keepdims axesToEnd : Bool) :
    ∃ y, reduceX core k x moms axis dim keepdims axesToEnd = .ok y ∧
      y.dims = dimsReduced x.dims ds moms keepdims axesToEnd ∧
      (∀ d ∈ y.dims, y.size d = if d ∈ ds then 1 else x.size d) ∧
      ∀ c, entry y c = (k.reduceDataFromZero (recordsNamed core x moms ds c)).map
        (fun r => core.ent r (moms.map c)) := by
  have hcn : (ds ++ moms).Nodup := by
    rw [List.nodup_append]
    exact ⟨g.dsDistinct, g.momDistinct, fun a ha b hb hab => g.notMom a ha (hab ▸ hb)⟩
  have hcs : ∀ d ∈ ds ++ moms, d ∈ x.dims := by
    intro d hd
    rcases List.mem_append.1 hd with hd | hd
    exacts [g.present d hd, g.momPresent d hd]
  have houtsub : ∀ d ∈ (if keepdims then ds ++ moms else moms), d ∈ ds ++ moms := by
    intro d hd
    cases keepdims
    · exact List.mem_append_right _ hd
    · exact hd
  obtain ⟨hperm, a, hs, hg, e⟩ := applyUfunc_run x g.distinct (core := ds ++ moms) (plain := [])
    (outCore := if keepdims then ds ++ moms else moms) (exclude := ds) hcn hcs (by
      intro d _
      constructor
      · rintro ⟨_, h⟩ h'
        exact h (by rw [List.append_nil]; exact List.mem_append_left _ h')
      · intro h
        refine ⟨fun h' => h (List.mem_append_left _ h'), fun h' => ?_⟩
        rw [List.append_nil] at h'
        rcases List.mem_append.1 h' with h' | h'
        exacts [h h', h (houtsub d h')])
    (fun a => Nd.reduceNd core k a (Nd.axesLast core.nd)
      (.many ((List.range ds.length).map (fun j : ℕ =>
        .int (-(ds.length : ℤ) - core.nd + j)))) keepdims false)
  set loop := x.dims.filter (fun d => decide (d ∉ ds ++ moms)) with hloop
  have hn : (loop ++ (ds ++ moms)).Nodup := hperm.nodup_iff.2 g.distinct
  have hlm : ∀ d ∈ loop, d ∈ x.dims ∧ d ∉ ds ++ moms := fun d hd => by
    have := List.mem_filter.1 hd
    rwa [decide_eq_true_iff] at this
  obtain ⟨out, h1, h2, h3⟩ := reduce_arranged hc k hn (fun d hd => hperm.mem_iff.2 hd) hm g.some_dim
    (by
      intro d hd
      rcases List.mem_append.1 hd with hd | hd
      · exact g.nonempty d (hlm d hd).1 fun h => (hlm d hd).2 (List.mem_append_left _ h)
      · exact g.nonempty d (g.momPresent d hd) fun h => g.notMom d h hd) hs hg keepdims
  have hon : (loop ++ (if keepdims then ds ++ moms else moms)).Nodup := by
    rw [List.nodup_append]
    refine ⟨g.distinct.filter _, by cases keepdims; exacts [g.momDistinct, hcn], ?_⟩
    intro p hp q hq hpq
    subst hpq
    exact (hlm p hp).2 (houtsub p hq)
  have hwrap := wrapResult_ok (inputs := [x.frame]) (exclude := ds) hon h2 (by
    intro fr hfr d _ _ hde
    rw [List.mem_singleton] at hfr
    subst hfr
    rw [if_neg hde]; rfl)
  set y := DataArray.ofNd (loop ++ (if keepdims then ds ++ moms else moms)) out with hy
  have hyd : y.dims = applyUfuncDims [x.dims] [ds ++ moms] (if keepdims then ds ++ moms else moms) := by
    rw [applyUfuncDims_one g.distinct]; rfl
  obtain ⟨⟨z, e1, v1, d1⟩, ⟨z', e2, v2, d2⟩⟩ := C47_reduce_data x.dims ds moms g.distinct
    g.dsDistinct g.momDistinct g.present g.momPresent g.notMom keepdims y.toArr hyd
  have hz : ∃ w, reduceDataDims y.toArr x.dims ds moms keepdims axesToEnd = .ok w ∧
      SameValues y.toArr w ∧ w.dims = dimsReduced x.dims ds moms keepdims axesToEnd := by
    cases axesToEnd
    · exact ⟨z, e1, v1, by rw [d1]; cases keepdims <;> rfl⟩
    · exact ⟨z', e2, v2, by rw [d2]; cases keepdims <;> rfl⟩
  obtain ⟨w, ew, vw, dw⟩ := hz
  have hwd : ∀ d ∈ w.dims, d ∈ loop ++ (if keepdims then ds ++ moms else moms) := by
    rw [dw]
    intro d hd
    cases axesToEnd <;> cases keepdims <;> simp only [dimsReduced] at hd
    · rw [List.mem_filter, decide_eq_true_iff] at hd
      rw [if_neg (by simp), List.mem_append, hloop, List.mem_filter]
      by_cases hdm : d ∈ moms
      · exact .inr hdm
      · exact .inl ⟨hd.1, by simp [hd.2, hdm]⟩
    · exact hperm.mem_iff.2 hd
    · exact hd
    · exact hd
  refine ⟨{ w with size := y.size }, ?_, dw, fun d hd => ?_, fun c => ?_⟩
  · unfold reduceX
    rw [selectAxisDimMult_ok g.distinct g.dsDistinct g.present g.notMom hsel]
    show Except.bind (applyUfunc x (ds ++ moms) [] (if keepdims then ds ++ moms else moms) ds _) _ = _
    rw [e]
    beta_reduce
    rw [h1]
    show Except.bind (wrapResult _ _ _ out) _ = _
    rw [hwrap]
    simp only [Except.bind, DataArray.step]
    rw [ew]
    rfl
  · have hd' := hwd d hd
    have hil := List.idxOf_lt_length_iff.2 hd'
    show out.shape.getD _ 0 = _
    rw [h2, List.getD_eq_getElem _ _ (by rw [List.length_map]; exact hil), List.getElem_map,
      List.getElem_idxOf]
  · rw [← h3 c, ← ofNd_entry]
    exact (vw c).symm

theorem momPos_eq {loop moms : List δ} {dim : δ} (hn : (loop ++ dim :: moms).Nodup) :
    momPos loop.length moms.length = moms.map (loop ++ dim :: moms).idxOf := by
  have h := hn
  rw [List.nodup_append, List.nodup_cons] at h
  refine List.ext_getElem (by simp [momPos]) fun p h1 h2 => ?_
  have hp : p < moms.length := by simpa using h2
  have hmp := List.getElem_mem hp
  have hne : moms[p] ≠ dim := fun e => h.2.1.1 (e ▸ hmp)
  rw [List.getElem_map, idxOf_mom (fun h' => h.2.2 _ h' _ (List.mem_cons_of_mem _ hmp) rfl)
    hne, h.2.1.2.idxOf_getElem]
  simp [momPos]

theorem recordsAlong_withNames {core : Nd.Core K M} (hc : core.Ok) (x : DataArray δ K)
    {moms : List δ} {dim : δ} (hd : dim ∉ moms) (ms : List ℕ) (c : δ → ℕ) :
    recordsAlong core x moms dim (withNames moms ms c) = recordsAlong core x moms dim c := by
  unfold recordsAlong recordNamed
  refine List.map_congr_left fun s _ => ?_
  refine hc.recd_congr _ _ fun ms' _ => ?_
  refine entry_congr x fun d _ => ?_
  unfold withNames
  by_cases h : d ∈ moms
  · simp [h]
  · by_cases h' : d = dim
    · subst h'; simp [h]
    · simp [h, h']

theorem map_withNames {moms : List δ} (hm : moms.Nodup) {ms : List ℕ} (hl : ms.length = moms.length)
    (c : δ → ℕ) : moms.map (withNames moms ms c) = ms := by
  refine List.ext_getElem (by simp [hl]) fun p h1 h2 => ?_
  have hp : p < moms.length := by simpa using h1
  rw [List.getElem_map]
  unfold withNames
  rw [if_pos (List.getElem_mem hp), hm.idxOf_getElem, List.getD_eq_getElem _ _ h2]

theorem recordsNamed_one (core : Nd.Core K M) (x : DataArray δ K) (moms : List δ) (dim : δ)
    (c : δ → ℕ) : recordsNamed core x moms [dim] c = recordsAlong core x moms dim c := by
  unfold recordsNamed recordsAlong
  simp only [allCoords]
  rw [← List.map_eq_flatMap, List.map_map]
  rfl

theorem keptAxes_pos {n nd : ℕ} :
    keptAxes (n + 1 + nd) (n :: momPos n nd) = List.range n := by
  have h := Nd.keptAxes_tail (n := n + 1 + nd) (m := nd + 1) (by omega)
  have e : (List.range (nd + 1)).map (fun j => n + 1 + nd - (nd + 1) + j) = n :: momPos n nd := by
    rw [List.range_succ_eq_map, List.map_cons, List.map_map]
    unfold momPos
    congr 1
    · omega
    · refine List.map_congr_left fun j _ => ?_
      simp only [Function.comp]
      omega
  rw [e] at h
  rw [h]
  congr 1
  omega

/-- `jackknife_data` of a labelled array before the final ordering of the dimensions. -/
theorem jackknife_apply {core : Nd.Core K M} (hc : core.Ok) (k : Kernel K V M) {x : DataArray δ K}
    {moms : List δ} {dim : δ} (g : GoodNamed x moms dim) (hm : moms.length = core.nd)
    {red : DataArray δ (Option K)}
    (hrd : red.dims = x.dims.filter (fun d => decide (d ∉ dim :: moms)) ++ moms)
    (hrs : ∀ d ∈ red.dims, red.size d = x.size d)
    (hre : ∀ c, entry red c = (k.reduceDataFromZero (recordsAlong core x moms dim c)).map
        (fun r => core.ent r (moms.map c))) :
    ∃ y, applyUfunc₂ x red (dim :: moms) moms (dim :: moms) (fun a r =>
        Nd.jackknifeReducedNd core k r none a (axisBefore core.nd) (Nd.axesLast core.nd)) = .ok y ∧
      ShowsNamed y (x.dims.filter (fun d => decide (d ∉ dim :: moms)) ++ dim :: moms) x.size
        (fun c => ((k.jackknifeData (recordsAlong core x moms dim c)).bind
          (fun rows => (rows[c dim]?).join)).map (fun r => core.ent r (moms.map c))) := by
  have hrm : ∀ d ∈ red.dims, d ∈ x.dims := by
    rw [hrd]
    intro d hd
    rcases List.mem_append.1 hd with hd | hd
    exacts [(List.mem_filter.1 hd).1, g.momPresent d hd]
  have hdr : dim ∉ red.dims := by
    rw [hrd]
    intro hd
    rcases List.mem_append.1 hd with hd | hd
    · simpa using (List.mem_filter.1 hd).2
    · exact g.notMom hd
  have hrn : red.dims.Nodup := by
    rw [hrd, List.nodup_append]
    refine ⟨g.distinct.filter _, g.momDistinct, ?_⟩
    intro p hp q hq hpq
    subst hpq
    have := (List.mem_filter.1 hp).2
    rw [decide_eq_true_iff] at this
    exact this (List.mem_cons_of_mem _ hq)
  obtain ⟨hperm, a, b, hs, hg, hbs, hbg, e⟩ := applyUfunc₂_run x red g.distinct hrn hrm hrs
    (coreX := dim :: moms) (coreY := moms) (outCore := dim :: moms)
    (List.nodup_cons.2 ⟨g.notMom, g.momDistinct⟩) g.core g.momDistinct
    (by rw [hrd]; exact fun d hd => List.mem_append_right _ hd)
    (fun d hd => List.mem_cons_of_mem _ hd)
    (by
      intro d hd hdc
      rcases List.mem_cons.1 hdc with rfl | h
      exacts [absurd hd hdr, h]) (fun d hd => hd)
    (fun a r => Nd.jackknifeReducedNd core k r none a (axisBefore core.nd) (Nd.axesLast core.nd))
  set loop := x.dims.filter (fun d => decide (d ∉ dim :: moms)) with hloop
  have hdw : (loop ++ moms).dropWhile (fun d => decide (d ∉ red.dims)) = loop ++ moms := by
    rw [List.dropWhile_eq_self_iff]
    intro h
    have : (loop ++ moms)[0] ∈ red.dims := by rw [hrd]; exact List.getElem_mem h
    simpa using this
  rw [hdw] at hbs hbg
  have hn : (loop ++ dim :: moms).Nodup := hperm.nodup_iff.2 g.distinct
  have hmem : ∀ d ∈ x.dims, d ∈ loop ++ dim :: moms := fun d hd => hperm.mem_iff.2 hd
  have hTl : (loop ++ dim :: moms).length = loop.length + 1 + core.nd := by
    simp [hm]; omega
  have hnl : ∀ d ∈ dim :: moms, d ∉ loop := by
    rw [List.nodup_append] at hn
    exact fun d h1 h2 => hn.2.2 d h2 d h1 rfl
  have hmp : momPos loop.length core.nd = moms.map (loop ++ dim :: moms).idxOf := by
    rw [← hm]; exact momPos_eq hn
  have hloopidx : (List.range loop.length) = loop.map (loop ++ dim :: moms).idxOf := by
    refine List.ext_getElem (by simp) fun p h1 h2 => ?_
    have hp : p < loop.length := by simpa using h1
    rw [List.getElem_range, List.getElem_map, idxOf_loop (List.getElem_mem hp),
      (g.distinct.filter _).idxOf_getElem]
  have P := arranged hTl hs hmem hg
  have hsd : axisSize a loop.length = x.size dim := by
    have := axisSize_map hs (d := dim) (by simp)
    rwa [idxOf_dim (hnl _ List.mem_cons_self)] at this
  have hblen : b.shape.length = loop.length + core.nd := by
    rw [hbs, List.length_map, List.length_append, hm]
  -- the layout of the reduced array in terms of positions
  have hlayidx : (List.range loop.length ++ momPos loop.length core.nd)
      = (loop ++ moms).map (loop ++ dim :: moms).idxOf := by
    rw [List.map_append, ← hloopidx, ← hmp]
  have hsubT : ∀ d ∈ loop ++ moms, d ∈ loop ++ dim :: moms := by
    intro d hd
    simp only [List.mem_append, List.mem_cons] at hd ⊢
    tauto
  have hlay : HasLayout b (List.range loop.length ++ momPos loop.length core.nd) (axisSize a)
      (fun i => entry red (fun d => i ((loop ++ dim :: moms).idxOf d))) := by
    rw [hlayidx]
    refine ⟨?_, fun i => ?_⟩
    · rw [hbs, List.map_map]
      refine List.map_congr_left fun d hd => ?_
      have hdr' : d ∈ red.dims := by rw [hrd]; exact hd
      simp only [Function.comp]
      rw [if_pos hdr', hrs d hdr', axisSize_map hs (hsubT d hd)]
    · rw [hbg]
      refine entry_congr red fun d hd => ?_
      rw [hrd] at hd
      have hlt := List.idxOf_lt_length_iff.2 hd
      unfold along
      rw [List.getElem?_map, List.getElem?_eq_getElem hlt, List.getElem_idxOf]
      rfl
  have hbp : b.Proper := by
    intro i j hij
    rw [hbg, hbg]
    refine entry_congr red fun d hdd => hij _ ?_
    rw [hblen, ← hm, ← List.length_append]
    exact List.idxOf_lt_length_iff.2 (by rw [← hrd]; exact hdd)
  have hcore := Nd.coreAxes_last (n := b.shape.length) (nd := core.nd) (by omega)
  have hkept : keptAxes (loop ++ dim :: moms).length (loop.length :: momPos loop.length core.nd)
      = List.range loop.length := by rw [hTl, keptAxes_pos]
  have hls : b.loopShape ((List.range core.nd).map (fun j => b.shape.length - core.nd + j))
      = (List.range loop.length).map (axisSize a) := by
    unfold Nd.Arr.loopShape
    rw [Nd.loopAxes_eq, Nd.keptAxes_tail (by omega), hblen, Nat.add_sub_cancel]
    refine List.map_congr_left fun p hp => ?_
    have hp' := List.mem_range.1 hp
    rw [hlay.1, List.getD_eq_getElem _ _ (by simp; omega), List.getElem_map,
      List.getElem_append_left (by simpa using hp'), List.getElem_range]
  obtain ⟨out, h1, h2, _⟩ := P.rows core hc (Nd.sizeOf a (axisBefore core.nd)) [b.loopShape
      ((List.range core.nd).map (fun j => b.shape.length - core.nd + j))]
    (by
      rw [hls, hkept]
      exact Nd.broadcastShapes_fits (front := []) rfl (List.forall₂_same.2 fun _ _ => .inr rfl))
    (fun L l ds r =>
      (Nd.recordOpt core (b.read ((List.range core.nd).map
        (fun j => b.shape.length - core.nd + j)) L l)).bind fun red =>
        ((k.jackknifeDataKernel red ds)[r]?).join)
  have hf : Nd.jackknifeReducedNd core k b none a (axisBefore core.nd) (Nd.axesLast core.nd)
      = .ok out := by
    simp only [Nd.jackknifeReducedNd, Option.getD_none]
    rw [hcore]
    exact h1
  rw [P.size, hkept, List.length_range] at h2
  obtain ⟨hsh, hS⟩ := rows_named hc hm hn hmem hn hs hg (newSize := axisSize a loop.length)
    (R := fun i ds r ms => ((Nd.recordOpt core (b.read ((List.range core.nd).map
        (fun j => b.shape.length - core.nd + j)) loop.length
          (along (List.range loop.length) i))).bind fun red =>
        ((k.jackknifeDataKernel red ds)[r]?).join).map (fun r => core.ent r ms))
    (R' := fun c ds r ms => ((k.reduceDataFromZero (recordsAlong core x moms dim c)).bind fun red =>
        ((k.jackknifeDataKernel red ds)[r]?).join).map (fun r => core.ent r ms))
    h2
    (by
      intro c hcb
      funext ds r ms
      congr 2
      have hin : ∀ p ∈ List.range loop.length, pos (loop ++ dim :: moms) c p < axisSize a p := by
        intro p hp
        have hp' := List.mem_range.1 hp
        have hpT : p < (loop ++ dim :: moms).length := by omega
        have hmemT := List.getElem_mem hpT
        have hb := hcb _ hmemT
        have hsz := axisSize_map hs hmemT
        rw [hn.idxOf_getElem] at hsz
        rw [pos_lt hpT, hsz]
        by_cases hd : (loop ++ dim :: moms)[p] = dim
        · rw [if_pos hd, hsd] at hb
          rwa [hd] at hb ⊢
        · rwa [if_neg hd] at hb
      have hmpn : (momPos loop.length core.nd).Nodup :=
        List.nodup_range.map (fun a b h => by simpa using h)
      have hmpl : (momPos loop.length core.nd).length = core.nd := by simp [momPos]
      have hread : ∀ ms, b.read ((List.range core.nd).map
          (fun j => b.shape.length - core.nd + j)) loop.length
            (along (List.range loop.length) (pos (loop ++ dim :: moms) c)) ms
          = entry red (withNames moms ms c) := by
        intro ms
        have h := Nd.read_last hlay hbp hmpn hin
          (fun p hp => by rw [mem_momPos]; have := List.mem_range.1 hp; omega) ms
        rw [hmpl, List.length_range] at h
        rw [h]
        refine entry_congr red fun d hd => ?_
        rw [hmp]
        exact setAxes_named (fun e he => by simp [he]) (fun e he => pos_idxOf he) g.momDistinct ms d
          (hmem d (hrm d hd))
      have hv : ∀ ms, ms.length = core.nd → entry red (withNames moms ms c)
          = (k.reduceDataFromZero (recordsAlong core x moms dim c)).map (fun r => core.ent r ms) := by
        intro ms hl
        rw [hre, recordsAlong_withNames hc x g.notMom, map_withNames g.momDistinct (by omega)]
      unfold Nd.recordOpt
      rw [hread, hv _ (by simp)]
      cases hr : k.reduceDataFromZero (recordsAlong core x moms dim c) with
      | none => rfl
      | some r =>
        simp only [Option.map_some]
        congr 1
        conv_rhs => rw [← hc.recd_ent r]
        refine hc.recd_congr _ _ fun ms hl => ?_
        rw [hread, hv ms hl, hr]
        rfl)
  refine ⟨DataArray.ofNd (loop ++ dim :: moms) out, ?_, ?_⟩
  · rw [e]
    beta_reduce
    rw [hf]
    refine wrapResult_ok hn hsh ?_
    intro fr hfr d hd hdx _
    have hfx : (if d = dim then axisSize a loop.length else x.size d) = x.size d := by
      by_cases h : d = dim
      · rw [if_pos h, hsd, h]
      · rw [if_neg h]
    rw [hfx]
    simp only [List.mem_cons, List.not_mem_nil, or_false] at hfr
    rcases hfr with rfl | rfl
    · rfl
    · exact (hrs d hdx).symm
  · refine ⟨hS.dims_eq, fun d hd => (hS.size_eq d hd).trans ?_, fun c hcb => ?_⟩
    · by_cases h : d = dim
      · rw [if_pos h, hsd, h]
      · rw [if_neg h]
    · rw [hS.entry_eq c]
      · unfold Kernel.jackknifeData
        cases k.reduceDataFromZero (recordsAlong core x moms dim c) <;> rfl
      · intro d hd
        by_cases h : d = dim
        · rw [if_pos h, hsd, ← h]; exact hcb d hd
        · rw [if_neg h]; exact hcb d hd

/-- `moments_type` of a labelled array. -/
theorem momentsTypeX_spec {core : Nd.Core K M} (hc : core.Ok) (conv : M → M) (orderCF : Bool)
    {x : DataArray δ K} {moms : List δ} (hx : x.dims.Nodup) (hmn : moms.Nodup)
    (hmp : ∀ d ∈ moms, d ∈ x.dims) (hm : moms.length = core.nd) (axesToEnd : Bool) :
    ∃ y, momentsTypeX core conv orderCF x moms axesToEnd = .ok y ∧
      ShowsNamed y (if axesToEnd then x.dims.filter (fun d => decide (d ∉ moms)) ++ moms else x.dims)
        x.size (fun c => core.ent (conv (recordNamed core x moms c)) (moms.map c)) := by
  obtain ⟨hperm, a, hs, hg, e⟩ := applyUfunc_run x hx (core := moms) (plain := [])
    (outCore := moms) (exclude := []) hmn hmp (by intro d _; simp)
    (fun a => Nd.momentsTypeNd core conv orderCF a (Nd.axesLast core.nd) false)
  set loop := x.dims.filter (fun d => decide (d ∉ moms)) with hloop
  set T := loop ++ moms with hT
  have hn : T.Nodup := hperm.nodup_iff.2 hx
  have hmem : ∀ d ∈ x.dims, d ∈ T := fun d hd => hperm.mem_iff.2 hd
  have hmT : ∀ d ∈ moms, d ∈ T := fun d hd => by simp [hT, hd]
  have hl : a.shape.length = T.length := by rw [hs, List.length_map]
  have hTl : T.length = loop.length + core.nd := by rw [hT, List.length_append, hm]
  have hwm : (Nd.axesLast core.nd).map (wrap a.shape.length) = moms.map T.idxOf := by
    rw [hl, Nd.axesLast_wrap' (by omega)]
    refine List.ext_getElem (by simp [hm]) fun p h1 h2 => ?_
    have hp : p < moms.length := by simpa using h2
    have hml : moms[p] ∉ loop := by
      intro h
      have := (List.mem_filter.1 h).2
      rw [decide_eq_true_iff] at this
      exact this (List.getElem_mem hp)
    have hi : T.idxOf moms[p] = loop.length + p := by
      rw [hT, List.idxOf_append_of_notMem hml, hmn.idxOf_getElem]
    rw [List.getElem_map, List.getElem_map, List.getElem_range, hi]
    omega
  have hpr : a.Proper := by
    intro i j hij
    rw [hg, hg]
    refine entry_congr x fun d hdd => hij _ ?_
    rw [hl]
    exact List.idxOf_lt_length_iff.2 (hmem d hdd)
  have hinj : (moms.map T.idxOf).Nodup :=
    hmn.map_on fun p hp q hq hpq => (List.idxOf_inj (hmT p hp)).1 hpq
  have hspec := (Nd.momentsTypeNd_spec hc conv orderCF hpr (mom := Nd.axesLast core.nd)
    (by rw [hl]; exact Nd.axesLast_range' (by omega)) (by rw [hwm]; exact hinj)
    (by simp [Nd.axesLast]) false).2 (.inr (by
      simp only [Bool.false_eq_true, if_false]
      exact Nd.map_getD_range a.shape))
  simp only [Bool.false_eq_true, if_false] at hspec
  obtain ⟨out, h1, h2⟩ := hspec
  rw [hwm, hl] at h2
  have hsz : ∀ d ∈ T, axisSize a (T.idxOf d) = x.size d := fun d hd => axisSize_map hs hd
  have hS := showsNamed_ofNd hn h2 hsz
  have hwrap := wrapResult_ok (inputs := [x.frame]) (exclude := []) hn (shape_map_size hn h2.1 hsz)
    (by
      intro fr hfr d _ _ _
      rw [List.mem_singleton] at hfr
      subst hfr
      rfl)
  have hS' : ShowsNamed (DataArray.ofNd T out) T x.size
      (fun c => core.ent (conv (recordNamed core x moms c)) (moms.map c)) := by
    refine ⟨hS.dims_eq, hS.size_eq, fun c hcb => ?_⟩
    rw [hS.entry_eq c hcb]
    beta_reduce
    have hic : ∀ d ∈ T, pos T c (T.idxOf d) = c d := fun d hd => pos_idxOf hd
    have hr : recordAt core a (moms.map T.idxOf) (pos T c) = recordNamed core x moms c := by
      unfold recordAt recordNamed
      refine hc.recd_congr _ _ fun ms _ => ?_
      beta_reduce
      rw [hg]
      exact entry_congr x fun d hd => setAxes_named hmT hic hmn ms d (hmem d hd)
    have hmc : (moms.map T.idxOf).map (pos T c) = moms.map c := by
      rw [List.map_map]
      exact List.map_congr_left fun d hd => hic d (hmT d hd)
    rw [hr, hmc]
  unfold momentsTypeX
  rw [e]
  beta_reduce
  rw [h1]
  show ∃ y, Except.bind (wrapResult _ _ _ out) _ = _ ∧ _
  rw [hwrap]
  simp only [Except.bind]
  cases axesToEnd with
  | true => exact ⟨_, rfl, hS'⟩
  | false =>
    obtain ⟨⟨z, e1, v1, d1⟩, -⟩ := C47_reduce_data x.dims [] moms hx List.nodup_nil hmn
      (by simp) hmp (by simp) false (DataArray.ofNd T out).toArr
      (by rw [applyUfuncDims_one hx]; rfl)
    simp only [Bool.false_eq_true, if_false]
    refine step_shows hS' (z := z) ?_ v1 ?_ fun d => hperm.mem_iff
    · simpa [reduceDataDims] using e1
    · simpa using d1

end Rows

section Ordered

variable {K V M : Type} [Field K] [LinearOrder K] [IsStrictOrderedRing K]

/-- `rolling_exp_data` with a labelled `alpha`, before the final ordering of the dimensions. -/
theorem rollingExp_apply {core : Nd.Core K M} (hc : core.Ok) (k : Kernel K V M) {x : DataArray δ K}
    {moms : List δ} {dim : δ} (g : GoodNamed x moms dim) (hm : moms.length = core.nd)
    {alpha : DataArray δ K} (han : alpha.dims.Nodup) (hax : ∀ d ∈ alpha.dims, d ∈ x.dims)
    (ham : ∀ d ∈ alpha.dims, d ∉ moms) (had : dim ∈ alpha.dims)
    (has : ∀ d ∈ alpha.dims, alpha.size d = x.size d) (adjust : Bool) (minPeriods : Option ℤ)
    (zeroMissing : Bool) :
    ∃ y, applyUfunc₂ x alpha (dim :: moms) [dim] (dim :: moms) (fun a al =>
        Nd.rollingExpInner core k al (-1) adjust minPeriods zeroMissing a (axisBefore core.nd)
          (Nd.axesLast core.nd)) = .ok y ∧
      ShowsNamed y (x.dims.filter (fun d => decide (d ∉ dim :: moms)) ++ dim :: moms) x.size
        (fun c =>
          let row := ((k.rollingExpData adjust minPeriods
            ((List.range (x.size dim)).map (fun s => entry alpha (Function.update c dim s)))
            (recordsAlong core x moms dim c)).bind
            (fun rows => (rows[c dim]?).join)).map (fun r => core.ent r (moms.map c))
          if zeroMissing = true ∧ (∀ v ∈ moms.map c, v = 0) ∧ row = none then some 0 else row) := by
  obtain ⟨hperm, a, b, hs, hg, hbs, hbg, e⟩ := applyUfunc₂_run x alpha g.distinct han hax has
    (coreX := dim :: moms) (coreY := [dim]) (outCore := dim :: moms)
    (List.nodup_cons.2 ⟨g.notMom, g.momDistinct⟩) g.core (by simp) (by simpa using had)
    (by simp)
    (by
      intro d hd hdc
      rcases List.mem_cons.1 hdc with rfl | h
      exacts [List.mem_singleton_self _, absurd h (ham d hd)]) (fun d hd => hd)
    (fun a al => Nd.rollingExpInner core k al (-1) adjust minPeriods zeroMissing a
      (axisBefore core.nd) (Nd.axesLast core.nd))
  set loop := x.dims.filter (fun d => decide (d ∉ dim :: moms)) with hloop
  have hn : (loop ++ dim :: moms).Nodup := hperm.nodup_iff.2 g.distinct
  have hmem : ∀ d ∈ x.dims, d ∈ loop ++ dim :: moms := fun d hd => hperm.mem_iff.2 hd
  have hTl : (loop ++ dim :: moms).length = loop.length + 1 + core.nd := by
    simp [hm]; omega
  have hdl : dim ∉ loop := by
    rw [List.nodup_append] at hn
    exact fun h => hn.2.2 dim h dim List.mem_cons_self rfl
  have P := arranged hTl hs hmem hg
  have hsd : axisSize a loop.length = x.size dim := by
    have := axisSize_map hs (d := dim) (by simp)
    rwa [idxOf_dim hdl] at this
  -- the dimensions of `alpha`: the last of the loop dimensions, then the sample dimension
  have hdw : (loop ++ [dim]).dropWhile (fun d => decide (d ∉ alpha.dims))
      = loop.dropWhile (fun d => decide (d ∉ alpha.dims)) ++ [dim] := by
    rw [List.dropWhile_append]
    split
    · next h =>
      rw [List.isEmpty_iff] at h
      rw [h, List.dropWhile_cons_of_neg (by simpa using had)]
      rfl
    · rfl
  rw [hdw] at hbs hbg
  set back := loop.dropWhile (fun d => decide (d ∉ alpha.dims)) with hback
  obtain ⟨front, hfront⟩ : ∃ front, loop = front ++ back :=
    ⟨_, (List.takeWhile_append_dropWhile (p := fun d => decide (d ∉ alpha.dims)) (l := loop)).symm⟩
  have hfa : ∀ d ∈ alpha.dims, d ≠ dim → d ∈ back := by
    intro d hd hne
    have h1 : d ∈ loop := by
      rw [hloop, List.mem_filter, decide_eq_true_iff, List.mem_cons]
      exact ⟨hax d hd, fun h => h.elim hne (ham d hd)⟩
    rw [← List.takeWhile_append_dropWhile (p := fun d => decide (d ∉ alpha.dims)) (l := loop),
      List.mem_append] at h1
    rcases h1 with h1 | h1
    · have := List.mem_takeWhile_imp h1
      rw [decide_eq_true_iff] at this
      exact absurd hd this
    · exact h1
  have hbl : b.shape.length = back.length + 1 := by simp [hbs]
  have hll : loop.length = front.length + back.length := by rw [hfront, List.length_append]
  have hlb : ∀ p (hp : p < back.length), loop[front.length + p]'(by omega) = back[p] := by
    intro p hp
    have : loop[front.length + p]? = some back[p] := by
      rw [hfront, List.getElem?_append_right (by omega)]
      simp [hp]
    exact (List.getElem?_eq_some_iff.1 this).2
  have hcz : InRange b.shape.length (-1) := by unfold InRange; omega
  have hwz : wrap b.shape.length (-1) = back.length := by
    have := Nd.wrap_neg hcz (by omega)
    omega
  have hbd : dim ∉ back := fun h => hdl (by rw [hfront]; exact List.mem_append_right _ h)
  have hbn : back.Nodup := by
    have := g.distinct.filter (fun d => decide (d ∉ dim :: moms))
    rw [← hloop, hfront, List.nodup_append] at this
    exact this.2.1
  have hsb : ∀ p (hp : p < back.length), axisSize b p
      = if back[p] ∈ alpha.dims then alpha.size back[p] else 1 := by
    intro p hp
    unfold axisSize
    rw [hbs, List.getD_eq_getElem _ _ (by simp; omega), List.getElem_map,
      List.getElem_append_left hp]
  have hsl : axisSize b back.length = x.size dim := by
    unfold axisSize
    rw [hbs, List.getD_eq_getElem _ _ (by simp), List.getElem_map,
      List.getElem_append_right (by omega)]
    simp only [Nat.sub_self, List.getElem_cons_zero]
    rw [if_pos had, has dim had]
  have hsa : ∀ p (hp : p < loop.length), axisSize a p = x.size loop[p] := by
    intro p hp
    have := axisSize_map hs (List.mem_append_left _ (List.getElem_mem hp))
    rwa [idxOf_loop (List.getElem_mem hp), (g.distinct.filter _).idxOf_getElem] at this
  have hkept : keptAxes (loop ++ dim :: moms).length (loop.length :: momPos loop.length core.nd)
      = List.range loop.length := by rw [hTl, keptAxes_pos]
  have hkb : keptAxes b.shape.length [back.length] = List.range back.length := by
    have := keptAxes_pos (n := back.length) (nd := 0)
    simpa [momPos, hbl] using this
  have hfit : Nd.FitsSizes b [wrap b.shape.length (-1)] (axisSize a)
      (keptAxes (loop ++ dim :: moms).length (loop.length :: momPos loop.length core.nd)) := by
    rw [hwz, hkept]
    refine ⟨List.range front.length, (List.range back.length).map (front.length + ·), ?_, ?_⟩
    · rw [hll, List.range_add]
    · rw [hkb, List.forall₂_map_right_iff, List.forall₂_same]
      intro p hp
      have hp' := List.mem_range.1 hp
      rw [hsb p hp', hsa _ (by omega), hlb p hp']
      by_cases h : back[p] ∈ alpha.dims
      · rw [if_pos h]; exact .inr (has _ h)
      · rw [if_neg h]; exact .inl rfl
  obtain ⟨out, h1, h2⟩ := (Nd.rollingExpInner_spec hc k adjust minPeriods zeroMissing P hcz).2
    (by rw [hwz, hsl, hsd]) hfit
  rw [hwz, hkept] at h2
  have h3 : Shows out (List.range (loop ++ dim :: moms).length)
      (fun b => if b = loop.length then axisSize a loop.length else axisSize a b)
      (fun i => if zeroMissing = true ∧ (∀ v ∈ (momPos loop.length core.nd).map i, v = 0) ∧
          ((k.rollingExpData adjust minPeriods
            ((List.range (x.size dim)).map (fun s => matched b [back.length]
              (List.range loop.length) i [s]))
            (Nd.recordsOf core (axisSize a) a.get (momPos loop.length core.nd) loop.length i)).bind
            (fun rows => (rows[i loop.length]?).join)).map
              (fun r => core.ent r ((momPos loop.length core.nd).map i)) = none then some 0 else
          ((k.rollingExpData adjust minPeriods
            ((List.range (x.size dim)).map (fun s => matched b [back.length]
              (List.range loop.length) i [s]))
            (Nd.recordsOf core (axisSize a) a.get (momPos loop.length core.nd) loop.length i)).bind
            (fun rows => (rows[i loop.length]?).join)).map
              (fun r => core.ent r ((momPos loop.length core.nd).map i))) := by
    rw [Nd.sizes_same]
    refine ⟨h2.1, fun i hi => ?_⟩
    rw [h2.2 i hi]
    simp only [List.forall_mem_map, hsd]
  obtain ⟨hsh, hS⟩ := rows_named hc hm hn hmem hn hs hg (newSize := axisSize a loop.length)
    (R := fun i ds p ms => if zeroMissing = true ∧ (∀ v ∈ ms, v = 0) ∧
          ((k.rollingExpData adjust minPeriods
            ((List.range (x.size dim)).map (fun s => matched b [back.length]
              (List.range loop.length) i [s])) ds).bind
            (fun rows => (rows[p]?).join)).map (fun r => core.ent r ms) = none then some 0 else
          ((k.rollingExpData adjust minPeriods
            ((List.range (x.size dim)).map (fun s => matched b [back.length]
              (List.range loop.length) i [s])) ds).bind
            (fun rows => (rows[p]?).join)).map (fun r => core.ent r ms))
    (R' := fun c ds p ms => if zeroMissing = true ∧ (∀ v ∈ ms, v = 0) ∧
          ((k.rollingExpData adjust minPeriods
            ((List.range (x.size dim)).map (fun s => entry alpha (Function.update c dim s))) ds).bind
            (fun rows => (rows[p]?).join)).map (fun r => core.ent r ms) = none then some 0 else
          ((k.rollingExpData adjust minPeriods
            ((List.range (x.size dim)).map (fun s => entry alpha (Function.update c dim s))) ds).bind
            (fun rows => (rows[p]?).join)).map (fun r => core.ent r ms))
    h3
    (by
      intro c hcb
      have hmat : ∀ s, matched b [back.length] (List.range loop.length)
          (pos (loop ++ dim :: moms) c) [s] = entry alpha (Function.update c dim s) := by
        intro s
        unfold matched
        rw [hbg]
        refine entry_congr alpha fun d hd => ?_
        by_cases hdd : d = dim
        · subst hdd
          rw [idxOf_dim hbd, if_pos (List.mem_singleton_self _)]
          simp
        have hdb := hfa d hd hdd
        have hlt := List.idxOf_lt_length_iff.2 hdb
        have hbi : back[back.idxOf d] = d := List.getElem_idxOf hlt
        have hdl' : d ∈ loop := by rw [hfront]; exact List.mem_append_right _ hdb
        have hcd := hcb d (List.mem_append_left _ hdl')
        rw [if_neg hdd] at hcd
        have hsz := hsb _ hlt
        rw [hbi, if_pos hd, has d hd] at hsz
        rw [idxOf_loop hdb, if_neg (by simp; omega), Function.update_of_ne hdd, hsz]
        by_cases h1 : x.size d = 1
        · rw [if_pos h1]; omega
        rw [if_neg h1, hkb, Nd.idxOf_range hlt, List.length_range, List.length_range,
          show loop.length - back.length = front.length by omega, List.getElem?_drop,
          List.getElem?_range (by omega)]
        simp only [Option.map_some, Option.getD_some]
        rw [pos_lt (by omega), List.getElem_append_left (by omega), hlb _ hlt, hbi]
      funext ds p ms
      simp only [hmat])
  refine ⟨DataArray.ofNd (loop ++ dim :: moms) out, ?_, ?_⟩
  · rw [e, h1]
    refine wrapResult_ok hn hsh ?_
    intro fr hfr d hd hdx _
    have hfx : (if d = dim then axisSize a loop.length else x.size d) = x.size d := by
      by_cases h : d = dim
      · rw [if_pos h, hsd, h]
      · rw [if_neg h]
    rw [hfx]
    simp only [List.mem_cons, List.not_mem_nil, or_false] at hfr
    rcases hfr with rfl | rfl
    · rfl
    · exact (has d hdx).symm
  · refine ⟨hS.dims_eq, fun d hd => (hS.size_eq d hd).trans ?_, fun c hcb => ?_⟩
    · by_cases h : d = dim
      · rw [if_pos h, hsd, h]
      · rw [if_neg h]
    · rw [hS.entry_eq c]
      intro d hd
      by_cases h : d = dim
      · rw [if_pos h, hsd, ← h]; exact hcb d hd
      · rw [if_neg h]; exact hcb d hd

end Ordered



end Cmomy.Labelled
