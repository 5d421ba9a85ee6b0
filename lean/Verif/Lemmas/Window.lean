import Verif.Spec.Window
import Verif.Lemmas.LabelledMake
import Verif.Props.LabelledCollect
import Verif.Props.Rolling

/-!
# Lemmas about arrays of rolling windows
-/

set_option linter.unusedSectionVars false

namespace Cmomy

open Spec Labelled Axes Validate

variable {δ : Type} [DecidableEq δ] {α β : Type}

/-! ### Arguments -/

theorem each_spread {a : PerDim β} {l : List β} (h : Each a l) : a.spread l.length = l := by
  cases a with
  | one v =>
    exact (List.eq_replicate_iff.2 ⟨rfl, h⟩).symm
  | many m => exact h

theorem zipRolls_map (rs : List (Roll δ)) :
    zipRolls (rs.map Roll.dim) (rs.map Roll.name) (rs.map Roll.window) (rs.map Roll.center)
      (rs.map Roll.stride) = rs := by
  induction rs with
  | nil => rfl
  | cons r rs ih => simp only [List.map_cons, zipRolls, ih]

theorem filterMap_range_take (l : List β) (n : ℕ) (h : n ≤ l.length) :
    (List.range n).filterMap (fun ax => l[ax]?) = l.take n := by
  induction n with
  | zero => rfl
  | succ n ih =>
    rw [List.range_succ, List.filterMap_append, ih (by omega), List.take_succ_eq_append_getElem (by omega)]
    simp [List.getElem?_eq_getElem (show n < l.length by omega)]

theorem selectPlain_ok {dims : List δ} (hd : dims.Nodup) {axis : Option AxesArg}
    {dim : Option (Option (List δ))} {ds : List δ} (hdn : ds.Nodup) (hp : ∀ d ∈ ds, d ∈ dims)
    (h : ChosenPlain dims axis dim ds) :
    selectOptional dims none axis dim = .ok (ds.map dims.idxOf, ds) := by
  have hn : ∀ z : ℤ, normalizeAxisIndex (.int z) dims.length none =
      normalizeAxisIndex (.int z) dims.length (some 0) := fun _ => rfl
  have hmany : ∀ zs : List ℤ, normalizeAxes (zs.map .int) dims.length none false =
      normalizeAxes (zs.map .int) dims.length (some 0) false := by
    intro zs
    unfold normalizeAxes
    refine congrArg (fun r => Except.bind r _) ?_
    induction zs with
    | nil => rfl
    | cons z zs ih => rw [List.map_cons, List.mapM_cons, List.mapM_cons, hn, ih]
  have hno : ∀ l : List δ, ¬ ∃ d ∈ l, d ∈ ([] : List δ) := by simp
  have via : ∀ as, ChosenMany dims [] (some as) none ds →
      normalizeAxisTuple as dims.length none false = normalizeAxisTuple as dims.length (some 0) false →
      selectOptional dims none (some as) none = .ok (ds.map dims.idxOf, ds) := by
    intro as hc he
    have := selectAxisDimMult_ok (moms := []) hd hdn hp (by simp) hc
    unfold selectAxisDimMult at this
    simp only [axisDimDefaults, Except.bind] at this
    unfold selectOptional
    simp only [axisDimDefaults, Except.bind]
    rw [he]
    cases e : normalizeAxisTuple as dims.length (some 0) false with
    | error q => rw [List.length_nil, e] at this; cases this
    | ok q =>
      rw [List.length_nil, e] at this
      simp only at this ⊢
      rw [if_neg (hno _)] at this
      exact this
  rcases h with ⟨rfl, rfl⟩ | ⟨rfl, rfl, rfl⟩ | ⟨rfl, rfl, rfl⟩ | ⟨rfl, zs, rfl, hr, he⟩ |
    ⟨rfl, z, rfl, hr, d, rfl, he⟩
  · unfold selectOptional
    simp only [axisDimDefaults, Except.bind, Option.getD_some]
    rw [if_pos hp]
  · unfold selectOptional
    simp only [axisDimDefaults, Except.bind, Option.getD_none]
    rw [if_pos hp]
  · have h1 : ds.map ds.idxOf = List.range ds.length := by
      refine List.ext_getElem (by simp) fun k h1 h2 => ?_
      rw [List.getElem_map, hd.idxOf_getElem, List.getElem_range]
    have h2 : (List.range ds.length).filterMap (fun ax => ds[ax]?) = ds := by
      rw [filterMap_range_take _ _ le_rfl, List.take_length]
    unfold selectOptional
    simp only [axisDimDefaults, Except.bind, normalizeAxisTuple]
    rw [h1, h2]
  · exact via _ (.inr (.inr (.inl ⟨rfl, zs, rfl, hr, he⟩))) (hmany zs)
  · exact via _ (.inr (.inr (.inr (.inl ⟨rfl, z, rfl, hr, d, rfl, he⟩)))) (hmany [z])

theorem selectOptional_ok {dims : List δ} (hd : dims.Nodup) {p : Option (PX δ)} {axis : Option AxesArg}
    {dim : Option (Option (List δ))} {ds : List δ} (hdn : ds.Nodup) (hp : ∀ d ∈ ds, d ∈ dims)
    (h : ChosenOptional dims p axis dim ds) :
    selectOptional dims p axis dim = .ok (ds.map dims.idxOf, ds) := by
  cases p with
  | none => exact selectPlain_ok hd hdn hp h
  | some p =>
    obtain ⟨h | ⟨rfl, rfl, rfl⟩, hm⟩ := h
    · exact selectAxisDimMult_ok hd hdn hp hm h
    · have h1 : (dims.take (dims.length - p.dims.length)).map dims.idxOf =
          List.range (dims.length - p.dims.length) := by
        refine List.ext_getElem (by simp) fun k h1 h2 => ?_
        rw [List.getElem_map, List.getElem_take, hd.idxOf_getElem, List.getElem_range]
      have h2 := filterMap_range_take dims (dims.length - p.dims.length) (by omega)
      unfold selectOptional selectAxisDimMult
      simp only [axisDimDefaults, Except.bind, normalizeAxisTuple]
      rw [h1, h2, if_neg (by
        rintro ⟨d, a, b⟩
        exact hm d a b)]

/-! ### Requests -/

theorem rollFor_mem {rs : List (Roll δ)} (h : (rs.map Roll.dim).Nodup) {r : Roll δ} (hr : r ∈ rs) :
    rollFor rs r.dim = some r := by
  induction rs with
  | nil => cases hr
  | cons q rs ih =>
    rw [List.map_cons, List.nodup_cons] at h
    unfold rollFor
    rw [List.find?_cons]
    rcases List.mem_cons.1 hr with rfl | hr
    · simp
    · rw [decide_eq_false (fun e : q.dim = r.dim => h.1 (e ▸ List.mem_map_of_mem hr))]
      exact ih h.2 hr

theorem rollFor_not {rs : List (Roll δ)} {d : δ} (h : d ∉ rs.map Roll.dim) : rollFor rs d = none := by
  unfold rollFor
  rw [List.find?_eq_none]
  intro r hr e
  exact h (List.mem_map.2 ⟨r, hr, by simpa using e⟩)

theorem findName_mem {rs : List (Roll δ)} (h : (rs.map Roll.name).Nodup) {r : Roll δ} (hr : r ∈ rs) :
    rs.find? (fun q => decide (q.name = r.name)) = some r := by
  induction rs with
  | nil => cases hr
  | cons q rs ih =>
    rw [List.map_cons, List.nodup_cons] at h
    rw [List.find?_cons]
    rcases List.mem_cons.1 hr with rfl | hr
    · simp
    · rw [decide_eq_false (fun e : q.name = r.name => h.1 (e ▸ List.mem_map_of_mem hr))]
      exact ih h.2 hr

theorem findName_not {rs : List (Roll δ)} {d : δ} (h : d ∉ rs.map Roll.name) :
    rs.find? (fun q => decide (q.name = d)) = none := by
  rw [List.find?_eq_none]
  intro r hr e
  exact h (List.mem_map.2 ⟨r, hr, by simpa using e⟩)

theorem seen_mem {rs : List (Roll δ)} (h : (rs.map Roll.dim).Nodup) (c : δ → ℕ) {r : Roll δ} (hr : r ∈ rs) :
    seen rs c r.dim = (Roll.place r c).toNat := by
  induction rs with
  | nil => cases hr
  | cons q rs ih =>
    rw [List.map_cons, List.nodup_cons] at h
    rw [seen]
    rcases List.mem_cons.1 hr with rfl | hr
    · rw [if_pos rfl]
    · rw [if_neg (fun e : q.dim = r.dim => h.1 (e ▸ List.mem_map_of_mem hr))]
      exact ih h.2 hr

theorem seen_not {rs : List (Roll δ)} (c : δ → ℕ) {d : δ} (h : d ∉ rs.map Roll.dim) : seen rs c d = c d := by
  induction rs with
  | nil => rfl
  | cons q rs ih =>
    rw [List.map_cons, List.mem_cons, not_or] at h
    rw [seen, if_neg (fun e => h.1 e.symm)]
    exact ih h.2

theorem windowSizes_name {x : DataArray δ α} {rs : List (Roll δ)} (h : (rs.map Roll.name).Nodup)
    {r : Roll δ} (hr : r ∈ rs) (hd : r.name ∉ rs.map Roll.dim) :
    windowSizes x rs r.name = r.window.toNat := by
  induction rs with
  | nil => cases hr
  | cons q rs ih =>
    rw [List.map_cons, List.nodup_cons] at h
    rw [List.map_cons, List.mem_cons, not_or] at hd
    rw [windowSizes]
    rcases List.mem_cons.1 hr with rfl | hr
    · rw [if_pos rfl]
    · rw [if_neg (fun e : q.name = r.name => h.1 (e ▸ List.mem_map_of_mem hr)), if_neg (fun e => hd.1 e.symm)]
      exact ih h.2 hr hd.2

theorem windowSizes_dim {x : DataArray δ α} {rs : List (Roll δ)} (h : (rs.map Roll.dim).Nodup)
    {r : Roll δ} (hr : r ∈ rs) (hd : r.dim ∉ rs.map Roll.name) :
    windowSizes x rs r.dim = (x.size r.dim - 1) / r.stride.toNat + 1 := by
  induction rs with
  | nil => cases hr
  | cons q rs ih =>
    rw [List.map_cons, List.nodup_cons] at h
    rw [List.map_cons, List.mem_cons, not_or] at hd
    rw [windowSizes, if_neg (fun e => hd.1 e.symm)]
    rcases List.mem_cons.1 hr with rfl | hr
    · rw [if_pos rfl]
    · rw [if_neg (fun e : q.dim = r.dim => h.1 (e ▸ List.mem_map_of_mem hr))]
      exact ih h.2 hr hd.2

theorem windowSizes_not {x : DataArray δ α} {rs : List (Roll δ)} {d : δ} (h1 : d ∉ rs.map Roll.name)
    (h2 : d ∉ rs.map Roll.dim) : windowSizes x rs d = x.size d := by
  induction rs with
  | nil => rfl
  | cons q rs ih =>
    rw [List.map_cons, List.mem_cons, not_or] at h1 h2
    rw [windowSizes, if_neg (fun e => h1.1 e.symm), if_neg (fun e => h2.1 e.symm)]
    exact ih h1.2 h2.2

/-! ### Every `s`-th place -/

theorem isSlice_stride {n : ℕ} (hn : n ≠ 0) {s : ℤ} (hs : 0 < s) :
    IsSlice n none none (some s) ((List.range ((n - 1) / s.toNat + 1)).map (· * s.toNat)) := by
  obtain ⟨t, rfl⟩ := Int.eq_ofNat_of_zero_le hs.le
  have ht : 0 < t := by exact_mod_cast hs
  rw [Int.toNat_natCast]
  refine ⟨by simpa using ht.ne', .inl ⟨by simpa using hs, ?_, fun p => ?_⟩⟩
  · rw [List.pairwise_map]
    exact List.pairwise_lt_range.imp fun h => Nat.mul_lt_mul_of_pos_right h ht
  · simp only [List.mem_map, List.mem_range, Option.map_none, Option.getD_none, Option.getD_some, max_self,
      sub_zero, Option.not_mem_none, false_imp_iff, implies_true, true_and, Nat.lt_succ_iff]
    constructor
    · rintro ⟨k, hk, rfl⟩
      rw [Nat.le_div_iff_mul_le ht] at hk
      exact ⟨by omega, by positivity, by exact_mod_cast Dvd.intro_left k rfl⟩
    · rintro ⟨h1, -, h2⟩
      obtain ⟨k, rfl⟩ : t ∣ p := by exact_mod_cast h2
      refine ⟨k, ?_, Nat.mul_comm _ _⟩
      rw [Nat.le_div_iff_mul_le ht, Nat.mul_comm]
      omega

/-! ### What xarray does -/

theorem pads_reach {r : Roll δ} (h : 0 < r.window) :
    (r.pads.1 : ℤ) = reach r.window r.center ∧ r.pads.1 + r.pads.2 + 1 = r.window.toNat := by
  obtain ⟨w, hw⟩ := Int.eq_ofNat_of_zero_le h.le
  unfold Roll.pads reach
  rw [hw, Int.toNat_natCast]
  have : 0 < w := by omega
  cases r.center
  · simp only [Bool.false_eq_true, if_false]
    omega
  · simp only [if_true]
    omega

theorem entry_pad {x : DataArray δ α} {rs : List (Roll δ)} (hp : ∀ r ∈ rs, r.dim ∈ x.dims) (fill : α)
    (c : δ → ℕ) : entry (x.padRolls rs fill) c =
      if ∀ r ∈ rs, r.pads.1 ≤ c r.dim ∧ c r.dim < r.pads.1 + x.size r.dim then
        entry x (fun d => c d - ((rollFor rs d).map (fun r => r.pads.1)).getD 0) else fill := by
  have hat : ∀ d ∈ x.dims, (x.dims.map c).getD (x.dims.idxOf d) 0 = c d := by
    intro d hd
    have hlt := List.idxOf_lt_length_iff.2 hd
    rw [List.getD_eq_getElem _ _ (by rw [List.length_map]; exact hlt), List.getElem_map, List.getElem_idxOf]
  show (if _ then _ else _) = _
  refine if_congr (forall₂_congr fun r hr => ?_) ?_ rfl
  · simp only [DataArray.padRolls]
    rw [hat _ (hp r hr)]
  · unfold entry
    congr 1
    refine List.map_congr_left fun d hd => ?_
    simp only [DataArray.padRolls]
    rw [hat _ hd]

theorem construct_rolls {x : DataArray δ α} {rs : List (Roll δ)} (g : GoodRolls x rs) (fill : α) :
    ∃ y, rollingConstruct x rs fill = .ok y ∧ y.dims = x.dims ++ rs.map Roll.name ∧
      (∀ d ∈ y.dims, y.size d = windowSizes x rs d) ∧
      ∀ c, (∀ r ∈ rs, c r.dim < windowSizes x rs r.dim) →
        entry y c = if InWindows x rs c then entry x (seen rs c) else fill := by
  have hnm : ∀ d ∈ x.dims, d ∉ rs.map Roll.name := by
    intro d hd hm
    obtain ⟨r, hr, rfl⟩ := List.mem_map.1 hm
    exact g.namesNew r hr hd
  have hdm : ∀ d ∈ rs.map Roll.dim, d ∈ x.dims := by
    intro d hd
    obtain ⟨r, hr, rfl⟩ := List.mem_map.1 hd
    exact g.present r hr
  have hpad : ∀ r ∈ rs, (x.padRolls rs fill).size r.dim = r.pads.1 + x.size r.dim + r.pads.2 := by
    intro r hr
    show ((rollFor rs r.dim).map _).getD _ = _
    rw [rollFor_mem g.dimsDistinct hr]
    rfl
  have hfit : ¬ ∃ r ∈ rs, (x.padRolls rs fill).size r.dim < r.window.toNat := by
    rintro ⟨r, hr, h⟩
    have := (pads_reach (g.window r hr)).2
    have := g.nonempty r hr
    rw [hpad r hr] at h
    omega
  -- the array before the stride
  obtain ⟨v, hv⟩ : ∃ v, (x.padRolls rs fill).slidingWindows rs = .ok v := by
    unfold DataArray.slidingWindows
    rw [if_neg hfit]
    exact ⟨_, rfl⟩
  have hv' := hv
  unfold DataArray.slidingWindows at hv'
  rw [if_neg hfit] at hv'
  have hvd : v.dims = x.dims ++ rs.map Roll.name := by
    rw [← Except.ok.inj hv']
    rfl
  have hvn : v.dims.Nodup := by
    rw [hvd, List.nodup_append]
    exact ⟨g.distinct, g.namesDistinct, fun a ha b hb hab => hnm a ha (hab ▸ hb)⟩
  have hvs : ∀ r ∈ rs, v.size r.dim = x.size r.dim := by
    intro r hr
    rw [← Except.ok.inj hv']
    simp only
    rw [findName_not (hnm _ (g.present r hr)), rollFor_mem g.dimsDistinct hr, Option.map_some,
      Option.getD_some, hpad r hr]
    have := (pads_reach (g.window r hr)).2
    show _ + 1 - _ = _
    omega
  have hvsn : ∀ r ∈ rs, v.size r.name = r.window.toNat := by
    intro r hr
    rw [← Except.ok.inj hv']
    simp only
    rw [findName_mem g.namesDistinct hr]
  have hvso : ∀ d, d ∉ rs.map Roll.name → d ∉ rs.map Roll.dim → v.size d = x.size d := by
    intro d h1 h2
    rw [← Except.ok.inj hv']
    simp only
    rw [findName_not h1, rollFor_not h2]
    show ((rollFor rs d).map _).getD _ = _
    rw [rollFor_not h2]
    rfl
  have hve : ∀ c, entry v c = entry (x.padRolls rs fill)
      (fun d => c d + ((rollFor rs d).map (fun r => c r.name)).getD 0) := by
    intro c
    have hat : ∀ d ∈ x.dims ++ rs.map Roll.name,
        ((x.dims ++ rs.map Roll.name).map c).getD ((x.dims ++ rs.map Roll.name).idxOf d) 0 = c d := by
      intro d hd
      have hlt := List.idxOf_lt_length_iff.2 hd
      rw [List.getD_eq_getElem _ _ (by rw [List.length_map]; exact hlt), List.getElem_map,
        List.getElem_idxOf]
    rw [← Except.ok.inj hv']
    unfold entry
    simp only
    congr 1
    refine List.map_congr_left fun d hd => ?_
    have hd' : d ∈ x.dims := hd
    show ((x.dims ++ rs.map Roll.name).map c).getD ((x.dims ++ rs.map Roll.name).idxOf d) 0 + _ = _
    rw [hat d (List.mem_append_left _ hd')]
    congr 1
    by_cases hq : d ∈ rs.map Roll.dim
    · obtain ⟨r, hr, rfl⟩ := List.mem_map.1 hq
      rw [rollFor_mem g.dimsDistinct hr]
      exact hat _ (List.mem_append_right _ (List.mem_map_of_mem hr))
    · rw [rollFor_not hq]
      rfl
  -- the stride
  set sel : List (δ × Sel) := rs.map (fun r => (r.dim, .slice none none (some r.stride))) with hsel
  set pos : δ → List ℕ := fun d => ((rollFor rs d).map (fun r =>
    (List.range ((x.size d - 1) / r.stride.toNat + 1)).map (· * r.stride.toNat))).getD [] with hpos
  have hfst : sel.map Prod.fst = rs.map Roll.dim := by
    rw [hsel, List.map_map]
    rfl
  have hposm : ∀ r ∈ rs, pos r.dim =
      (List.range ((x.size r.dim - 1) / r.stride.toNat + 1)).map (· * r.stride.toNat) := by
    intro r hr
    rw [hpos]
    simp only
    rw [rollFor_mem g.dimsDistinct hr]
    rfl
  have gs : GoodSel v sel pos := by
    refine ⟨by rw [hfst]; exact g.dimsDistinct, ?_, ?_⟩
    · intro p hp
      obtain ⟨r, hr, rfl⟩ := List.mem_map.1 hp
      rw [hvd]
      exact List.mem_append_left _ (g.present r hr)
    · intro p hp
      obtain ⟨r, hr, rfl⟩ := List.mem_map.1 hp
      show IsSlice (v.size r.dim) none none (some r.stride) (pos r.dim)
      rw [hvs r hr, hposm r hr]
      exact isSlice_stride (g.nonempty r hr) (g.stride r hr)
  have hdrop : ∀ d, drops sel d = false := by
    intro d
    unfold drops
    rw [List.any_eq_false]
    intro p hp
    obtain ⟨r, -, rfl⟩ := List.mem_map.1 hp
    simp [isPosition]
  obtain ⟨y, hy, e1, e2, e3⟩ := isel_ok v gs
  have hyd : y.dims = x.dims ++ rs.map Roll.name := by
    rw [e1, List.filter_eq_self.2 (fun d _ => by rw [hdrop]; rfl), hvd]
  refine ⟨y, ?_, hyd, ?_, ?_⟩
  · unfold rollingConstruct
    rw [if_neg (by
      rintro (h | h | h | ⟨r, hr, h⟩)
      · exact g.some_roll h
      · exact h g.dimsDistinct
      · exact h g.namesDistinct
      · exact g.namesNew r hr h), if_neg (by
      rintro ⟨r, hr, h⟩
      exact absurd (g.window r hr) (not_lt.2 h)), hv]
    exact hy
  · intro d hd
    rw [e2 d hd, hfst]
    by_cases hr : d ∈ rs.map Roll.dim
    · rw [if_pos hr]
      obtain ⟨r, hr', rfl⟩ := List.mem_map.1 hr
      have hr := hr'
      rw [hposm r hr, windowSizes_dim g.dimsDistinct hr (hnm _ (g.present r hr)), List.length_map,
        List.length_range]
    · rw [if_neg hr]
      by_cases hn : d ∈ rs.map Roll.name
      · obtain ⟨r, hr', rfl⟩ := List.mem_map.1 hn
        rw [hvsn r hr', windowSizes_name g.namesDistinct hr' hr]
      · rw [hvso d hn hr, windowSizes_not hn hr]
  · intro c hc
    rw [e3 c (by
      intro d _ hs
      rw [hfst] at hs
      obtain ⟨r, hr, rfl⟩ := List.mem_map.1 hs
      have := hc r hr
      rw [windowSizes_dim g.dimsDistinct hr (hnm _ (g.present r hr))] at this
      rw [hposm r hr, List.length_map, List.length_range]
      exact this), hve, entry_pad g.present]
    have htm : ∀ r ∈ rs, takenAt sel pos c r.dim = c r.dim * r.stride.toNat := by
      intro r hr
      have := hc r hr
      rw [windowSizes_dim g.dimsDistinct hr (hnm _ (g.present r hr))] at this
      unfold takenAt
      rw [if_pos (by rw [hfst]; exact List.mem_map_of_mem hr), hdrop, if_neg (by simp), hposm r hr,
        List.getD_eq_getElem _ _ (by simpa using this), List.getElem_map, List.getElem_range]
    have htn : ∀ d, d ∉ rs.map Roll.dim → takenAt sel pos c d = c d := by
      intro d hd
      unfold takenAt
      rw [if_neg (by rw [hfst]; exact hd)]
    have hname : ∀ r ∈ rs, r.name ∉ rs.map Roll.dim := fun r hr h => g.namesNew r hr (hdm _ h)
    have hplace : ∀ r ∈ rs, Roll.place r c = ((c r.dim * r.stride.toNat + c r.name : ℕ) : ℤ) - r.pads.1 := by
      intro r hr
      unfold Roll.place
      rw [(pads_reach (g.window r hr)).1]
      push_cast
      rw [Int.toNat_of_nonneg (g.stride r hr).le]
      ring
    refine if_congr (forall₂_congr fun r hr => ?_) ?_ rfl
    · rw [rollFor_mem g.dimsDistinct hr, Option.map_some, Option.getD_some, htm r hr, htn _ (hname r hr),
        hplace r hr]
      omega
    · unfold entry
      congr 1
      refine List.map_congr_left fun d _ => ?_
      by_cases hq : d ∈ rs.map Roll.dim
      · obtain ⟨r, hr, rfl⟩ := List.mem_map.1 hq
        rw [rollFor_mem g.dimsDistinct hr, seen_mem g.dimsDistinct c hr, Option.map_some, Option.getD_some,
          Option.map_some, Option.getD_some, htm r hr, htn _ (hname r hr), hplace r hr]
        omega
      · rw [rollFor_not hq, seen_not c hq, htn d hq]
        rfl

/-- The whole call. -/
theorem windowArrayX_ok {mom0 mom1 : δ} {roll : δ → δ} {x : DataArray δ α} {window : PerDim ℤ}
    {axis : Option AxesArg} {dim : Option (Option (List δ))} {center : PerDim Bool} {stride : PerDim ℤ}
    {mp : Input (PX δ) (DimsArg δ)} {ndim : Option ℤ} {axes : Option IntArg} {dims : Option (DimsArg δ)}
    {names : Option (List δ)} {p : Option (PX δ)} {rs : List (Roll δ)} (g : GoodRolls x rs)
    (hp : factoryOptional mom0 mom1 mp ndim dims axes (some x.dims) = .ok p)
    (hsel : ChosenOptional x.dims p axis dim (rs.map Roll.dim))
    (ha : Asked roll (rs.map Roll.dim) window center stride names rs) (fill : α) :
    ∃ y, windowArrayX mom0 mom1 roll x window axis dim center stride fill mp ndim axes dims names = .ok y ∧
      y.dims = rs.map Roll.name ++ x.dims ∧ (∀ d ∈ y.dims, y.size d = windowSizes x rs d) ∧
      ∀ c, (∀ r ∈ rs, c r.dim < windowSizes x rs r.dim) →
        entry y c = if InWindows x rs c then entry x (seen rs c) else fill := by
  obtain ⟨v, hv, e1, e2, e3⟩ := construct_rolls g fill
  have hnm : ∀ d ∈ x.dims, d ∉ rs.map Roll.name := by
    intro d hd hm
    obtain ⟨r, hr, rfl⟩ := List.mem_map.1 hm
    exact g.namesNew r hr hd
  have hvn : v.dims.Nodup := by
    rw [e1, List.nodup_append]
    exact ⟨g.distinct, g.namesDistinct, fun a ha b hb hab => hnm a ha (hab ▸ hb)⟩
  have hin : ∀ d ∈ rs.map Roll.name ++ [], d ∈ v.dims := by
    intro d hd
    rw [e1]
    exact List.mem_append_right _ (by simpa using hd)
  have hmid : middle v.dims (rs.map Roll.name) [] = rs.map Roll.name ++ x.dims := by
    unfold middle
    rw [List.append_nil, List.append_nil, e1, List.filter_append,
      List.filter_eq_self.2 (fun d hd => by simpa using hnm d hd),
      List.filter_eq_nil_iff.2 (fun d hd => by simpa using hd), List.append_nil]
  obtain ⟨y, hy, y1, y2, y3⟩ := transposeStrict_ok (x := v) hvn
    (supplied := (rs.map Roll.name).map some ++ [none]) (by simp)
    (by
      intro d hd
      refine hin d ?_
      simpa using hd)
    (infix_middle (B := []) hvn hin) (middle_perm hvn hin (by simpa using g.namesDistinct))
  rw [hmid] at y1
  refine ⟨y, ?_, y1, ?_, ?_⟩
  · have hdp : ∀ d ∈ rs.map Roll.dim, d ∈ x.dims := by
      intro d hd
      obtain ⟨r, hr, rfl⟩ := List.mem_map.1 hd
      exact g.present r hr
    have hl : (rs.map Roll.dim).length = rs.length := List.length_map ..
    have w1 : window.spread rs.length = rs.map Roll.window := by
      have := each_spread ha.window
      rwa [List.length_map] at this
    have w2 : center.spread rs.length = rs.map Roll.center := by
      have := each_spread ha.center
      rwa [List.length_map] at this
    have w3 : stride.spread rs.length = rs.map Roll.stride := by
      have := each_spread ha.stride
      rwa [List.length_map] at this
    unfold windowArrayX
    rw [hp]
    simp only [Except.bind]
    rw [selectOptional_ok g.distinct g.dimsDistinct hdp hsel]
    simp only [hl, w1, w2, w3, ← ha.names]
    rw [if_neg (by simp), zipRolls_map, hv]
    exact hy
  · intro d hd
    rw [y2]
    refine e2 d ?_
    rw [y1] at hd
    rw [e1]
    exact List.mem_append.2 (List.mem_append.1 hd).symm
  · intro c hc
    rw [y3, e3 c hc]

/-! ### Objects -/

section Objects

variable {K M : Type} [Field K] [DecidableEq K] {σ : Type} {moms : List δ} {core : Nd.Core K M}
  {H : List σ → M → Prop} {L : (δ → ℕ) → List σ}

theorem window_stands {x y : DataArray δ K} {rs : List (Roll δ)} (g : GoodRolls x rs)
    (hm : ∀ r ∈ rs, r.dim ∉ moms) (hnil : H [] (core.recd (fun _ => 0)))
    (hS : StandsNamed core H x moms L) (y1 : y.dims = rs.map Roll.name ++ x.dims)
    (y2 : ∀ d ∈ y.dims, y.size d = windowSizes x rs d)
    (y3 : ∀ c, (∀ r ∈ rs, c r.dim < windowSizes x rs r.dim) →
        entry y c = if InWindows x rs c then entry x (seen rs c) else 0) :
    StandsNamed core H y moms (samplesSeen x rs L) := by
  have hnm : ∀ d ∈ x.dims, d ∉ rs.map Roll.name := by
    intro d hd hm
    obtain ⟨r, hr, rfl⟩ := List.mem_map.1 hm
    exact g.namesNew r hr hd
  have hnn : ∀ r ∈ rs, r.name ∉ moms := fun r hr h => g.namesNew r hr (hS.object.momPresent _ h)
  have hplace : ∀ ms c, ∀ r ∈ rs, Roll.place r (withNames moms ms c) = Roll.place r c := by
    intro ms c r hr
    unfold Roll.place withNames
    rw [if_neg (hm r hr), if_neg (hnn r hr)]
  have hIn : ∀ ms c, InWindows x rs (withNames moms ms c) ↔ InWindows x rs c := by
    intro ms c
    refine forall₂_congr fun r hr => ?_
    rw [hplace ms c r hr]
  have hseen : ∀ ms c, seen rs (withNames moms ms c) = withNames moms ms (seen rs c) := by
    intro ms c
    funext d
    by_cases hd : d ∈ rs.map Roll.dim
    · obtain ⟨r, hr, rfl⟩ := List.mem_map.1 hd
      rw [seen_mem g.dimsDistinct _ hr, hplace ms c r hr]
      unfold withNames
      rw [if_neg (hm r hr), seen_mem g.dimsDistinct _ hr]
    · rw [seen_not _ hd]
      unfold withNames
      rw [seen_not _ hd]
  refine ⟨⟨?_, hS.object.momDistinct, fun d hd => ?_, hS.object.momCount⟩, fun c hc => ?_⟩
  · rw [y1, List.nodup_append]
    exact ⟨g.namesDistinct, g.distinct, fun a ha b hb hab => hnm b hb (hab ▸ ha)⟩
  · rw [y1]
    exact List.mem_append_right _ (hS.object.momPresent d hd)
  · have hlt : ∀ ms, ∀ r ∈ rs, withNames moms ms c r.dim < windowSizes x rs r.dim := by
      intro ms r hr
      have hy : r.dim ∈ y.dims := by
        rw [y1]
        exact List.mem_append_right _ (g.present r hr)
      unfold withNames
      rw [if_neg (hm r hr), ← y2 _ hy]
      exact hc _ (mem_valDims.2 ⟨hy, hm r hr⟩)
    have hrec : recordNamed core y moms c = core.recd (fun ms =>
        if InWindows x rs c then entry x (withNames moms ms (seen rs c)) else 0) := by
      unfold recordNamed
      congr 1
      funext ms
      rw [y3 _ (hlt ms), hseen]
      exact if_congr (hIn ms c) rfl rfl
    rw [hrec]
    unfold samplesSeen
    by_cases hw : InWindows x rs c
    · simp only [if_pos hw]
      refine hS.holds _ fun d hd => ?_
      obtain ⟨h1, h2⟩ := mem_valDims.1 hd
      by_cases hd' : d ∈ rs.map Roll.dim
      · obtain ⟨r, hr, rfl⟩ := List.mem_map.1 hd'
        rw [seen_mem g.dimsDistinct _ hr]
        have := hw r hr
        omega
      · have hy : d ∈ y.dims := by
          rw [y1]
          exact List.mem_append_right _ h1
        rw [seen_not _ hd']
        have := hc d (mem_valDims.2 ⟨hy, h2⟩)
        rwa [y2 d hy, windowSizes_not (hnm d h1) hd'] at this
    · simp only [if_neg hw]
      exact hnil

end Objects

/-! ### Places in a window -/

theorem sorted_ext {l l' : List ℕ} (h : l.Pairwise (· < ·)) (h' : l'.Pairwise (· < ·))
    (he : ∀ p, p ∈ l ↔ p ∈ l') : l = l' :=
  List.Perm.eq_of_pairwise (fun _ _ _ _ h1 h2 => absurd h1 (not_lt.2 h2.le)) h h'
    ((List.perm_ext_iff_of_nodup (h.imp ne_of_lt) (h'.imp ne_of_lt)).2 he)

theorem mem_windowPlaces {window : ℕ} {center : Bool} {n i p : ℕ} :
    p ∈ windowPlaces window center n i ↔ p < n ∧ (i : ℤ) - reach window center ≤ p ∧
      (p : ℤ) < i - reach window center + window := by
  unfold windowPlaces
  rw [List.mem_filter, List.mem_range, decide_eq_true_eq]

theorem windowPlaces_sorted (window : ℕ) (center : Bool) (n i : ℕ) :
    (windowPlaces window center n i).Pairwise (· < ·) := List.pairwise_lt_range.filter _

theorem windowRows_places (window i n : ℕ) :
    windowRows window i (List.range n) = windowPlaces window false n i := by
  refine sorted_ext ?_ (windowPlaces_sorted _ _ _ _) fun p => ?_
  · exact (List.pairwise_lt_range.sublist (List.take_sublist _ _)).sublist (List.drop_sublist _ _)
  · rw [C25_window_positions, mem_windowPlaces]
    unfold reach
    simp only [Bool.false_eq_true, if_false]
    omega

theorem centredRows_places {window : ℕ} (hw : 1 ≤ window) (i n : ℕ) :
    centredRows window i (List.range n) = windowPlaces window true n i := by
  refine sorted_ext ?_ (windowPlaces_sorted _ _ _ _) fun p => ?_
  · exact (List.pairwise_lt_range.sublist (List.take_sublist _ _)).sublist (List.drop_sublist _ _)
  · rw [C27_window_positions, mem_windowPlaces]
    unfold reach
    simp only [if_true]
    omega

/-- The places of a window one after the other, those that are no places left out. -/
theorem window_flatMap {σ : Type} (f : ℕ → List σ) (window : ℕ) (center : Bool) (n i : ℕ) :
    (List.range window).flatMap (fun k : ℕ =>
      if 0 ≤ (i : ℤ) - reach window center + k ∧ (i : ℤ) - reach window center + k < n then
        f ((i : ℤ) - reach window center + k).toNat else []) =
      (windowPlaces window center n i).flatMap f := by
  have key : windowPlaces window center n i = (List.range window).filterMap (fun k : ℕ =>
      if 0 ≤ (i : ℤ) - reach window center + k ∧ (i : ℤ) - reach window center + k < n then
        some ((i : ℤ) - reach window center + k).toNat else none) := by
    refine sorted_ext (windowPlaces_sorted _ _ _ _) ?_ fun p => ?_
    · rw [List.pairwise_filterMap]
      refine List.pairwise_lt_range.imp fun {a b} hab u hu v hv => ?_
      split_ifs at hu hv with h1 h2
      · obtain rfl := Option.some.inj hu
        obtain rfl := Option.some.inj hv
        omega
    · rw [mem_windowPlaces, List.mem_filterMap]
      constructor
      · rintro ⟨h1, h2, h3⟩
        refine ⟨((p : ℤ) - (i - reach window center)).toNat, List.mem_range.2 (by omega), ?_⟩
        rw [if_pos (by omega)]
        congr 1
        omega
      · rintro ⟨k, hk, h⟩
        rw [List.mem_range] at hk
        split_ifs at h with h1
        obtain rfl := Option.some.inj h
        omega
  rw [key, List.flatMap_def, List.flatMap_def]
  generalize List.range window = l
  induction l with
  | nil => rfl
  | cons k l ih =>
    rw [List.map_cons, List.flatten_cons, ih, List.filterMap_cons]
    split_ifs with h
    · rfl
    · rfl

/-! ### Rolling sums -/

section Ordered

variable {K V M : Type} [Field K] [LinearOrder K] [IsStrictOrderedRing K] {σ ι : Type}
  {k : Kernel K V M} {law : Lawful k ι} {H : List σ → M → Prop} {wt : List σ → K} {scaled : K → σ → σ}
  {moms : List δ} {core : Nd.Core K M} {L : (δ → ℕ) → List σ} {x : DataArray δ K}

/-- Rows of `rolling_data`, centred or not. -/
theorem rolling_rows (law : Lawful k ι) {window : ℕ} (hw : 1 ≤ window) (minPeriods : Option ℤ)
    (center : Bool) (f : ℕ → M) (n : ℕ) (hf : ∀ p < n, 0 ≤ k.weight (f p)) :
    ∃ rows, k.rollingData window minPeriods center ((List.range n).map f) = some rows ∧
      RowsSpec n
        (fun i => max (minPeriods.getD window) 1 ≤
          (validCount ((windowPlaces window center n i).map (fun p => k.weight (f p))) : ℤ))
        (fun i r => ∃ r', k.reduceDataFromZero ((windowPlaces window center n i).map f) = some r' ∧
          law.Eqv r r') rows := by
  have hd : ∀ d ∈ (List.range n).map f, 0 ≤ k.weight d := by
    intro d hd
    obtain ⟨p, hp, rfl⟩ := List.mem_map.1 hd
    exact hf p (List.mem_range.1 hp)
  cases center with
  | false =>
    obtain ⟨rows, e, h⟩ := Kernel.rollingData_rows law window minPeriods _ hd
    refine ⟨rows, e, ?_⟩
    simp only [windowRows_map, windowRows_places, Kernel.nz, List.map_map, List.length_map,
      List.length_range] at h
    exact h
  | true =>
    obtain ⟨rows, e, h⟩ := Kernel.rollingData_centred law window hw minPeriods _ hd
    refine ⟨rows, e, ?_⟩
    simp only [centredRows_map, centredRows_places hw, Kernel.nz, List.map_map, List.length_map,
      List.length_range] at h
    exact h

theorem rolling_named (T : Meaning k law H wt scaled) (hc : core.Ok)
    (hz : core.recd (fun _ => 0) = k.zero) (hS : StandsNamed core H x moms L)
    (hw : ∀ c, InLabelled x moms c → 0 ≤ wt (L c)) {d : δ} (hd : d ∈ valDims x moms)
    {axis : Option (Option AxisArg)} {dim : Option (Option δ)} (hsel : Chosen x.dims moms axis dim d)
    {window : ℕ} (h1 : 1 ≤ window) (minPeriods : Option ℤ) (center zeroMissing axesToEnd : Bool) :
    ∃ w, rollingX core k window minPeriods center zeroMissing x moms axis dim axesToEnd = .ok w ∧
      WindowsNamed core H w moms (dimsAfter x.dims d moms axesToEnd) x.size
        (enoughInWindow wt L d window minPeriods center (x.size d)) zeroMissing
        (samplesInWindow L d window center (x.size d)) := by
  obtain ⟨hd1, hd2⟩ := mem_valDims.1 hd
  have g : GoodNamed x moms d := ⟨hS.object.distinct, hS.object.momDistinct, hS.object.momPresent, hd1, hd2⟩
  obtain ⟨w, e, hs⟩ := C57_rolling_data hc k hz window minPeriods center zeroMissing g hS.object.momCount
    hsel axesToEnd
  have hdims : ∀ b, b ∈ dimsAfter x.dims d moms axesToEnd ↔ b ∈ x.dims := by
    intro b
    unfold dimsAfter
    cases axesToEnd
    · rfl
    · simp only [if_true]
      exact mem_filter_append (fun a ha => by
        rcases List.mem_cons.1 ha with rfl | ha
        · exact hd1
        · exact hS.object.momPresent a ha) b
  have key : ∀ c, (∀ e ∈ dimsAfter x.dims d moms axesToEnd, e ∉ moms → c e < x.size e) →
      (∀ p < x.size d, H (L (Function.update c d p)) (recordNamed core x moms (Function.update c d p)) ∧
        0 ≤ k.weight (recordNamed core x moms (Function.update c d p))) := by
    intro c hcb p hp
    have hin : InLabelled x moms (Function.update c d p) := by
      intro e he
      obtain ⟨a1, a2⟩ := mem_valDims.1 he
      by_cases hed : e = d
      · subst hed; rwa [Function.update_self]
      · rw [Function.update_of_ne hed]; exact hcb e ((hdims e).2 a1) a2
    have hh := hS.holds _ hin
    exact ⟨hh, by rw [T.cell_weight hh]; exact hw _ hin⟩
  have main : ∀ c, (∀ e ∈ dimsAfter x.dims d moms axesToEnd, e ∉ moms → c e < x.size e) →
      ∀ ms, Within (moms.map x.size) ms → entry w (withNames moms ms c) =
        (let row := ((k.rollingData window minPeriods center (recordsAlong core x moms d c)).bind
          (fun rows => (rows[c d]?).join)).map (fun r => core.ent r ms)
        if zeroMissing = true ∧ (∀ v ∈ ms, v = 0) ∧ row = none then some 0 else row) := by
    intro c hcb ms hms
    have hl : ms.length = moms.length := by simpa using (within_iff.1 hms).1
    rw [hs.entry_eq _ fun e he => ?_]
    · simp only [recordsAlong_withNames hc x hd2, map_withNames hS.object.momDistinct hl]
      have : withNames moms ms c d = c d := by
        unfold withNames
        rw [if_neg hd2]
      rw [this]
    · by_cases hm : e ∈ moms
      · exact withNames_lt hms hm c
      · unfold withNames
        rw [if_neg hm]
        exact hcb e he hm
  have hlt : ∀ c : δ → ℕ, (∀ e ∈ dimsAfter x.dims d moms axesToEnd, e ∉ moms → c e < x.size e) →
      c d < x.size d :=
    fun c hcb => hcb d ((hdims d).2 hd1) hd2
  have hval : ∀ c, (∀ e ∈ dimsAfter x.dims d moms axesToEnd, e ∉ moms → c e < x.size e) →
      (windowPlaces window center (x.size d) (c d)).map
        (fun p => k.weight (recordNamed core x moms (Function.update c d p))) =
      (windowPlaces window center (x.size d) (c d)).map (fun p => wt (L (Function.update c d p))) := by
    intro c hcb
    refine List.map_congr_left fun p hp => ?_
    exact T.cell_weight (key c hcb p (mem_windowPlaces.1 hp).1).1
  refine ⟨w, e, hs.dims_eq, hs.size_eq, fun c hcb hen => ?_, fun c hcb hen ms hms => ?_⟩
  · obtain ⟨rows, e', -, hrow⟩ := rolling_rows law h1 minPeriods center
      (fun p => recordNamed core x moms (Function.update c d p)) (x.size d) (fun p hp => (key c hcb p hp).2)
    have hrow := hrow (c d) (hlt c hcb)
    simp only [hval c hcb] at hrow
    obtain ⟨-, r, hr, r', hr', heq⟩ | ⟨h, -⟩ := hrow
    · obtain ⟨r'', e1, e2⟩ := T.reduce (Ls := (windowPlaces window center (x.size d) (c d)).map
          (fun p => L (Function.update c d p)))
        (data := (windowPlaces window center (x.size d) (c d)).map
          (fun p => recordNamed core x moms (Function.update c d p)))
        (by
          rw [List.forall₂_map_left_iff, List.forall₂_map_right_iff, List.forall₂_same]
          exact fun p hp => (key c hcb p (mem_windowPlaces.1 hp).1).1)
        (by
          intro A hA
          obtain ⟨p, hp, rfl⟩ := List.mem_map.1 hA
          have := key c hcb p (mem_windowPlaces.1 hp).1
          rw [← T.cell_weight this.1]
          exact this.2)
      rw [e1] at hr'
      obtain rfl := Option.some.inj hr'
      refine ⟨r, ?_, fun ms hms => ?_⟩
      · rw [T.iff, law.raw_eq_of_eqv heq, ← T.iff]
        unfold samplesInWindow
        rwa [List.flatMap_def]
      · rw [main c hcb ms hms]
        simp only [recordsAlong, e', Option.bind_some, hr, Option.join_some, Option.map_some]
        rw [if_neg (by simp)]
    · exact absurd hen h
  · obtain ⟨rows, e', -, hrow⟩ := rolling_rows law h1 minPeriods center
      (fun p => recordNamed core x moms (Function.update c d p)) (x.size d) (fun p hp => (key c hcb p hp).2)
    have hrow := hrow (c d) (hlt c hcb)
    simp only [hval c hcb] at hrow
    obtain ⟨h, -⟩ | ⟨-, hr⟩ := hrow
    · exact absurd h hen
    · rw [main c hcb ms hms]
      simp only [recordsAlong, e', Option.bind_some, hr, Option.join_some, Option.map_none, and_true]

/-- Reducing along the windows. -/
theorem window_reduced (T : Meaning k law H wt scaled) (hc : core.Ok)
    (hnil : H [] (core.recd (fun _ => 0))) (hS : StandsNamed core H x moms L)
    (hw : ∀ c, InLabelled x moms c → 0 ≤ wt (L c)) {d wd : δ} (hd : d ∈ valDims x moms)
    {window : ℕ} {center : Bool} (g : GoodRolls x [⟨d, wd, window, center, 1⟩])
    (hz : ∀ e ∈ x.dims, x.size e ≠ 0) {y : DataArray δ K} (y1 : y.dims = wd :: x.dims)
    (y2 : ∀ e ∈ y.dims, y.size e = windowSizes x [⟨d, wd, window, center, 1⟩] e)
    (y3 : ∀ c, c d < x.size d →
        entry y c = if InWindows x [⟨d, wd, window, center, 1⟩] c then
          entry x (seen [⟨d, wd, window, center, 1⟩] c) else 0)
    {axis : Option AxesArg} {dim : Option (Option (List δ))}
    (hsel : ChosenMany y.dims moms axis dim [wd]) :
    ∃ z, reduceX core k y moms axis dim false false = .ok z ∧
      ResultNamed core H z moms x.dims x.size (samplesInWindow L d window center (x.size d)) := by
  obtain ⟨hd1, hd2⟩ := mem_valDims.1 hd
  have hwd : wd ∉ x.dims := g.namesNew _ (List.mem_singleton.2 rfl)
  have hne : d ≠ wd := fun h => hwd (h ▸ hd1)
  have hnd : x.size d ≠ 0 := hz d hd1
  have hsd : windowSizes x [⟨d, wd, window, center, 1⟩] d = x.size d := by
    have := windowSizes_dim (x := x) g.dimsDistinct (List.mem_singleton.2 rfl)
      (by simpa using hne)
    simp only [Int.toNat_one, Nat.div_one] at this
    rw [this]
    omega
  have hsw : windowSizes x [⟨d, wd, window, center, 1⟩] wd = window := by
    have := windowSizes_name (x := x) g.namesDistinct (List.mem_singleton.2 rfl)
      (by simpa using hne.symm)
    simpa using this
  have hso : ∀ e ∈ x.dims, y.size e = x.size e := by
    intro e he
    rw [y2 e (by rw [y1]; exact List.mem_cons_of_mem _ he)]
    by_cases hed : e = d
    · rw [hed, hsd]
    · exact windowSizes_not (by simpa using fun h : e = wd => hwd (h ▸ he)) (by simpa using hed)
  -- samples that do not depend on other coordinates
  set res : (δ → ℕ) → δ → ℕ := fun c e => if e ∈ x.dims then c e else 0 with hres
  have hin : ∀ c, InLabelled x moms (res c) ↔ InLabelled x moms c := by
    intro c
    refine forall₂_congr fun e he => ?_
    rw [hres]
    simp only
    rw [if_pos (mem_valDims.1 he).1]
  have hrec : ∀ c, recordNamed core x moms (res c) = recordNamed core x moms c := by
    intro c
    unfold recordNamed
    congr 1
    funext ms
    refine entry_congr x fun e he => ?_
    unfold withNames
    rw [hres]
    simp only
    rw [if_pos he]
  have hS0 : StandsNamed core H x moms (fun c => L (res c)) :=
    ⟨hS.object, fun c hcb => by
      rw [← hrec]
      exact hS.holds _ ((hin c).2 hcb)⟩
  have hSy := window_stands g (by simpa using hd2) hnil hS0 (by rw [y1]; rfl) y2
    (fun c hcb => y3 c (by
      have := hcb _ (List.mem_singleton.2 rfl)
      rwa [hsd] at this))
  have hwy : ∀ c, InLabelled y moms c →
      0 ≤ wt (samplesSeen x [⟨d, wd, window, center, 1⟩] (fun c => L (res c)) c) := by
    intro c hcb
    unfold samplesSeen
    by_cases hi : InWindows x [⟨d, wd, window, center, 1⟩] c
    · rw [if_pos hi]
      refine hw _ ((hin _).2 fun e he => ?_)
      obtain ⟨h1, h2⟩ := mem_valDims.1 he
      by_cases hed : e = d
      · rw [hed, seen, if_pos rfl]
        have := hi _ (List.mem_singleton.2 rfl)
        simp only at this
        omega
      · rw [seen_not _ (by simpa using hed), ← hso e h1]
        exact hcb e (mem_valDims.2 ⟨by rw [y1]; exact List.mem_cons_of_mem _ h1, h2⟩)
    · rw [if_neg hi, ← T.weight, T.nil]
      exact le_refl _
  have hwm : wd ∉ moms := fun h => hwd (hS.object.momPresent _ h)
  have hwy' : wd ∈ y.dims := by
    rw [y1]
    exact List.mem_cons_self
  obtain ⟨z, ez, hzr⟩ := T.reduce_named hc hSy hwy (fun _ => []) hsel
    (by simp) (by simp) (by
      intro e he
      rw [List.mem_singleton.1 he]
      exact mem_valDims.2 ⟨hwy', hwm⟩) (by
      intro e he hn
      rw [y1] at he
      rcases List.mem_cons.1 he with rfl | he
      · simp at hn
      · rw [hso e he]; exact hz e he) false none false false
  have hdims : dimsReduced y.dims [wd] moms false false = x.dims := by
    unfold dimsReduced
    rw [y1, List.filter_cons_of_neg (by simp), List.filter_eq_self]
    intro e he
    simpa using fun h : e = wd => hwd (h ▸ he)
  rw [hdims] at hzr
  have hsize : ∀ e ∈ x.dims, (if e ∈ [wd] then 1 else y.size e) = x.size e := by
    intro e he
    rw [if_neg (by simpa using fun h : e = wd => hwd (h ▸ he)), hso e he]
  refine ⟨z, ez, hzr.dims_eq, fun e he => (hzr.size_eq e he).trans (hsize e he), fun c hcb => ?_⟩
  obtain ⟨r, hr, hent⟩ := hzr.holds c (fun e he hm => by
    rw [hsize e he]
    exact hcb e he hm)
  refine ⟨r, ?_, fun ms hms => hent ms ?_⟩
  · have hS1 : samplesOverNames (samplesSeen x [⟨d, wd, window, center, 1⟩] (fun c => L (res c))) y.size [wd] c
        = samplesInWindow (fun c => L (res c)) d window center (x.size d) c := by
      unfold samplesOverNames samplesInWindow
      rw [← window_flatMap (fun p => L (res (Function.update c d p)))]
      simp only [allCoords, List.flatMap_assoc, List.flatMap_singleton]
      rw [y2 wd hwy', hsw]
      refine List.flatMap_congr fun s _ => ?_
      have hp : Roll.place ⟨d, wd, window, center, 1⟩ (Function.update c wd s)
          = (c d : ℤ) - reach window center + s := by
        unfold Roll.place
        simp only
        rw [Function.update_self, Function.update_of_ne hne, one_mul]
      unfold samplesSeen InWindows
      simp only [List.mem_singleton, forall_eq, hp]
      refine if_congr Iff.rfl ?_ rfl
      congr 1
      funext e
      rw [hres]
      simp only
      by_cases he : e ∈ x.dims
      · rw [if_pos he, if_pos he]
        by_cases hed : e = d
        · rw [hed, Function.update_self, seen, if_pos rfl, hp]
        · rw [Function.update_of_ne hed, seen_not _ (by simpa using hed),
            Function.update_of_ne (fun h : e = wd => hwd (h ▸ he))]
      · rw [if_neg he, if_neg he]
    rw [hS1, T.iff] at hr
    rw [T.iff, hr]
    have hall : ∀ p ∈ windowPlaces window center (x.size d) (c d),
        InLabelled x moms (Function.update c d p) := by
      intro p hp e he
      obtain ⟨h1, h2⟩ := mem_valDims.1 he
      by_cases hed : e = d
      · rw [hed, Function.update_self]; exact (mem_windowPlaces.1 hp).1
      · rw [Function.update_of_ne hed]; exact hcb e h1 h2
    have A := T.rsum (Ls := (windowPlaces window center (x.size d) (c d)).map
        (fun p => L (res (Function.update c d p))))
      (data := (windowPlaces window center (x.size d) (c d)).map
        (fun p => recordNamed core x moms (Function.update c d p))) (by
        rw [List.forall₂_map_left_iff, List.forall₂_map_right_iff, List.forall₂_same]
        exact fun p hp => hS0.holds _ (hall p hp))
    have B := T.rsum (Ls := (windowPlaces window center (x.size d) (c d)).map
        (fun p => L (Function.update c d p)))
      (data := (windowPlaces window center (x.size d) (c d)).map
        (fun p => recordNamed core x moms (Function.update c d p))) (by
        rw [List.forall₂_map_left_iff, List.forall₂_map_right_iff, List.forall₂_same]
        exact fun p hp => hS.holds _ (hall p hp))
    unfold samplesInWindow
    rw [List.flatMap_def, List.flatMap_def, ← A, ← B]
  · rw [List.map_congr_left (fun e he => hsize e (hS.object.momPresent e he))]
    exact hms

/-- Where there is enough, the two agree. -/
theorem window_agree (T : Meaning k law H wt scaled) {d : δ} {window : ℕ}
    {minPeriods : Option ℤ} {center zeroMissing : Bool}
    (hw : ∀ c, InLabelled x moms c → 0 ≤ wt (L c)) (hd : d ∈ valDims x moms)
    (hent : ∀ a b, law.Eqv a b → ∀ ms, Within (moms.map x.size) ms → core.ent a ms = core.ent b ms)
    {w z : DataArray δ (Option K)}
    (hr : WindowsNamed core H w moms x.dims x.size
        (enoughInWindow wt L d window minPeriods center (x.size d)) zeroMissing
        (samplesInWindow L d window center (x.size d)))
    (hs : ResultNamed core H z moms x.dims x.size (samplesInWindow L d window center (x.size d)))
    {c : δ → ℕ} (hcb : InLabelled x moms c)
    (hen : enoughInWindow wt L d window minPeriods center (x.size d) c) {ms : List ℕ}
    (hms : Within (moms.map x.size) ms) :
    entry w (withNames moms ms c) = entry z (withNames moms ms c) := by
  have hcb' : ∀ e ∈ x.dims, e ∉ moms → c e < x.size e := fun e h1 h2 => hcb e (mem_valDims.2 ⟨h1, h2⟩)
  obtain ⟨a, ha, ha'⟩ := hr.holds c hcb' hen
  obtain ⟨b, hb, hb'⟩ := hs.holds c hcb'
  rw [ha' ms hms, hb' ms hms]
  congr 1
  refine hent a b (law.eqv_of_raw ?_ (((T.iff _ _).1 ha).trans ((T.iff _ _).1 hb).symm)) ms hms
  rw [T.cell_weight ha]
  intro h0
  have hsum : wt (samplesInWindow L d window center (x.size d) c) =
      ((windowPlaces window center (x.size d) (c d)).map (fun p => wt (L (Function.update c d p)))).sum := by
    unfold samplesInWindow
    generalize windowPlaces window center (x.size d) (c d) = l
    induction l with
    | nil => rw [List.flatMap_nil, ← T.weight, T.nil]; rfl
    | cons p l ih =>
      rw [List.flatMap_cons, ← T.weight, T.append, Pi.add_apply, T.weight, T.weight, ih, List.map_cons,
        List.sum_cons]
  rw [hsum] at h0
  have hall := Lawful.all_zero_of_sum_zero (l := (windowPlaces window center (x.size d) (c d)).map
      (fun p => wt (L (Function.update c d p)))) (by
    intro v hv
    obtain ⟨p, hp, rfl⟩ := List.mem_map.1 hv
    refine hw _ fun e he => ?_
    by_cases hed : e = d
    · rw [hed, Function.update_self]; exact (mem_windowPlaces.1 hp).1
    · rw [Function.update_of_ne hed]; exact hcb e he) h0
  have hcount : validCount ((windowPlaces window center (x.size d) (c d)).map
      (fun p => wt (L (Function.update c d p)))) = 0 := by
    unfold validCount
    rw [List.countP_eq_zero]
    intro v hv
    simpa using hall v hv
  unfold enoughInWindow at hen
  rw [hcount] at hen
  have := le_trans (le_max_right _ _) hen
  simp at this

end Ordered

end Cmomy
