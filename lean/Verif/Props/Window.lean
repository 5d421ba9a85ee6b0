import Verif.Lemmas.Window
import Verif.Props.LabelledMake

/-!
# C71: arrays of rolling windows
-/

set_option linter.unusedSectionVars false

namespace Cmomy

open Spec Labelled Axes Validate
open Nd (core1 core2 core1_ok core2_ok value1 value2 family1 family2)

section Windows

variable {δ : Type} [DecidableEq δ] {α : Type} {mom0 mom1 : δ} {roll : δ → δ} {x : DataArray δ α}
  {window : PerDim ℤ} {axis : Option AxesArg} {dim : Option (Option (List δ))} {center : PerDim Bool}
  {stride : PerDim ℤ} {mp : Input (PX δ) (DimsArg δ)} {ndim : Option ℤ} {axes : Option IntArg}
  {dims : Option (DimsArg δ)} {names : Option (List δ)} {p : Option (PX δ)} {rs : List (Roll δ)}

/-! ### Moment parameters that may be missing -/

/-- **C71** With nothing said about moments there are no moment dimensions. -/
theorem C71_no_params (data : OutDims δ) :
    factoryOptional mom0 mom1 .absent none none none data = .ok none := rfl

/-- **C71** Otherwise the moment dimensions are those of `C70_names_given` and `C70_names_default`. -/
theorem C71_params (h : ndim.isSome ∨ dims.isSome ∨ axes.isSome) (data : OutDims δ) :
    factoryOptional mom0 mom1 .absent ndim dims axes data =
      (factoryX mom0 mom1 .absent ndim dims axes data none).map some := by
  unfold factoryOptional fromParamsOptional
  rw [if_neg]
  · rfl
  · rintro ⟨h1, h2, h3⟩
    rw [Option.isNone_iff_eq_none] at h2 h3
    subst h1 h2 h3
    simp at h

/-- **C71** Moment parameters made before keep their names. -/
theorem C71_params_kept {q : PX δ} {data : OutDims δ}
    (h : factoryOptional mom0 mom1 (.obj q) none none none data = .ok p) :
    ∃ p', p = some p' ∧ p'.dims = q.dims := by
  have h' : (factoryX mom0 mom1 .absent (some q.ndim) (some (.seq q.dims)) none data none).map some = .ok p := h
  cases e : factoryX mom0 mom1 .absent (some q.ndim) (some (.seq q.dims)) none data none with
  | error _ => rw [e] at h'; cases h'
  | ok r =>
    rw [e] at h'
    exact ⟨r, (Except.ok.inj h').symm, C70_names_given e⟩

/-! ### What the windows show -/

/-- **C71** `construct_rolling_window_array` along one or several dimensions: the new dimensions come
first, one for each dimension rolled, as long as the window; rolled dimensions have one window for every
multiple of the stride. At offset `k` of window `i` stands what is found `k` places after the first place
of the window: the place `window - 1` before `stride * i`, or `window // 2` before it if centred. Where that
is no place of the array, in any of the rolled dimensions, stands the fill value. -/
theorem C71_windows (g : GoodRolls x rs)
    (hp : factoryOptional mom0 mom1 mp ndim dims axes (some x.dims) = .ok p)
    (hsel : ChosenOptional x.dims p axis dim (rs.map Roll.dim))
    (ha : Asked roll (rs.map Roll.dim) window center stride names rs) (fill : α) :
    ∃ y, windowArrayX mom0 mom1 roll x window axis dim center stride fill mp ndim axes dims names = .ok y ∧
      ShowsNamed y (rs.map Roll.name ++ x.dims) (windowSizes x rs)
        (fun c => if InWindows x rs c then entry x (seen rs c) else fill) := by
  obtain ⟨y, e, y1, y2, y3⟩ := windowArrayX_ok g hp hsel ha fill
  refine ⟨y, e, y1, y1 ▸ y2, fun c hc => y3 c fun r hr => hc _ ?_⟩
  exact List.mem_append_right _ (g.present r hr)

/-- **C71** One dimension, in numbers: at offset `k` of window `i` stands the entry at
`stride * i + k - reach`. -/
theorem C71_one_dimension {d wd : δ} {w s : ℕ} {cent : Bool} (g : GoodRolls x [⟨d, wd, w, cent, s⟩])
    (hp : factoryOptional mom0 mom1 mp ndim dims axes (some x.dims) = .ok p)
    (hsel : ChosenOptional x.dims p axis dim [d])
    (ha : Asked roll [d] window center stride names [⟨d, wd, w, cent, s⟩]) (fill : α) :
    ∃ y, windowArrayX mom0 mom1 roll x window axis dim center stride fill mp ndim axes dims names = .ok y ∧
      y.dims = wd :: x.dims ∧ y.size wd = w ∧ y.size d = (x.size d - 1) / s + 1 ∧
      (∀ e ∈ x.dims, e ≠ d → y.size e = x.size e) ∧
      ∀ c, (∀ e ∈ y.dims, c e < y.size e) → ∀ z : ℤ,
        z = s * c d + c wd - (if cent then ((w / 2 : ℕ) : ℤ) else (w : ℤ) - 1) →
        (∀ j : ℕ, z = j → j < x.size d → entry y c = entry x (Function.update c d j)) ∧
        (z < 0 ∨ (x.size d : ℤ) ≤ z → entry y c = fill) := by
  obtain ⟨y, e, y1, y2, y3⟩ := windowArrayX_ok g hp hsel ha fill
  have hd : d ∈ x.dims := g.present _ (List.mem_singleton.2 rfl)
  have hwd : wd ∉ x.dims := g.namesNew _ (List.mem_singleton.2 rfl)
  have hne : d ≠ wd := fun h => hwd (h ▸ hd)
  have hwy : wd ∈ y.dims := by rw [y1]; exact List.mem_cons_self
  have hdy : ∀ e ∈ x.dims, e ∈ y.dims := by
    intro e he
    rw [y1]
    exact List.mem_cons_of_mem _ he
  refine ⟨y, e, y1, ?_, ?_, ?_, fun c hc z hz => ?_⟩
  · rw [y2 _ hwy]
    simpa using windowSizes_name (x := x) g.namesDistinct (List.mem_singleton.2 rfl) (by simpa using hne.symm)
  · rw [y2 _ (hdy d hd)]
    simpa using windowSizes_dim (x := x) g.dimsDistinct (List.mem_singleton.2 rfl) (by simpa using hne)
  · intro b hb hbd
    rw [y2 _ (hdy b hb)]
    exact windowSizes_not (by simpa using fun h : b = wd => hwd (h ▸ hb)) (by simpa using hbd)
  · have hpl : Roll.place ⟨d, wd, w, cent, s⟩ c = z := by
      rw [hz]
      unfold Roll.place reach
      simp only
      cases cent
      · simp only [Bool.false_eq_true, if_false]; ring
      · simp only [if_true]; push_cast; ring
    rw [y3 c (by
      intro r hr
      obtain rfl := List.mem_singleton.1 hr
      show c d < _
      rw [← y2 _ (hdy d hd)]
      exact hc d (hdy d hd))]
    unfold InWindows
    simp only [List.mem_singleton, forall_eq, hpl]
    refine ⟨fun j hj hlt => ?_, fun h => ?_⟩
    · rw [if_pos (by omega)]
      refine entry_congr x fun b hb => ?_
      by_cases hbd : b = d
      · rw [hbd, Function.update_self, seen, if_pos rfl, hpl, hj, Int.toNat_natCast]
      · rw [Function.update_of_ne hbd, seen_not _ (by simpa using hbd)]
    · rw [if_neg (by omega)]

/-! ### What is refused -/

/-- What a call does once the dimensions are known. -/
theorem window_selected {ds : List δ} {is : List ℕ}
    (hp : factoryOptional mom0 mom1 mp ndim dims axes (some x.dims) = .ok p)
    (hs : selectOptional x.dims p axis dim = .ok (is, ds)) (fill : α) :
    windowArrayX mom0 mom1 roll x window axis dim center stride fill mp ndim axes dims names =
      if (window.spread ds.length).length ≠ ds.length ∨ (center.spread ds.length).length ≠ ds.length ∨
        (stride.spread ds.length).length ≠ ds.length ∨ (names.getD (ds.map roll)).length ≠ ds.length then
        .error .valueError
      else (rollingConstruct x (zipRolls ds (names.getD (ds.map roll)) (window.spread ds.length)
          (center.spread ds.length) (stride.spread ds.length)) fill).bind fun y =>
        y.transposeStrict ((names.getD (ds.map roll)).map some ++ [none]) := by
  unfold windowArrayX
  rw [hp]
  simp only [Except.bind]
  rw [hs]

theorem window_asked {rs : List (Roll δ)} (hx : x.dims.Nodup) (hn : (rs.map Roll.dim).Nodup)
    (hpr : ∀ r ∈ rs, r.dim ∈ x.dims)
    (hp : factoryOptional mom0 mom1 mp ndim dims axes (some x.dims) = .ok p)
    (hsel : ChosenOptional x.dims p axis dim (rs.map Roll.dim))
    (ha : Asked roll (rs.map Roll.dim) window center stride names rs) (fill : α) :
    windowArrayX mom0 mom1 roll x window axis dim center stride fill mp ndim axes dims names =
      (rollingConstruct x rs fill).bind fun y =>
        y.transposeStrict ((rs.map Roll.name).map some ++ [none]) := by
  have hl : (rs.map Roll.dim).length = rs.length := List.length_map ..
  have w1 : window.spread rs.length = rs.map Roll.window := by
    have := each_spread ha.window
    rwa [List.length_map] at this
  have w2 : center.spread rs.length = rs.map Roll.center := by
    have := each_spread ha.center
    rwa [List.length_map] at this
  have w3 : stride.spread rs.length = rs.map Roll.stride := by
    have := each_spread ha.stride
    rwa [List.length_map] at this
  rw [window_selected hp (selectOptional_ok hx hn (fun d hd => by
    obtain ⟨r, hr, rfl⟩ := List.mem_map.1 hd
    exact hpr r hr) hsel)]
  rw [hl, w1, w2, w3, ← ha.names, if_neg (by simp), zipRolls_map]

/-- **C71** A sequence of windows, of centres, of strides or of names that has another length than the
dimensions rolled is refused. -/
theorem C71_lengths_refused {ds : List δ} (hx : x.dims.Nodup) (hn : ds.Nodup) (hpr : ∀ d ∈ ds, d ∈ x.dims)
    (hp : factoryOptional mom0 mom1 mp ndim dims axes (some x.dims) = .ok p)
    (hsel : ChosenOptional x.dims p axis dim ds)
    (h : (∃ l, window = .many l ∧ l.length ≠ ds.length) ∨ (∃ l, center = .many l ∧ l.length ≠ ds.length) ∨
      (∃ l, stride = .many l ∧ l.length ≠ ds.length) ∨ ∃ l, names = some l ∧ l.length ≠ ds.length) (fill : α) :
    windowArrayX mom0 mom1 roll x window axis dim center stride fill mp ndim axes dims names
      = .error .valueError := by
  rw [window_selected hp (selectOptional_ok hx hn hpr hsel), if_pos]
  rcases h with ⟨l, rfl, h⟩ | ⟨l, rfl, h⟩ | ⟨l, rfl, h⟩ | ⟨l, rfl, h⟩
  · exact .inl h
  · exact .inr (.inl h)
  · exact .inr (.inr (.inl h))
  · exact .inr (.inr (.inr h))

/-- **C71** A window that is not positive is refused. -/
theorem C71_window_refused (hx : x.dims.Nodup) (hn : (rs.map Roll.dim).Nodup)
    (hpr : ∀ r ∈ rs, r.dim ∈ x.dims) (hnn : (rs.map Roll.name).Nodup) (hnx : ∀ r ∈ rs, r.name ∉ x.dims)
    (hp : factoryOptional mom0 mom1 mp ndim dims axes (some x.dims) = .ok p)
    (hsel : ChosenOptional x.dims p axis dim (rs.map Roll.dim))
    (ha : Asked roll (rs.map Roll.dim) window center stride names rs)
    (h : ∃ r ∈ rs, r.window ≤ 0) (fill : α) :
    windowArrayX mom0 mom1 roll x window axis dim center stride fill mp ndim axes dims names
      = .error .valueError := by
  rw [window_asked hx hn hpr hp hsel ha]
  unfold rollingConstruct
  rw [if_neg, if_pos h]
  · rfl
  · rintro (rfl | h' | h' | ⟨r, hr, h'⟩)
    · simp at h
    · exact h' hn
    · exact h' hnn
    · exact hnx r hr h'

/-- **C71** Rolling along an empty dimension is refused. -/
theorem C71_empty_refused (hx : x.dims.Nodup) (hn : (rs.map Roll.dim).Nodup)
    (hpr : ∀ r ∈ rs, r.dim ∈ x.dims) (hnn : (rs.map Roll.name).Nodup) (hnx : ∀ r ∈ rs, r.name ∉ x.dims)
    (hw : ∀ r ∈ rs, 0 < r.window)
    (hp : factoryOptional mom0 mom1 mp ndim dims axes (some x.dims) = .ok p)
    (hsel : ChosenOptional x.dims p axis dim (rs.map Roll.dim))
    (ha : Asked roll (rs.map Roll.dim) window center stride names rs)
    (h : ∃ r ∈ rs, x.size r.dim = 0) (fill : α) :
    windowArrayX mom0 mom1 roll x window axis dim center stride fill mp ndim axes dims names
      = .error .valueError := by
  rw [window_asked hx hn hpr hp hsel ha]
  unfold rollingConstruct
  rw [if_neg, if_neg]
  · unfold DataArray.slidingWindows
    rw [if_pos]
    · rfl
    · obtain ⟨r, hr, h0⟩ := h
      refine ⟨r, hr, ?_⟩
      show ((rollFor rs r.dim).map _).getD _ < _
      rw [rollFor_mem hn hr]
      have := (pads_reach (hw r hr)).2
      simp only [Option.map_some, Option.getD_some]
      omega
  · rintro ⟨r, hr, h'⟩
    exact absurd (hw r hr) (not_lt.2 h')
  · rintro (rfl | h' | h' | ⟨r, hr, h'⟩)
    · simp at h
    · exact h' hn
    · exact h' hnn
    · exact hnx r hr h'

/-- **C71** A stride of zero is refused. -/
theorem C71_stride_refused (hx : x.dims.Nodup) (hn : (rs.map Roll.dim).Nodup)
    (hpr : ∀ r ∈ rs, r.dim ∈ x.dims) (hnn : (rs.map Roll.name).Nodup) (hnx : ∀ r ∈ rs, r.name ∉ x.dims)
    (hw : ∀ r ∈ rs, 0 < r.window) (hne : ∀ r ∈ rs, x.size r.dim ≠ 0)
    (hp : factoryOptional mom0 mom1 mp ndim dims axes (some x.dims) = .ok p)
    (hsel : ChosenOptional x.dims p axis dim (rs.map Roll.dim))
    (ha : Asked roll (rs.map Roll.dim) window center stride names rs)
    (h : ∃ r ∈ rs, r.stride = 0) (fill : α) :
    windowArrayX mom0 mom1 roll x window axis dim center stride fill mp ndim axes dims names
      = .error .valueError := by
  rw [window_asked hx hn hpr hp hsel ha]
  unfold rollingConstruct
  rw [if_neg, if_neg]
  · unfold DataArray.slidingWindows
    rw [if_neg]
    · simp only [Except.bind]
      unfold DataArray.isel
      rw [if_neg]
      · rw [mapM_error _ PyErr.valueError]
        · rfl
        · intro d _ e he
          have hall : ∀ s : Sel, (∃ a b c, s = .slice a b c) → ∀ n e, s.pick n = .error e → e = .valueError := by
            rintro s ⟨a, b, c, rfl⟩ n e he
            by_cases hc : ∃ l, Positions n (.slice a b c) l
            · obtain ⟨l, hl⟩ := hc
              obtain ⟨⟨f, hf, -⟩, -⟩ := positions_pick hl
              rw [hf] at he
              cases he
            · rw [pick_fails hc] at he
              cases he
              rfl
          refine hall _ ?_ _ _ he
          by_cases hk : d ∈ rs.map Roll.dim
          · obtain ⟨r, hr, rfl⟩ := List.mem_map.1 hk
            rw [lookup_mem (d := r.dim) (s := .slice none none (some r.stride)) (by rw [List.map_map]; exact hn)
              (List.mem_map.2 ⟨r, hr, rfl⟩)]
            exact ⟨_, _, _, rfl⟩
          · rw [lookup_none (by rw [List.map_map]; exact hk)]
            exact ⟨_, _, _, rfl⟩
        · obtain ⟨r, hr, h0⟩ := h
          refine ⟨r.dim, List.mem_append_left _ (hpr r hr), ?_⟩
          rw [lookup_mem (d := r.dim) (s := .slice none none (some r.stride)) (by rw [List.map_map]; exact hn)
            (List.mem_map.2 ⟨r, hr, rfl⟩), h0]
          rfl
      · rintro ⟨q, hq, hn'⟩
        obtain ⟨r, hr, rfl⟩ := List.mem_map.1 hq
        exact hn' (List.mem_append_left _ (hpr r hr))
    · rintro ⟨r, hr, h'⟩
      have h' : ((rollFor rs r.dim).map (fun q => q.pads.1 + x.size r.dim + q.pads.2)).getD (x.size r.dim)
        < r.window.toNat := h'
      rw [rollFor_mem hn hr] at h'
      have := (pads_reach (hw r hr)).2
      have := hne r hr
      simp only [Option.map_some, Option.getD_some] at h'
      omega
  · rintro ⟨r, hr, h'⟩
    exact absurd (hw r hr) (not_lt.2 h')
  · rintro (rfl | h' | h' | ⟨r, hr, h'⟩)
    · simp at h
    · exact h' hn
    · exact h' hnn
    · exact hnx r hr h'

/-- **C71** A moment dimension cannot be rolled, a name that is no dimension is refused, and exactly one
of `axis` and `dim` has to be given. -/
theorem C71_selection_refused
    (hp : factoryOptional mom0 mom1 mp ndim dims axes (some x.dims) = .ok p) (fill : α)
    (h : (axis = none ∧ dim = none) ∨ (axis.isSome ∧ dim.isSome) ∨
      ∃ ds, axis = none ∧ dim = some (some ds) ∧ ∃ d ∈ ds, d ∉ x.dims ∨ ∃ q, p = some q ∧ d ∈ q.dims) :
    windowArrayX mom0 mom1 roll x window axis dim center stride fill mp ndim axes dims names
      = .error .valueError := by
  have hs : selectOptional x.dims p axis dim = .error .valueError := by
    rcases h with ⟨rfl, rfl⟩ | ⟨h1, h2⟩ | ⟨ds, rfl, rfl, d, hd, h⟩
    · cases p <;> rfl
    · obtain ⟨a, rfl⟩ := Option.isSome_iff_exists.1 h1
      obtain ⟨b, rfl⟩ := Option.isSome_iff_exists.1 h2
      cases p <;> rfl
    · cases p with
      | none =>
        unfold selectOptional
        simp only [axisDimDefaults, Except.bind, Option.getD_some]
        rw [if_neg]
        rcases h with h | ⟨q, hq, -⟩
        · exact fun h' => h (h' d hd)
        · cases hq
      | some q =>
        unfold selectOptional selectAxisDimMult
        simp only [axisDimDefaults, Except.bind, Option.getD_some]
        by_cases hall : ∀ e ∈ ds, e ∈ x.dims
        · rw [if_pos hall]
          simp only
          rw [if_pos]
          rcases h with h | ⟨q', hq, h⟩
          · exact absurd (hall d hd) h
          · obtain rfl := Option.some.inj hq
            exact ⟨d, hd, h⟩
        · rw [if_neg hall]
  unfold windowArrayX
  rw [hp]
  simp only [Except.bind]
  rw [hs]

end Windows

/-! ### Arrays -/

section Arrays

variable {α : Type}

theorem auto_nodup (n : ℕ) : ((List.range n).map AutoName.dim).Nodup :=
  List.Nodup.map (fun a b h => AutoName.dim.inj h) List.nodup_range

theorem auto_idx {n a : ℕ} (h : a < n) : ((List.range n).map AutoName.dim).idxOf (AutoName.dim a) = a := by
  have := (auto_nodup n).idxOf_getElem a (by simpa using h)
  simpa using this

theorem auto_entry {x : Nd.Arr α} (hx : x.Proper) (c : AutoName → ℕ) :
    entry (DataArray.ofNd ((List.range x.shape.length).map AutoName.dim) x) c = x.get (fun a => c (.dim a)) := by
  refine hx _ _ fun a ha => ?_
  simp only [DataArray.ofNd, List.map_map]
  rw [List.getD_eq_getElem?_getD, List.getElem?_map, List.getElem?_range ha]
  rfl

theorem last_dims_found {δ : Type} (mom0 mom1 : δ) {k : ℕ} (hk : k = 1 ∨ k = 2) {l : List δ} (hl : k ≤ l.length) :
    ∃ q, factoryX mom0 mom1 .absent (some (k : ℤ)) none none (some l) none = .ok q := by
  have hget : ∀ z : ℤ, z < 0 → 0 ≤ z + l.length → ∃ d, pyGet l z = .ok d := by
    intro z h1 h2
    unfold pyGet
    simp only [if_pos h1]
    rw [if_neg (by omega)]
    have : (z + l.length).toNat < l.length := by omega
    rw [List.getElem?_eq_getElem this]
    exact ⟨_, rfl⟩
  rcases hk with rfl | rfl
  · obtain ⟨a, ha⟩ := hget (-1) (by omega) (by omega)
    refine ⟨⟨1, [a]⟩, ?_⟩
    show ((([-1 + ((0 : ℕ) : ℤ)].mapM (fun a => pyGet l a)).map fun ds => (ds, (1 : ℤ))).map
      fun r => (⟨r.2, r.1⟩ : PX δ)) = _
    rw [List.mapM_cons, List.mapM_nil]
    norm_num
    rw [ha]
    rfl
  · obtain ⟨a, ha⟩ := hget (-2) (by omega) (by omega)
    obtain ⟨b, hb⟩ := hget (-1) (by omega) (by omega)
    refine ⟨⟨2, [a, b]⟩, ?_⟩
    show ((([-2 + ((0 : ℕ) : ℤ), -2 + ((1 : ℕ) : ℤ)].mapM (fun a => pyGet l a)).map fun ds => (ds, (2 : ℤ))).map
      fun r => (⟨r.2, r.1⟩ : PX δ)) = _
    rw [List.mapM_cons, List.mapM_cons, List.mapM_nil]
    norm_num
    rw [ha, hb]
    rfl

/-- **C71** `construct_rolling_window_array` of an array along one axis: a new first axis holds the
window. `mom_ndim` only says which axes cannot be taken; `mom_params` has no effect. -/
theorem C71_array {x : Nd.Arr α} (hx : x.Proper) {z : ℤ} (hz : InRange x.shape.length z) {ax : ℕ}
    (hax : ax = wrap x.shape.length z) {ndim : Option ℤ}
    (hm : ndim = none ∨ ∃ k : ℕ, ndim = some k ∧ (k = 1 ∨ k = 2) ∧ ax + k < x.shape.length)
    {w s : ℕ} (hw : 0 < w) (hs : 0 < s) (hne : x.shape.getD ax 0 ≠ 0) (cent : Bool) (fill : α)
    (mp : Input PArray Unit) :
    ∃ y, windowArray x (.one w) (some (.one (.int z))) (.one cent) (.one s) fill mp ndim none = .ok y ∧
      y.shape = w :: x.shape.set ax ((x.shape.getD ax 0 - 1) / s + 1) ∧
      ∀ i : ℕ → ℕ, (∀ a < y.shape.length, i a < y.shape.getD a 0) → ∀ v : ℤ,
        v = s * i (ax + 1) + i 0 - (if cent then ((w / 2 : ℕ) : ℤ) else (w : ℤ) - 1) →
        (∀ j : ℕ, v = j → j < x.shape.getD ax 0 →
          y.get i = x.get (fun a => if a = ax then j else i (a + 1))) ∧
        (v < 0 ∨ (x.shape.getD ax 0 : ℤ) ≤ v → y.get i = fill) := by
  have haxn : ax < x.shape.length := by
    subst hax
    exact wrap_lt hz
  obtain ⟨ds, hds⟩ : ∃ ds, ds = (List.range x.shape.length).map AutoName.dim := ⟨_, rfl⟩
  have hdl : ds.length = x.shape.length := by simp [hds]
  have hnd : ds.Nodup := hds ▸ auto_nodup _
  have hget : ∀ a < x.shape.length, ds[a]? = some (.dim a) := by
    intro a ha
    rw [hds, List.getElem?_map, List.getElem?_range ha]
    rfl
  have hidx : ∀ a < x.shape.length, ds.idxOf (AutoName.dim a) = a := fun a ha => by rw [hds]; exact auto_idx ha
  have hmem : ∀ a < x.shape.length, AutoName.dim a ∈ ds := fun a ha => List.mem_of_getElem? (hget a ha)
  obtain ⟨X, hX⟩ : ∃ X : DataArray AutoName α, X = DataArray.ofNd ds x := ⟨_, rfl⟩
  have hXd : X.dims = ds := by rw [hX]; rfl
  have hXs : ∀ a < x.shape.length, X.size (.dim a) = x.shape.getD a 0 := by
    intro a ha
    rw [hX]
    show x.shape.getD (ds.idxOf _) 0 = _
    rw [hidx a ha]
  have hXe : ∀ c, entry X c = x.get (fun a => c (.dim a)) := by
    intro c
    rw [hX, hds]
    exact auto_entry hx c
  have hg : GoodRolls X [⟨.dim ax, .rolling ax, w, cent, s⟩] := by
    refine ⟨hXd ▸ hnd, by simp, by simp, ?_, by simp, ?_, ?_, ?_, ?_⟩
    · intro r hr
      obtain rfl := List.mem_singleton.1 hr
      exact hXd ▸ hmem ax haxn
    · intro r hr
      obtain rfl := List.mem_singleton.1 hr
      rw [hXd, hds]
      simp
    · intro r hr
      obtain rfl := List.mem_singleton.1 hr
      exact Int.natCast_pos.2 hw
    · intro r hr
      obtain rfl := List.mem_singleton.1 hr
      exact Int.natCast_pos.2 hs
    · intro r hr
      obtain rfl := List.mem_singleton.1 hr
      rwa [← hXs ax haxn] at hne
  have hA : Asked AutoName.roll [AutoName.dim ax] (.one (w : ℤ)) (.one cent) (.one (s : ℤ)) none
      [⟨.dim ax, .rolling ax, w, cent, s⟩] :=
    ⟨rfl, rfl, by simp [Each], by simp [Each], by simp [Each]⟩
  obtain ⟨p, hp, hsel⟩ : ∃ p, factoryOptional (.mom 0) (.mom 1) .absent ndim none none (some X.dims) = .ok p ∧
      ChosenOptional X.dims p (some (.one (.int z))) none [AutoName.dim ax] := by
    rcases hm with rfl | ⟨k, rfl, hk, hlt⟩
    · refine ⟨none, rfl, .inr (.inr (.inr (.inr ⟨rfl, z, rfl, ?_, _, rfl, ?_⟩)))⟩
      · rw [hXd, hdl]; exact hz
      · rw [hXd, hdl, ← hax]; exact hget ax haxn
    · obtain ⟨q, hq⟩ : ∃ q, factoryX (.mom 0) (.mom 1) .absent (some (k : ℤ)) none none (some X.dims) none = .ok q := by
        rw [hXd]
        exact last_dims_found _ _ hk (by omega)
      have hqn : q.ndim = k := (C70_params (fun p h => by cases h) hq).2.2 _ rfl
      have hqd := ((C70_names_default hq).2.1 _ rfl rfl).1
      rw [hqn, Int.toNat_natCast, hXd, hdl] at hqd
      refine ⟨some q, by rw [C71_params (.inl rfl)]; exact congrArg (Except.map some) hq,
        .inl (.inr (.inr (.inr (.inl ⟨rfl, z, rfl, ?_, _, rfl, ?_⟩)))), ?_⟩
      · rw [hXd, hdl]; exact hz
      · rw [hXd, hdl, ← hax]; exact hget ax haxn
      · intro d hd
        obtain rfl := List.mem_singleton.1 hd
        rw [hqd]
        intro hm
        obtain ⟨b, hb, e⟩ := List.getElem_of_mem hm
        rw [List.getElem_drop] at e
        have := hidx ax haxn
        rw [← e, hnd.idxOf_getElem] at this
        omega
  obtain ⟨Y, e, Y1, Y2, Y3, Y4, Y5⟩ := C71_one_dimension (mom0 := .mom 0) (mom1 := .mom 1) hg hp hsel hA fill
  have hYn : Y.dims.Nodup := by
    rw [Y1, hXd, List.nodup_cons]
    exact ⟨by rw [hds]; simp, hnd⟩
  have hYi : ∀ a < x.shape.length, Y.dims.idxOf (AutoName.dim a) = a + 1 := by
    intro a ha
    rw [Y1, hXd, List.idxOf_cons_ne _ (by simp), hidx a ha]
  have hYr : Y.dims.idxOf (AutoName.rolling ax) = 0 := by rw [Y1, List.idxOf_cons_self]
  have hsh : Y.values.shape = w :: x.shape.set ax ((x.shape.getD ax 0 - 1) / s + 1) := by
    show Y.dims.map Y.size = _
    rw [Y1, hXd, List.map_cons, Y2]
    refine congrArg _ (List.ext_getElem (by simp [hdl]) fun a h1 h2 => ?_)
    have ha : a < x.shape.length := by simpa [hdl] using h1
    have hda : ds[a]'(by omega) = .dim a := by
      have := hget a ha
      rw [List.getElem?_eq_getElem (by omega)] at this
      exact Option.some.inj this
    rw [List.getElem_map, hda, List.getElem_set]
    by_cases h : a = ax
    · rw [if_pos h.symm, h, Y3, hXs ax haxn]
    · rw [if_neg (Ne.symm h), Y4 _ (hXd ▸ hmem a ha) (fun e => h (AutoName.dim.inj e)), hXs a ha,
        List.getD_eq_getElem?_getD, List.getElem?_eq_getElem ha]
      rfl
  refine ⟨Y.values, ?_, hsh, fun i hi v hv => ?_⟩
  · unfold windowArray
    rw [← hds, ← hX, e]
    rfl
  · have hlen : Y.values.shape.length = Y.dims.length := List.length_map ..
    have hb : ∀ e ∈ Y.dims, i (Y.dims.idxOf e) < Y.size e := by
      intro b hb
      have hlt := List.idxOf_lt_length_iff.2 hb
      have := hi _ (hlen ▸ hlt)
      rw [List.getD_eq_getElem?_getD] at this
      have h3 : Y.values.shape[Y.dims.idxOf b]? = some (Y.size b) := by
        show (Y.dims.map Y.size)[_]? = _
        rw [List.getElem?_map, List.getElem?_eq_getElem hlt, List.getElem_idxOf hlt]
        rfl
      rwa [h3] at this
    rw [values_get Y hYn]
    have := Y5 (fun d => i (Y.dims.idxOf d)) hb v (by rw [hYi ax haxn, hYr]; exact hv)
    rw [hXs ax haxn] at this
    refine ⟨fun j h1 h2 => ?_, this.2⟩
    rw [this.1 j h1 h2, hXe]
    refine hx _ _ fun a ha => ?_
    by_cases h : a = ax
    · rw [h, Function.update_self, if_pos rfl]
    · rw [Function.update_of_ne (fun e => h (AutoName.dim.inj e)), if_neg h, hYi a ha]

/-- **C71** For arrays `mom_params` is ignored. -/
theorem C71_array_mom_params (x : Nd.Arr α) (window : PerDim ℤ) (axis : Option AxesArg)
    (center : PerDim Bool) (stride : PerDim ℤ) (fill : α) (mp : Input PArray Unit) (ndim : Option ℤ)
    (axes : Option IntArg) :
    windowArray x window axis center stride fill mp ndim axes =
      windowArray x window axis center stride fill .absent ndim axes := rfl

end Arrays

/-! ### What windows of moments stand for -/

section Samples

variable {K : Type} [Field K] [LinearOrder K] [IsStrictOrderedRing K] {δ : Type} [DecidableEq δ]
  {mom0 mom1 : δ} {roll : δ → δ} {x : DataArray δ K} {window : PerDim ℤ} {axis : Option AxesArg}
  {dim : Option (Option (List δ))} {center : PerDim Bool} {stride : PerDim ℤ}
  {mp : Input (PX δ) (DimsArg δ)} {ndim : Option ℤ} {axes : Option IntArg}
  {dims : Option (DimsArg δ)} {names : Option (List δ)} {p : PX δ} {rs : List (Roll δ)}

theorem windowSizes_one {d wd : δ} {win : ℕ} {cent : Bool} (g : GoodRolls x [⟨d, wd, win, cent, 1⟩])
    (hne : d ≠ wd) : windowSizes x [⟨d, wd, win, cent, 1⟩] d = x.size d := by
  have := windowSizes_dim (x := x) g.dimsDistinct (List.mem_singleton.2 rfl) (by simpa using hne)
  have h0 := g.nonempty _ (List.mem_singleton.2 rfl)
  simp only [Int.toNat_one, Nat.div_one] at this h0
  rw [this]
  omega

/-- **C71** Windows of an array of moments, filled with zeros: every cell stands for the samples of the
cell it shows, and for no samples where the window reaches beyond the array. -/
theorem C71_samples {order : ℕ} {md : δ} {L : (δ → ℕ) → List (Sample K)}
    (hS : StandsNamed core1 (Holds order) x [md] L) (g : GoodRolls x rs)
    (hp : factoryOptional mom0 mom1 mp ndim dims axes (some x.dims) = .ok (some p)) (hpd : p.dims = [md])
    (hsel : ChosenOptional x.dims (some p) axis dim (rs.map Roll.dim))
    (ha : Asked roll (rs.map Roll.dim) window center stride names rs) :
    ∃ y, windowArrayX mom0 mom1 roll x window axis dim center stride 0 mp ndim axes dims names = .ok y ∧
      y.dims = rs.map Roll.name ++ x.dims ∧ (∀ d ∈ y.dims, y.size d = windowSizes x rs d) ∧
      StandsNamed core1 (Holds order) y [md] (samplesSeen x rs L) := by
  obtain ⟨y, e, y1, y2, y3⟩ := windowArrayX_ok g hp hsel ha 0
  exact ⟨y, e, y1, y2, window_stands g (fun r hr => hpd ▸ hsel.2 _ (List.mem_map_of_mem hr))
    (.inr ⟨rfl, fun _ _ => rfl⟩) hS y1 y2 y3⟩

/-- **C71**, comoments. -/
theorem C71_samples_cov {o0 o1 : ℕ} {m0 m1 : δ} {L : (δ → ℕ) → List (Sample2 K)}
    (hS : StandsNamed core2 (Holds2 o0 o1) x [m0, m1] L) (g : GoodRolls x rs)
    (hp : factoryOptional mom0 mom1 mp ndim dims axes (some x.dims) = .ok (some p))
    (hpd : p.dims = [m0, m1])
    (hsel : ChosenOptional x.dims (some p) axis dim (rs.map Roll.dim))
    (ha : Asked roll (rs.map Roll.dim) window center stride names rs) :
    ∃ y, windowArrayX mom0 mom1 roll x window axis dim center stride 0 mp ndim axes dims names = .ok y ∧
      y.dims = rs.map Roll.name ++ x.dims ∧ (∀ d ∈ y.dims, y.size d = windowSizes x rs d) ∧
      StandsNamed core2 (Holds2 o0 o1) y [m0, m1] (samplesSeen x rs L) := by
  obtain ⟨y, e, y1, y2, y3⟩ := windowArrayX_ok g hp hsel ha 0
  exact ⟨y, e, y1, y2, window_stands g (fun r hr => hpd ▸ hsel.2 _ (List.mem_map_of_mem hr))
    (.inr ⟨rfl, fun _ _ _ _ => rfl⟩) hS y1 y2 y3⟩

/-- **C71** `rolling_data`: each cell stands for the samples of the cells in its window, if at least
`min_periods` of these have weight (all, by default); otherwise it is missing, with `zero_missing_weights` the weight is zero. -/
theorem C71_rolling_data {order : ℕ} (ho : 1 ≤ order) {md : δ} (hm : x.size md = order + 1)
    {L : (δ → ℕ) → List (Sample K)} (hS : StandsNamed core1 (Holds order) x [md] L)
    (hw : ∀ c, InLabelled x [md] c → 0 ≤ weight (L c)) {d : δ} (hd : d ∈ valDims x [md])
    {axis : Option (Option AxisArg)} {dim : Option (Option δ)} (hsel : Chosen x.dims [md] axis dim d)
    {window : ℕ} (h1 : 1 ≤ window) (minPeriods : Option ℤ) (center zeroMissing axesToEnd : Bool) :
    ∃ w, rollingX core1 (family1 [x.size md]) window minPeriods center zeroMissing x [md] axis dim axesToEnd
        = .ok w ∧
      WindowsNamed core1 (Holds order) w [md] (dimsAfter x.dims d [md] axesToEnd) x.size
        (enoughInWindow weight L d window minPeriods center (x.size d)) zeroMissing
        (samplesInWindow L d window center (x.size d)) := by
  rw [family1_eq hm]
  exact rolling_named (meaning1 (K := K) order ho) core1_ok rfl hS hw hd hsel h1 minPeriods center
    zeroMissing axesToEnd

/-- **C71**, comoments. -/
theorem C71_rolling_data_cov {o0 o1 : ℕ} (h0 : 1 ≤ o0) (h1 : 1 ≤ o1) {m0 m1 : δ}
    (hm0 : x.size m0 = o0 + 1) (hm1 : x.size m1 = o1 + 1)
    {L : (δ → ℕ) → List (Sample2 K)} (hS : StandsNamed core2 (Holds2 o0 o1) x [m0, m1] L)
    (hw : ∀ c, InLabelled x [m0, m1] c → 0 ≤ weight2 (L c)) {d : δ} (hd : d ∈ valDims x [m0, m1])
    {axis : Option (Option AxisArg)} {dim : Option (Option δ)} (hsel : Chosen x.dims [m0, m1] axis dim d)
    {window : ℕ} (hw1 : 1 ≤ window) (minPeriods : Option ℤ) (center zeroMissing axesToEnd : Bool) :
    ∃ w, rollingX core2 (family2 [x.size m0, x.size m1]) window minPeriods center zeroMissing x [m0, m1]
        axis dim axesToEnd = .ok w ∧
      WindowsNamed core2 (Holds2 o0 o1) w [m0, m1] (dimsAfter x.dims d [m0, m1] axesToEnd) x.size
        (enoughInWindow weight2 L d window minPeriods center (x.size d)) zeroMissing
        (samplesInWindow L d window center (x.size d)) := by
  rw [family2_eq hm0 hm1]
  exact rolling_named (meaning2 (K := K) o0 o1 h0 h1) core2_ok rfl hS hw hd hsel hw1 minPeriods center
    zeroMissing axesToEnd

/-- **C71** The recipe of the documentation: make the windows, filled with zeros, and reduce the new
dimension. The result stands for the samples in the windows, and is the same as that of `rolling_data`
wherever the latter is not missing. -/
theorem C71_same {order : ℕ} (ho : 1 ≤ order) {md : δ} (hm : x.size md = order + 1)
    {L : (δ → ℕ) → List (Sample K)} (hS : StandsNamed core1 (Holds order) x [md] L)
    (hw : ∀ c, InLabelled x [md] c → 0 ≤ weight (L c)) {d wd : δ} {win : ℕ} {cent : Bool}
    (hd : d ∈ valDims x [md]) (g : GoodRolls x [⟨d, wd, win, cent, 1⟩])
    (hz : ∀ e ∈ x.dims, x.size e ≠ 0)
    (hp : factoryOptional mom0 mom1 mp ndim dims axes (some x.dims) = .ok (some p)) (hpd : p.dims = [md])
    (hsel : ChosenOptional x.dims (some p) axis dim [d])
    (ha : Asked roll [d] window center stride names [⟨d, wd, win, cent, 1⟩])
    {axisR : Option AxesArg} {dimR : Option (Option (List δ))}
    (hR : ChosenMany (wd :: x.dims) [md] axisR dimR [wd])
    {axisW : Option (Option AxisArg)} {dimW : Option (Option δ)} (hW : Chosen x.dims [md] axisW dimW d)
    (minPeriods : Option ℤ) (zeroMissing : Bool) :
    ∃ y z w,
      windowArrayX mom0 mom1 roll x window axis dim center stride 0 mp ndim axes dims names = .ok y ∧
      reduceX core1 (family1 [x.size md]) y [md] axisR dimR false false = .ok z ∧
      rollingX core1 (family1 [x.size md]) win minPeriods cent zeroMissing x [md] axisW dimW false = .ok w ∧
      ResultNamed core1 (Holds order) z [md] x.dims x.size (samplesInWindow L d win cent (x.size d)) ∧
      ∀ c, InLabelled x [md] c → enoughInWindow weight L d win minPeriods cent (x.size d) c →
        ∀ ms, Within ([md].map x.size) ms → entry w (withNames [md] ms c) = entry z (withNames [md] ms c) := by
  obtain ⟨y, e, y1, y2, y3⟩ := windowArrayX_ok g hp hsel ha 0
  have hd1 := (mem_valDims.1 hd).1
  have hne : d ≠ wd := fun h => g.namesNew _ (List.mem_singleton.2 rfl) (h ▸ hd1)
  have hsd := windowSizes_one g hne
  have hwin : 1 ≤ win := Int.natCast_pos.1 (g.window _ (List.mem_singleton.2 rfl))
  obtain ⟨z, ez, hz'⟩ := window_reduced (meaning1 (K := K) order ho) core1_ok (.inr ⟨rfl, fun _ _ => rfl⟩) hS hw
    hd g hz y1 y2 (fun c hc => y3 c (by
      intro r hr
      obtain rfl := List.mem_singleton.1 hr
      rw [hsd]
      exact hc)) (by rw [y1]; exact hR)
  obtain ⟨w, ew, hw'⟩ := rolling_named (meaning1 (K := K) order ho) core1_ok rfl hS hw hd hW hwin minPeriods cent
    zeroMissing false
  rw [family1_eq hm]
  refine ⟨y, z, w, e, ez, ew, hz', fun c hc hen ms hms => ?_⟩
  refine window_agree (meaning1 (K := K) order ho) hw hd (fun a b hab ms hms => ?_) hw' hz' hc hen hms
  obtain ⟨i, hi, rfl⟩ := within_one.1 hms
  rw [hm] at hi
  exact (eqv1_iff ho).1 hab i (by omega)

/-- **C71**, comoments. -/
theorem C71_same_cov {o0 o1 : ℕ} (h0 : 1 ≤ o0) (h1 : 1 ≤ o1) {m0 m1 : δ}
    (hm0 : x.size m0 = o0 + 1) (hm1 : x.size m1 = o1 + 1)
    {L : (δ → ℕ) → List (Sample2 K)} (hS : StandsNamed core2 (Holds2 o0 o1) x [m0, m1] L)
    (hw : ∀ c, InLabelled x [m0, m1] c → 0 ≤ weight2 (L c)) {d wd : δ} {win : ℕ} {cent : Bool}
    (hd : d ∈ valDims x [m0, m1]) (g : GoodRolls x [⟨d, wd, win, cent, 1⟩])
    (hz : ∀ e ∈ x.dims, x.size e ≠ 0)
    (hp : factoryOptional mom0 mom1 mp ndim dims axes (some x.dims) = .ok (some p))
    (hpd : p.dims = [m0, m1]) (hsel : ChosenOptional x.dims (some p) axis dim [d])
    (ha : Asked roll [d] window center stride names [⟨d, wd, win, cent, 1⟩])
    {axisR : Option AxesArg} {dimR : Option (Option (List δ))}
    (hR : ChosenMany (wd :: x.dims) [m0, m1] axisR dimR [wd])
    {axisW : Option (Option AxisArg)} {dimW : Option (Option δ)}
    (hW : Chosen x.dims [m0, m1] axisW dimW d) (minPeriods : Option ℤ) (zeroMissing : Bool) :
    ∃ y z w,
      windowArrayX mom0 mom1 roll x window axis dim center stride 0 mp ndim axes dims names = .ok y ∧
      reduceX core2 (family2 [x.size m0, x.size m1]) y [m0, m1] axisR dimR false false = .ok z ∧
      rollingX core2 (family2 [x.size m0, x.size m1]) win minPeriods cent zeroMissing x [m0, m1] axisW dimW
        false = .ok w ∧
      ResultNamed core2 (Holds2 o0 o1) z [m0, m1] x.dims x.size (samplesInWindow L d win cent (x.size d)) ∧
      ∀ c, InLabelled x [m0, m1] c → enoughInWindow weight2 L d win minPeriods cent (x.size d) c →
        ∀ ms, Within ([m0, m1].map x.size) ms →
          entry w (withNames [m0, m1] ms c) = entry z (withNames [m0, m1] ms c) := by
  obtain ⟨y, e, y1, y2, y3⟩ := windowArrayX_ok g hp hsel ha 0
  have hd1 := (mem_valDims.1 hd).1
  have hne : d ≠ wd := fun h => g.namesNew _ (List.mem_singleton.2 rfl) (h ▸ hd1)
  have hsd := windowSizes_one g hne
  have hwin : 1 ≤ win := Int.natCast_pos.1 (g.window _ (List.mem_singleton.2 rfl))
  obtain ⟨z, ez, hz'⟩ := window_reduced (meaning2 (K := K) o0 o1 h0 h1) core2_ok
    (.inr ⟨rfl, fun _ _ _ _ => rfl⟩) hS hw
    hd g hz y1 y2 (fun c hc => y3 c (by
      intro r hr
      obtain rfl := List.mem_singleton.1 hr
      rw [hsd]
      exact hc)) (by rw [y1]; exact hR)
  obtain ⟨w, ew, hw'⟩ := rolling_named (meaning2 (K := K) o0 o1 h0 h1) core2_ok rfl hS hw hd hW hwin minPeriods
    cent zeroMissing false
  rw [family2_eq hm0 hm1]
  refine ⟨y, z, w, e, ez, ew, hz', fun c hc hen ms hms => ?_⟩
  refine window_agree (meaning2 (K := K) o0 o1 h0 h1) hw hd (fun a b hab ms hms => ?_) hw' hz' hc hen hms
  obtain ⟨i, hi, j, hj, rfl⟩ := within_two.1 hms
  rw [hm0] at hi
  rw [hm1] at hj
  exact (eqv2_iff h0 h1).1 hab i j (by omega) (by omega)

end Samples

/-! ### Concrete cases -/

section Examples

open ExDim

/-- `rolling_p` and so on. -/
def exRoll : ExDim → ExDim
  | p => q
  | t => b
  | d => d

def exRolls1 (center : Bool) (stride : ℤ) : List (Roll ExDim) := [⟨p, q, 2, center, stride⟩]

def exRolls2 : List (Roll ExDim) := [⟨t, b, 2, false, 1⟩, ⟨p, q, 3, true, 2⟩]

theorem exRolls1_good (center : Bool) {stride : ℤ} (h : 0 < stride) :
    GoodRolls exGather (exRolls1 center stride) := by
  refine ⟨by decide, by simp [exRolls1], by simp [exRolls1], ?_, by simp [exRolls1], ?_, ?_, ?_, ?_⟩ <;>
    (intro r hr; obtain rfl := List.mem_singleton.1 hr)
  · show p ∈ exGather.dims; decide
  · show q ∉ exGather.dims; decide
  · show (0 : ℤ) < 2; decide
  · exact h
  · show exGather.size p ≠ 0; decide

theorem exRolls2_good : GoodRolls exGather exRolls2 :=
  ⟨by decide, by simp [exRolls2], by decide, by decide, by decide, by decide, by decide, by decide, by decide⟩

theorem exWindow_params : factoryOptional (δ := ExDim) m n .absent none (some (.str m)) none (some exGather.dims)
    = .ok (some ⟨1, [m]⟩) := rfl

theorem exRolls1_chosen (center : Bool) (stride : ℤ) :
    ChosenOptional exGather.dims (some ⟨1, [m]⟩) none (some (some [p])) ((exRolls1 center stride).map Roll.dim) :=
  ⟨.inl (.inl ⟨rfl, rfl⟩), by simp [exRolls1]⟩

theorem exRolls2_chosen :
    ChosenOptional exGather.dims (some ⟨1, [m]⟩) none (some (some [t, p])) (exRolls2.map Roll.dim) :=
  ⟨.inl (.inl ⟨rfl, rfl⟩), by simp [exRolls2]⟩

theorem exRolls1_asked (center : Bool) (stride : ℤ) :
    Asked exRoll ((exRolls1 center stride).map Roll.dim) (.one 2) (.one center) (.one stride) none
      (exRolls1 center stride) :=
  ⟨rfl, rfl, by simp [Each, exRolls1], by simp [Each, exRolls1], by simp [Each, exRolls1]⟩

theorem exRolls2_asked :
    Asked exRoll (exRolls2.map Roll.dim) (.many [2, 3]) (.many [false, true]) (.many [1, 2]) (some [b, q])
      exRolls2 :=
  ⟨rfl, rfl, by simp [Each, exRolls2], by simp [Each, exRolls2], by simp [Each, exRolls2]⟩

example := C71_params (mom0 := m) (mom1 := n) (ndim := some 1) (dims := none) (axes := none) (.inl rfl)
  (some exGather.dims)
example := C71_params_kept (mom0 := m) (mom1 := n) (q := ⟨1, [m]⟩) (data := some exGather.dims)
  (p := some ⟨1, [m]⟩) rfl

example := C71_windows exRolls2_good exWindow_params exRolls2_chosen exRolls2_asked 7
example : dimEntries (windowArrayX m n exRoll exGather (.many [2, 3]) none (some (some [t, p]))
      (.many [false, true]) (.many [1, 2]) 7 .absent none none (some (.str m)) (some [b, q]))
    [[(m, 1), (t, 1), (b, 0), (p, 1), (q, 0)], [(m, 1), (t, 1), (b, 1), (p, 1), (q, 1)],
      [(m, 1), (t, 0), (b, 0), (p, 1), (q, 1)]]
    = some ([b, q, p, m, t], [2, 3, 2, 3, 2], [1, 12, 7]) := by decide +kernel

example := C71_one_dimension (w := 2) (s := 1) (exRolls1_good false one_pos) exWindow_params
  (exRolls1_chosen false 1) (exRolls1_asked false 1) 7
example : dimEntries (windowArrayX m n exRoll exGather (.one 2) none (some (some [p])) (.one false) (.one 1) 7
      .absent none none (some (.str m)) none)
    [[(m, 1), (t, 1), (p, 0), (q, 0)], [(m, 1), (t, 1), (p, 0), (q, 1)], [(m, 1), (t, 1), (p, 2), (q, 0)]]
    = some ([q, p, m, t], [2, 3, 3, 2], [7, 10, 11]) := by decide +kernel

/-- `axis=None`: all but the last dimension, which has to be the moment dimension. -/
example : ¬ ∃ ds, ChosenOptional exGather.dims (some ⟨1, [m]⟩) (some .all) none ds := by
  rintro ⟨ds, (h | ⟨-, -, rfl⟩), h2⟩
  · simp [ChosenMany] at h
  · exact h2 m (by decide) (by decide)

example := C71_lengths_refused (x := exGather) (roll := exRoll) (window := .many [2]) (center := .one true)
  (stride := .one 1) (names := none) (by decide) (by decide) (by decide) exWindow_params exRolls2_chosen
  (.inl ⟨_, rfl, by decide⟩) 7
example := C71_window_refused (x := exGather) (rs := [⟨p, q, 0, true, 1⟩]) (roll := exRoll) (by decide) (by decide)
  (by decide) (by decide) (by decide) exWindow_params ⟨.inl (.inl ⟨rfl, rfl⟩), by decide⟩
  (window := .one 0) (center := .one true) (stride := .one 1) (names := none)
  ⟨rfl, rfl, by simp [Each], by simp [Each], by simp [Each]⟩ (by decide) 7
example := C71_stride_refused (x := exGather) (rs := [⟨p, q, 2, true, 0⟩]) (roll := exRoll) (by decide) (by decide)
  (by decide) (by decide) (by decide) (by decide) (by decide) exWindow_params ⟨.inl (.inl ⟨rfl, rfl⟩), by decide⟩
  (window := .one 2) (center := .one true) (stride := .one 0) (names := none)
  ⟨rfl, rfl, by simp [Each], by simp [Each], by simp [Each]⟩ (by decide) 7

def exGatherEmpty : DataArray ExDim ℚ := { exGather with size := fun d => if d = p then 0 else 3 }

example := C71_empty_refused (x := exGatherEmpty) (rs := [⟨p, q, 2, true, 1⟩]) (roll := exRoll) (by decide) (by decide)
  (by decide) (by decide) (by decide) (by decide) exWindow_params ⟨.inl (.inl ⟨rfl, rfl⟩), by decide⟩
  (window := .one 2) (center := .one true) (stride := .one 1) (names := none)
  ⟨rfl, rfl, by simp [Each], by simp [Each], by simp [Each]⟩ (by decide) 7
example := C71_selection_refused (x := exGather) (roll := exRoll) (window := .one 2) (center := .one true)
  (stride := .one 1) (names := none) exWindow_params 7
  (axis := none) (dim := some (some [p, m])) (.inr (.inr ⟨_, rfl, rfl, m, by decide, .inr ⟨_, rfl, by decide⟩⟩))
example := C71_selection_refused (x := exGather) (roll := exRoll) (window := .one 2) (center := .one true)
  (stride := .one 1) (names := none) exWindow_params 7 (axis := none) (dim := none) (.inl ⟨rfl, rfl⟩)

/-- Two rows of three entries. -/
def exGrid : Nd.Arr ℚ := ⟨[2, 3], fun i => 10 * (i 0 : ℚ) + (i 1 : ℚ)⟩

theorem exGrid_proper : exGrid.Proper := by
  intro i j h
  show 10 * (i 0 : ℚ) + (i 1 : ℚ) = 10 * (j 0 : ℚ) + (j 1 : ℚ)
  rw [h 0 (by decide), h 1 (by decide)]

example := C71_array exGrid_proper (z := -2) (ax := 0) (by unfold InRange; decide) (by decide) (ndim := some 1)
  (.inr ⟨1, rfl, .inl rfl, by decide⟩) (w := 2) (s := 1) (by decide) (by decide) (by decide) true 7 .absent

def gridEntries (r : Py (Nd.Arr ℚ)) (is : List (List ℕ)) : Option (List ℕ × List ℚ) :=
  match r with
  | .ok y => some (y.shape, is.map (fun i => y.get (fun a => i.getD a 0)))
  | .error _ => none

example : gridEntries (windowArray exGrid (.one 2) (some (.one (.int (-1)))) (.one false) (.one 1) 7 .absent none none)
    [[0, 1, 0], [1, 1, 0], [0, 1, 2]] = some ([2, 2, 3], [7, 10, 11]) := by decide +kernel

/-- With `mom_ndim=1` the last axis is left alone, with `mom_params={"ndim": 1}` it is rolled too. -/
example : gridEntries (windowArray exGrid (.one 2) (some .all) (.one false) (.one 1) 7 .absent (some 1) none) []
      = some ([2, 2, 3], []) ∧
    gridEntries (windowArray exGrid (.one 2) (some .all) (.one false) (.one 1) 7
      (.dict (some (some 1)) none none) none none) [] = some ([2, 2, 2, 3], []) := by decide +kernel

example := C71_samples exGather_stands exRolls2_good exWindow_params rfl exRolls2_chosen exRolls2_asked

theorem exRolls_cov_good : GoodRolls exGather2 (exRolls1 true 1) :=
  ⟨by decide, by simp [exRolls1], by decide, by decide, by decide, by decide, by decide, by decide, by decide⟩

theorem exWindow_params_cov : factoryOptional (δ := ExDim) m n .absent (some 2) none none (some exGather2.dims)
    = .ok (some ⟨2, [m, n]⟩) := rfl

theorem exRolls_cov_chosen :
    ChosenOptional exGather2.dims (some ⟨2, [m, n]⟩) (some .all) none ((exRolls1 true 1).map Roll.dim) :=
  ⟨.inr ⟨rfl, rfl, rfl⟩, by simp [exRolls1]⟩

example := C71_samples_cov exGather2_stands exRolls_cov_good exWindow_params_cov rfl exRolls_cov_chosen
  (exRolls1_asked true 1)

example := C71_rolling_data (by omega) rfl exGather_stands exGather_nonneg (d := p) (by decide)
  (axis := none) (dim := some (some p)) (.inl ⟨rfl, rfl⟩) (window := 2) (by omega) (some 1) false true true
example := C71_rolling_data_cov (by omega) (by omega) rfl rfl exGather2_stands exGather2_nonneg (d := p)
  (by decide) (axis := none) (dim := some (some p)) (.inl ⟨rfl, rfl⟩) (window := 2) (by omega) none true false false

example := C71_same (by omega) rfl exGather_stands exGather_nonneg (d := p) (wd := q) (win := 2) (cent := false)
  (by decide) (exRolls1_good false one_pos) (by decide) exWindow_params rfl (exRolls1_chosen false 1)
  (exRolls1_asked false 1) (axisR := none) (dimR := some (some [q])) (.inl ⟨rfl, rfl⟩)
  (axisW := none) (dimW := some (some p)) (.inl ⟨rfl, rfl⟩) (some 1) true
example := C71_same_cov (by omega) (by omega) rfl rfl exGather2_stands exGather2_nonneg (d := p) (wd := q)
  (win := 2) (cent := true) (by decide) exRolls_cov_good (by decide) exWindow_params_cov rfl exRolls_cov_chosen
  (exRolls1_asked true 1) (axisR := none) (dimR := some (some [q])) (.inl ⟨rfl, rfl⟩)
  (axisW := none) (dimW := some (some p)) (.inl ⟨rfl, rfl⟩) none false

/-- The second window along `p` is complete, the first one is not. -/
example : enoughInWindow weight exGatherL p 2 none false 3 (fun _ => 1) ∧
    ¬ enoughInWindow weight exGatherL p 2 none false 3 (fun _ => 0) := by
  unfold enoughInWindow
  constructor <;> decide +kernel

end Examples

end Cmomy
