import Verif.Model.Out
import Verif.Lemmas.LabelledVals
import Verif.Lemmas.Select

/-!
# Lemmas about results written to a given array
-/

set_option linter.unusedSectionVars false

namespace Cmomy.Labelled

open Axes Spec
open Nd (View)

variable {δ : Type} [DecidableEq δ] {α β : Type}

section Lists

theorem map_getElem? (l : List δ) : (List.range l.length).map (fun p => l[p]?) = l.map some := by
  refine List.ext_getElem (by simp) fun p h1 h2 => ?_
  simp

/-- Moving named axes to the end. -/
theorem order_names {l S : List δ} (hl : l.Nodup) (hS : ∀ d ∈ S, d ∈ l) :
    (keptAxes l.length (S.map l.idxOf) ++ S.map l.idxOf).map (fun p => l[p]?)
      = (l.filter (fun d => decide (d ∉ S)) ++ S).map some := by
  rw [List.map_append, List.map_append]
  congr 1
  · have h1 : (l.filter (fun d => decide (d ∉ S))).map some
        = (l.map some).filter (fun o => decide (o ∉ S.map some)) := by
      rw [List.filter_map]
      congr 1
      refine List.filter_congr fun d _ => ?_
      show decide (d ∉ S) = decide (some d ∉ S.map some)
      rw [decide_eq_decide]
      exact not_congr ⟨fun h => List.mem_map_of_mem h, fun h => by
        obtain ⟨e, he, e'⟩ := List.mem_map.1 h
        rwa [Option.some.inj e'] at he⟩
    rw [h1, ← map_getElem? l, List.filter_map]
    unfold keptAxes
    refine congrArg (List.map _) (List.filter_congr fun p hp => ?_)
    have hp' := List.mem_range.1 hp
    show decide (p ∉ S.map l.idxOf) = decide (l[p]? ∉ S.map some)
    rw [decide_eq_decide, List.getElem?_eq_getElem hp']
    refine not_congr ⟨?_, ?_⟩
    · intro h
      obtain ⟨d, hd, rfl⟩ := List.mem_map.1 h
      rw [List.getElem_idxOf]
      exact List.mem_map_of_mem hd
    · intro h
      obtain ⟨d, hd, e⟩ := List.mem_map.1 h
      refine List.mem_map.2 ⟨d, hd, ?_⟩
      rw [Option.some.inj e, hl.idxOf_getElem]
  · rw [List.map_map]
    refine List.map_congr_left fun d hd => ?_
    have := List.idxOf_lt_length_iff.2 (hS d hd)
    simp [Function.comp, List.getElem?_eq_getElem this]

theorem axesLast_succ (n : ℕ) : Nd.axesLast (n + 1) = -((n : ℤ) + 1) :: Nd.axesLast n := by
  unfold Nd.axesLast
  rw [List.range_succ_eq_map, List.map_cons, List.map_map]
  refine congrArg₂ List.cons ?_ (List.map_congr_left fun j _ => ?_)
  · push_cast; ring
  · simp only [Function.comp]; push_cast; ring

theorem order_end {n : ℕ} {s : List ℕ} (hs : s.Nodup) (hn : ∀ a ∈ s, a < n) :
    moveaxisOrder n ((s.map (fun a : ℕ => (a : ℤ))).map .int) ((Nd.axesLast s.length).map .int)
      = .ok (keptAxes n s ++ s) := by
  rw [← Nd.moveToEnd hs hn, List.map_map]
  unfold Nd.axesLast
  rw [List.map_map]
  rfl

/-- Behind the last value axis. -/
theorem order_behind {m nd a : ℕ} (ha : a < m) :
    moveaxisOrder (m + nd) [.int ((a : ℤ) - m - nd)] [.int (-((nd : ℤ) + 1))]
      = .ok (keptAxes m [a] ++ a :: (List.range nd).map (fun j => m + j)) := by
  have r1 : InRange (m + nd) ((a : ℤ) - m - nd) := by unfold InRange; push_cast; omega
  have r2 : InRange (m + nd) (-((nd : ℤ) + 1)) := by unfold InRange; push_cast; omega
  have w1 : wrap (m + nd) ((a : ℤ) - m - nd) = a := by
    unfold wrap
    rw [← Int.add_emod_right, Int.emod_eq_of_lt (by push_cast; omega) (by push_cast; omega)]
    push_cast; omega
  have w2 : wrap (m + nd) (-((nd : ℤ) + 1)) = m - 1 := by
    unfold wrap
    rw [← Int.add_emod_right, Int.emod_eq_of_lt (by push_cast; omega) (by push_cast; omega)]
    push_cast; omega
  rw [Nd.moveaxisOrder_single r1 r2, w1, w2]
  congr 1
  have hk : keptAxes (m + nd) [a] = keptAxes m [a] ++ (List.range nd).map (fun j => m + j) := by
    unfold keptAxes
    rw [List.range_add, List.filter_append]
    congr 1
    rw [List.filter_eq_self]
    intro p hp
    obtain ⟨j, _, rfl⟩ := List.mem_map.1 hp
    simp; omega
  have hl : (keptAxes m [a]).length = m - 1 := by
    have := Nd.keptAxes_length (n := m) (s := [a]) (by simp) (by simpa using ha)
    simp at this; omega
  rw [hk, ← hl]
  generalize keptAxes m [a] = A
  induction A with
  | nil => rfl
  | cons b A ih => rw [List.cons_append, List.length_cons, List.insertIdx_succ_cons, ih]; rfl

end Lists

section Through

/-- What `out` holds when the view shows its axes in the order of the result of `apply_ufunc`. -/
theorem throughView_ok {out : Nd.Arr α} {order : List ℕ} {view : Py View}
    {inner : Py (DataArray δ α)} {finish : DataArray δ α → Py (DataArray δ α)}
    {y z w : DataArray δ α} (hv : view = .ok ((View.whole out.shape).transpose order))
    (hy : inner = .ok y) (hz : finish y = .ok z) (hzw : z.values = w.values)
    (hn : w.dims.Nodup) (hsame : SameValues y.toArr w.toArr)
    (hsize : ∀ d ∈ w.dims, w.size d = y.size d)
    (hord : order.map (fun p => w.dims[p]?) = y.dims.map some)
    (hout : out.shape = z.values.shape) :
    throughView out view inner finish = .ok (z, z.values) := by
  have hlen : order.length = y.dims.length := by simpa using congrArg List.length hord
  have hat : ∀ p (h : p < order.length) (h' : p < y.dims.length), w.dims[order[p]]? = some y.dims[p] := by
    intro p h h'
    have := congrArg (fun l => l[p]?) hord
    simpa [h, h'] using this
  have hws : out.shape = w.dims.map w.size := by rw [hout, hzw]; rfl
  have hshape : ((View.whole out.shape).transpose order).shape = y.values.shape := by
    show order.map (fun ax => out.shape.getD ax 0) = y.dims.map y.size
    refine List.ext_getElem (by simpa using hlen) fun p h1 h2 => ?_
    have hp : p < order.length := by simpa using h1
    have hp' : p < y.dims.length := by simpa using h2
    have h := hat p hp hp'
    rw [List.getElem_map, List.getElem_map]
    obtain ⟨hlt, e⟩ := List.getElem?_eq_some_iff.1 h
    have hg : out.shape.getD order[p] 0 = (w.dims.map w.size).getD order[p] 0 := by rw [hws]
    rw [hg, List.getD_eq_getElem _ _ (by simpa using hlt), List.getElem_map, e,
      hsize _ (by rw [← e]; exact List.getElem_mem hlt)]
  have hget : ∀ i : ℕ → ℕ,
      y.values.get (((View.whole out.shape).transpose order).pos i) = w.values.get i := by
    intro i
    rw [values_get w hn]
    show y.data _ = w.data _
    rw [← hsame]
    refine congrArg y.data (List.ext_getElem (by simp) fun p h1 h2 => ?_)
    have hp' : p < y.dims.length := by simpa using h2
    have hp : p < order.length := by omega
    obtain ⟨hlt, e⟩ := List.getElem?_eq_some_iff.1 (hat p hp hp')
    rw [List.getElem_map, List.getElem_map, List.getElem_range, ← e, hn.idxOf_getElem]
    show i (order.getD p 0) = _
    rw [List.getD_eq_getElem _ _ hp]
  unfold throughView
  rw [hv, hy]
  simp only [Except.bind]
  unfold View.fill
  rw [if_pos hshape, hz]
  simp only [Except.map]
  congr 2
  rw [hzw]
  show Nd.Arr.mk out.shape _ = Nd.Arr.mk (w.dims.map w.size) w.values.get
  rw [← hws]
  congr 1
  funext i
  exact hget i

theorem rename_values {x z : DataArray δ α} {old new : δ} (h : x.rename old new = .ok z) :
    z.values = x.values := by
  unfold DataArray.rename at h
  split_ifs at h with h1 h2 h3
  · rw [Except.ok.inj h]
  · rw [← Except.ok.inj h]
    unfold DataArray.values
    simp only [List.length_map, List.map_map]
    congr 1
    refine List.map_congr_left fun d hd => ?_
    simp only [Function.comp]
    by_cases hd1 : d = old
    · subst hd1; simp
    · have : d ≠ new := fun e => h3 (e ▸ hd)
      simp [hd1, this]

theorem renameTo_values {x z : DataArray δ α} {old : δ} {new : Option δ}
    (h : renameTo old new x = .ok z) : z.values = x.values := by
  cases new with
  | none => rw [Except.ok.inj h]
  | some g => exact rename_values h

theorem step_inv {y z : DataArray δ α} {f : Arr δ α → Py (Arr δ α)} (h : y.step f = .ok z) :
    f y.toArr = .ok z.toArr ∧ z.size = y.size := by
  unfold DataArray.step at h
  cases e : f y.toArr with
  | error e' => rw [e] at h; simp [Except.map] at h
  | ok a =>
    rw [e] at h
    rw [← Except.ok.inj h]
    exact ⟨rfl, rfl⟩

theorem bind_inv {γ ε : Type} {x : Py γ} {f : γ → Py ε} {z : ε} (h : x.bind f = .ok z) :
    ∃ y, x = .ok y ∧ f y = .ok z := by
  cases x with
  | error e => simp [Except.bind] at h
  | ok y => exact ⟨y, rfl, h⟩

theorem wrapResult_inv {inputs : List (Frame δ)} {exclude dims : List δ} {a : Nd.Arr α}
    {y : DataArray δ α} (h : wrapResult inputs exclude dims a = .ok y) :
    y.dims = dims ∧ dims.Nodup := by
  unfold wrapResult at h
  split_ifs at h with h1 h2
  rw [← Except.ok.inj h]
  exact ⟨rfl, h2⟩

theorem unifiedDims_inv {inputs : List (Frame δ)} {exclude l : List δ}
    (h : unifiedDims inputs exclude = .ok l) :
    l = firstNames ((inputs.flatMap Prod.fst).filter (fun d => decide (d ∉ exclude))) := by
  unfold unifiedDims at h
  split_ifs at h
  exact (Except.ok.inj h).symm

/-- Loop dimensions when all dimensions of the other inputs that are not core dimensions are
dimensions of the first. -/
theorem loopDims_one {f : Frame δ} {rest : List (Frame δ)} {exclude allCore l : List δ}
    (hf : f.1.Nodup) (hx : ∀ d ∈ exclude, d ∈ allCore)
    (hr : ∀ g ∈ rest, ∀ d ∈ g.1, d ∉ allCore → d ∈ f.1)
    (h : loopDims (f :: rest) exclude allCore = .ok l) :
    l = f.1.filter (fun d => decide (d ∉ allCore)) := by
  unfold loopDims at h
  cases e : unifiedDims (f :: rest) exclude with
  | error e' => rw [e] at h; simp [Except.map] at h
  | ok u =>
    rw [e] at h
    rw [← Except.ok.inj h, unifiedDims_inv e, firstNames_eq]
    show List.filter _ (inOrder _) = _
    rw [inOrder_filter, List.filter_filter,
      List.flatMap_cons, List.filter_append]
    have hp : ∀ d : δ, (decide (d ∉ allCore) && decide (d ∉ exclude)) = decide (d ∉ allCore) := by
      intro d
      by_cases hd : d ∈ allCore
      · simp [hd]
      · have : d ∉ exclude := fun h' => hd (hx d h')
        simp [hd, this]
    simp only [hp]
    rw [inOrder_append, ← firstNames_eq, firstNames_self (hf.filter _)]
    intro d hd
    obtain ⟨h1, h2⟩ := List.mem_filter.1 hd
    obtain ⟨g, hg, hdg⟩ := List.mem_flatMap.1 h1
    exact List.mem_filter.2 ⟨hr g hg d hdg (by simpa using h2), h2⟩

theorem applyUfunc_dims {x : DataArray δ α} (hx : x.dims.Nodup) {core plain outCore exclude : List δ}
    (he : ∀ d ∈ exclude, d ∈ core) {f : Nd.Arr α → Py (Nd.Arr β)} {y : DataArray δ β}
    (h : applyUfunc x core plain outCore exclude f = .ok y) :
    y.dims = x.dims.filter (fun d => decide (d ∉ core ++ plain ++ outCore)) ++ outCore ∧
      y.dims.Nodup := by
  unfold applyUfunc at h
  obtain ⟨l, hl, h⟩ := bind_inv h
  obtain ⟨a, -, h⟩ := bind_inv h
  obtain ⟨o, -, h⟩ := bind_inv h
  obtain ⟨h1, h2⟩ := wrapResult_inv h
  have := loopDims_one (f := x.frame) hx (fun d hd => by simp [he d hd]) (by simp) hl
  rw [h1, this]
  exact ⟨rfl, this ▸ h2⟩

theorem applyUfunc₂_dims {γ : Type} {x : DataArray δ α} {r : DataArray δ β} (hx : x.dims.Nodup)
    {coreX coreY outCore : List δ} (hr : ∀ d ∈ r.dims, d ∈ x.dims)
    {f : Nd.Arr α → Nd.Arr β → Py (Nd.Arr γ)} {y : DataArray δ γ}
    (h : applyUfunc₂ x r coreX coreY outCore f = .ok y) :
    y.dims = x.dims.filter (fun d => decide (d ∉ coreX ++ coreY ++ outCore)) ++ outCore ∧
      y.dims.Nodup := by
  unfold applyUfunc₂ at h
  obtain ⟨l, hl, h⟩ := bind_inv h
  obtain ⟨a, -, h⟩ := bind_inv h
  obtain ⟨b, -, h⟩ := bind_inv h
  obtain ⟨o, -, h⟩ := bind_inv h
  obtain ⟨h1, h2⟩ := wrapResult_inv h
  have := loopDims_one (f := x.frame) hx (by simp) (by
    intro g hg d hd _
    rw [List.mem_singleton.1 hg] at hd
    exact hr d hd) hl
  rw [h1, this]
  exact ⟨rfl, this ▸ h2⟩

theorem throughView_whole {out : Nd.Arr α} {view : Py View}
    {inner : Py (DataArray δ α)} {finish : DataArray δ α → Py (DataArray δ α)}
    {y z : DataArray δ α} (hv : view = .ok (.whole out.shape)) (hy : inner = .ok y)
    (hz : finish y = .ok z) (hzy : z.values = y.values) (hout : out.shape = z.values.shape) :
    throughView out view inner finish = .ok (z, z.values) := by
  have hs : (View.whole out.shape).shape = y.values.shape := by rw [← hzy]; exact hout
  unfold throughView
  rw [hv, hy]
  simp only [Except.bind]
  unfold View.fill
  rw [if_pos hs, hz]
  simp only [Except.map]
  congr 2
  rw [hzy]
  show Nd.Arr.mk out.shape y.values.get = Nd.Arr.mk y.values.shape y.values.get
  rw [hout, hzy]

theorem values_of_same {y z : DataArray δ α} (hn : z.dims.Nodup) (hd : z.dims = y.dims)
    (hs : ∀ d ∈ z.dims, z.size d = y.size d) (h : SameValues y.toArr z.toArr) :
    z.values = y.values := by
  have h1 : z.values.shape = y.values.shape := by
    show z.dims.map z.size = y.dims.map y.size
    rw [← hd]
    exact List.map_congr_left hs
  have h2 : z.values.get = y.values.get := by
    funext i
    rw [values_get z hn, values_get y (hd ▸ hn)]
    show z.data _ = y.data _
    rw [h fun d => i (y.dims.idxOf d), hd]
  show Nd.Arr.mk z.values.shape z.values.get = Nd.Arr.mk y.values.shape y.values.get
  rw [h1, h2]

theorem whole_moveaxis {shape : List ℕ} {n : ℕ} (hn : shape.length = n) {s d : List ℤ}
    {order : List ℕ} (h : moveaxisOrder n (s.map .int) (d.map .int) = .ok order) :
    (View.whole shape).moveaxis s d = .ok ((View.whole shape).transpose order) := by
  unfold View.moveaxis
  rw [show (View.whole shape).shape.length = n from hn, h]
  rfl

theorem selectAxisDim_inv {dims moms : List δ} {axis : Option (Option AxisArg)}
    {dim : Option (Option δ)} {sd : ℕ × δ}
    (h : selectAxisDim dims moms axis dim none none false = .ok sd) :
    dims[sd.1]? = some sd.2 ∧ sd.2 ∉ moms := by
  unfold selectAxisDim at h
  obtain ⟨a, -, h⟩ := bind_inv h
  obtain ⟨d, -, h⟩ := bind_inv h
  obtain ⟨_, -, h⟩ := bind_inv h
  obtain ⟨_, -, h⟩ := bind_inv h
  obtain ⟨ad, -, h⟩ := bind_inv h
  obtain ⟨r, h1, h⟩ := bind_inv h
  have hr : dims[r.1]? = some r.2 := by
    split at h1
    · split_ifs at h1 with hm
      rw [← Except.ok.inj h1]
      have := List.idxOf_lt_length_iff.2 hm
      simp [List.getElem?_eq_getElem this]
    · obtain ⟨ax, -, h1⟩ := bind_inv h1
      split at h1
      · next e => rw [← Except.ok.inj h1]; exact e
      · exact absurd h1 (by simp)
    · exact absurd h1 (by simp)
  split_ifs at h with hm
  rw [← Except.ok.inj h]
  exact ⟨hr, fun h' => hm ⟨rfl, h'⟩⟩

theorem idxOf_of_getElem? {l : List δ} (hl : l.Nodup) {p : ℕ} {d : δ} (h : l[p]? = some d) :
    p = l.idxOf d ∧ d ∈ l := by
  obtain ⟨hlt, e⟩ := List.getElem?_eq_some_iff.1 h
  exact ⟨by rw [← e, hl.idxOf_getElem], e ▸ List.getElem_mem hlt⟩

theorem positions_facts {l S : List δ} (hl : ∀ d ∈ S, d ∈ l) (hS : S.Nodup) :
    (S.map l.idxOf).Nodup ∧ ∀ a ∈ S.map l.idxOf, a < l.length := by
  refine ⟨hS.map_on fun a ha b hb h => (List.idxOf_inj (hl a ha)).1 h, fun a ha => ?_⟩
  obtain ⟨d, hd, rfl⟩ := List.mem_map.1 ha
  exact List.idxOf_lt_length_iff.2 (hl d hd)

/-- The view of `out` for functions that keep the dimensions. -/
theorem outForData_view {shape : List ℕ} {dims : List δ} {dim : δ} {moms : List δ}
    (hs : shape.length = dims.length) (hdm : dim ∈ dims) (hmp : ∀ d ∈ moms, d ∈ dims)
    (hm : moms.Nodup) (hn : dim ∉ moms) :
    outForData shape dims (dims.idxOf dim) moms false
      = .ok ((View.whole shape).transpose
          (keptAxes dims.length ((dim :: moms).map dims.idxOf) ++ (dim :: moms).map dims.idxOf)) := by
  have hsub : ∀ d ∈ dim :: moms, d ∈ dims := by
    intro d hd
    rcases List.mem_cons.1 hd with rfl | hd
    exacts [hdm, hmp d hd]
  obtain ⟨f1, f2⟩ := positions_facts hsub (List.nodup_cons.2 ⟨hn, hm⟩)
  have := order_end f1 f2
  have e : ((dim :: moms).map dims.idxOf).map (fun a : ℕ => (a : ℤ))
      = (dims.idxOf dim : ℤ) :: moms.map (fun d => (dims.idxOf d : ℤ)) := by simp
  rw [e, List.length_map, List.length_cons, axesLast_succ] at this
  unfold outForData
  rw [if_neg (by simp)]
  exact whole_moveaxis hs this

/-- Functions that keep the dimensions. -/
theorem sameOut_ok {x : DataArray δ β} {moms : List δ} (hx : x.dims.Nodup) (hm : moms.Nodup)
    (hmp : ∀ d ∈ moms, d ∈ x.dims) {axis : Option (Option AxisArg)} {dim : Option (Option δ)}
    {new : Option δ} {axesToEnd : Bool} {out : Nd.Arr α} {inner : ℕ × δ → Py (DataArray δ α)}
    (hinner : ∀ sd y, inner sd = .ok y → sd.2 ∈ x.dims → sd.2 ∉ moms →
      y.dims = x.dims.filter (fun d => decide (d ∉ sd.2 :: moms)) ++ sd.2 :: moms)
    {z : DataArray δ α}
    (h : ((selectAxisDim x.dims moms axis dim none none false).bind fun sd =>
      (inner sd).bind fun y =>
      (y.step (fun z => sameDims z x.dims sd.2 moms axesToEnd false)).bind (renameTo sd.2 new))
        = .ok z) (hout : out.shape = z.values.shape) :
    sameOut x moms axis dim new axesToEnd out inner = .ok (z, z.values) := by
  obtain ⟨sd, hsd, h⟩ := bind_inv h
  obtain ⟨y, hy, h⟩ := bind_inv h
  obtain ⟨w, hw, hz⟩ := bind_inv h
  obtain ⟨p, d⟩ := sd
  obtain ⟨hp, hdm⟩ := selectAxisDim_inv hsd
  dsimp only at hp hdm
  obtain ⟨rfl, hdx⟩ := idxOf_of_getElem? hx hp
  have hyd := hinner _ _ hy hdx hdm
  have hzw := renameTo_values hz
  obtain ⟨hw1, hw2⟩ := step_inv hw
  unfold sameOut
  rw [hsd]
  simp only [Except.bind]
  have hfin : (fun y : DataArray δ α => (y.step (fun z => sameDims z x.dims d moms axesToEnd
      false)).bind (renameTo d new)) y = .ok z := h
  obtain ⟨⟨a, e, v, hd1⟩, ⟨a', e', v', hd2⟩⟩ := C47_same_dims x.dims d moms hx hm hdx hmp hdm false
    y.toArr (by rw [applyUfuncDims_one hx]; exact hyd)
  cases axesToEnd with
  | false =>
    have ha : a = w.toArr := Except.ok.inj (e.symm.trans hw1)
    subst ha
    have hwd : w.dims = x.dims := hd1
    have hl : out.shape.length = x.dims.length := by
      rw [hout, hzw, ← hwd]; simp [DataArray.values]
    refine throughView_ok (outForData_view hl hdx hmp hm hdm) hy hfin hzw (hwd ▸ hx) v
      (fun e _ => by rw [hw2]) ?_ hout
    rw [hwd, hyd]
    refine order_names hx fun e he => ?_
    rcases List.mem_cons.1 he with rfl | he
    exacts [hdx, hmp e he]
  | true =>
    refine throughView_whole rfl hy hfin ?_ hout
    rw [hzw]
    have hwy : w.toArr = y.toArr := by
      have : sameDims y.toArr x.dims d moms true false = .ok y.toArr := by simp [sameDims]
      exact Except.ok.inj (hw1.symm.trans this)
    have : w = y := by
      cases w; cases y; simp_all
    rw [this]

/-- Positions in a list some of whose names were replaced. -/
theorem order_renamed {l S : List δ} {order : List ℕ} {f : δ → δ}
    (h : order.map (fun p => l[p]?) = S.map some) :
    order.map (fun p => (l.map f)[p]?) = (S.map f).map some := by
  have := congrArg (List.map (Option.map f)) h
  rw [List.map_map, List.map_map] at this
  rw [List.map_map]
  refine Eq.trans (List.map_congr_left fun p _ => ?_) (this.trans ?_)
  · simp [Function.comp]
  · rfl

theorem renamed_tail {x moms : List δ} {d rep : δ} (hd : d ∉ moms) :
    (x.filter (fun e => decide (e ∉ d :: moms)) ++ d :: moms).map (fun o => if o = d then rep else o)
      = x.filter (fun e => decide (e ∉ d :: moms)) ++ rep :: moms := by
  have h : ∀ l : List δ, d ∉ l → l.map (fun o => if o = d then rep else o) = l := by
    intro l hl
    conv_rhs => rw [← List.map_id l]
    exact List.map_congr_left fun e he => if_neg fun h => hl (by rw [← h]; exact he)
  rw [List.map_append, List.map_cons, if_pos rfl, h moms hd, h _ (by simp)]

variable {K V M : Type} [Field K] [DecidableEq K]

/-- `resample_data` -/
theorem resampleOut_ok {x : DataArray δ β} {moms : List δ} (hx : x.dims.Nodup) (hm : moms.Nodup)
    (hmp : ∀ d ∈ moms, d ∈ x.dims) {axis : Option (Option AxisArg)} {dim : Option (Option δ)}
    {rep : δ} (hr : rep ∉ x.dims) {axesToEnd : Bool} {out : Nd.Arr α}
    {inner : ℕ × δ → Py (DataArray δ α)}
    (hinner : ∀ sd y, inner sd = .ok y → sd.2 ∈ x.dims → sd.2 ∉ moms →
      y.dims = x.dims.filter (fun d => decide (d ∉ sd.2 :: moms)) ++ rep :: moms)
    {z : DataArray δ α}
    (h : ((selectAxisDim x.dims moms axis dim none none false).bind fun sd =>
      (inner sd).bind fun y =>
      y.step (fun z => resampleDataDims z x.dims sd.2 rep sd.1 moms axesToEnd false)) = .ok z)
    (hout : out.shape = z.values.shape) :
    ((selectAxisDim x.dims moms axis dim none none false).bind fun sd =>
      throughView out (outForData out.shape x.dims sd.1 moms axesToEnd) (inner sd)
        fun y => y.step (fun z => resampleDataDims z x.dims sd.2 rep sd.1 moms axesToEnd false))
      = .ok (z, z.values) := by
  obtain ⟨sd, hsd, h⟩ := bind_inv h
  obtain ⟨y, hy, hz⟩ := bind_inv h
  obtain ⟨p, d⟩ := sd
  obtain ⟨hp, hdm⟩ := selectAxisDim_inv hsd
  dsimp only at hp hdm
  obtain ⟨rfl, hdx⟩ := idxOf_of_getElem? hx hp
  have hyd := hinner _ _ hy hdx hdm
  obtain ⟨hw1, hw2⟩ := step_inv hz
  rw [hsd]
  simp only [Except.bind]
  have hsub : ∀ e ∈ d :: moms, e ∈ x.dims := by
    intro e he
    rcases List.mem_cons.1 he with rfl | he
    exacts [hdx, hmp e he]
  cases axesToEnd with
  | false =>
    obtain ⟨a, e, v, hd1⟩ := C47_resample_data x.dims d rep moms hx hm hdx hmp hdm hr false
      y.toArr (by
        rw [show y.toArr.dims = y.dims from rfl, hyd]
        unfold applyUfuncDims
        have : [rep, d].filter (fun e => decide (e ∉ [rep, d])) = [] := by
          rw [List.filter_eq_nil_iff]; intro e he; simpa [or_iff_not_imp_left] using he
        simp only [List.zip_cons_cons, List.zip_nil_right, List.flatMap_cons, List.flatMap_nil, this,
          List.append_nil]
        rw [List.dedup_eq_self.2 (List.nodup_reverse.2 (hx.filter _)), List.reverse_reverse])
    have ha : a = z.toArr := Except.ok.inj (e.symm.trans hw1)
    subst ha
    have hwd : z.dims = x.dims.map (fun o => if o = d then rep else o) := hd1
    have hl : out.shape.length = x.dims.length := by
      rw [hout]; simp [DataArray.values, hwd]
    refine throughView_ok (outForData_view hl hdx hmp hm hdm) hy hz rfl ?_ v
      (fun e _ => by rw [hw2]) ?_ hout
    · rw [hwd]
      refine hx.map_on fun a ha b hb hab => ?_
      by_cases h1 : a = d <;> by_cases h2 : b = d
      · rw [h1, h2]
      · simp only [h1, h2, if_true, if_false] at hab
        exact absurd (hab ▸ hb) hr
      · simp only [h1, h2, if_true, if_false] at hab
        exact absurd (hab ▸ ha) hr
      · simpa [h1, h2] using hab
    · rw [hwd, hyd, order_renamed (order_names hx hsub), renamed_tail hdm]
  | true =>
    refine throughView_whole rfl hy hz ?_ hout
    have hwy : z.toArr = y.toArr := by
      have : resampleDataDims y.toArr x.dims d rep (x.dims.idxOf d) moms true false = .ok y.toArr := by
        simp [resampleDataDims]
      exact Except.ok.inj (hw1.symm.trans this)
    have : z = y := by
      cases z; cases y; simp_all
    rw [this]

/-- `reduce_data` -/
theorem reduceOut_ok {x : DataArray δ β} {moms ds : List δ} (g : GoodReduce x moms ds)
    {keepdims axesToEnd : Bool} {out : Nd.Arr α} {inner : Py (DataArray δ α)} {y z : DataArray δ α}
    (hy : inner = .ok y)
    (hyd : y.dims = x.dims.filter (fun d => decide (d ∉ ds ++ moms)) ++
      (if keepdims then ds ++ moms else moms))
    (hz : y.step (fun z => reduceDataDims z x.dims ds moms keepdims axesToEnd) = .ok z)
    (hout : out.shape = z.values.shape) :
    throughView out (outForReduce out.shape x.dims ds moms keepdims axesToEnd) inner
        (fun y => y.step (fun z => reduceDataDims z x.dims ds moms keepdims axesToEnd))
      = .ok (z, z.values) := by
  obtain ⟨hw1, hw2⟩ := step_inv hz
  have hcn : (ds ++ moms).Nodup := by
    rw [List.nodup_append]
    exact ⟨g.dsDistinct, g.momDistinct, fun a ha b hb hab => g.notMom a ha (hab ▸ hb)⟩
  have hcs : ∀ d ∈ ds ++ moms, d ∈ x.dims := by
    intro d hd
    rcases List.mem_append.1 hd with hd | hd
    exacts [g.present d hd, g.momPresent d hd]
  obtain ⟨⟨a, e, v, hd1⟩, ⟨a', e', v', hd2⟩⟩ := C47_reduce_data x.dims ds moms g.distinct
    g.dsDistinct g.momDistinct g.present g.momPresent g.notMom keepdims y.toArr
    (by rw [applyUfuncDims_one g.distinct]; exact hyd)
  have hyn : y.dims.Nodup := by
    rw [hyd, List.nodup_append]
    refine ⟨g.distinct.filter _, by cases keepdims; exacts [g.momDistinct, hcn], ?_⟩
    rintro a ha b hb rfl
    have h1 := (List.mem_filter.1 ha).2
    have : a ∈ ds ++ moms := by
      cases keepdims
      · exact List.mem_append_right _ hb
      · exact hb
    simp only [decide_eq_true_eq] at h1
    exact h1 this
  cases axesToEnd with
  | true =>
    have ha : a' = z.toArr := Except.ok.inj (e'.symm.trans hw1)
    subst ha
    have hzd : z.dims = y.dims := by rw [hyd]; exact hd2
    exact throughView_whole rfl hy hz (values_of_same (hzd ▸ hyn) hzd (fun d _ => by rw [hw2]) v') hout
  | false =>
    have ha : a = z.toArr := Except.ok.inj (e.symm.trans hw1)
    subst ha
    have hzd : z.dims = if keepdims then x.dims else x.dims.filter (fun d => decide (d ∉ ds)) := hd1
    cases keepdims with
    | true =>
      have hwd : z.dims = x.dims := hzd
      have hl : out.shape.length = x.dims.length := by rw [hout, ← hwd]; simp [DataArray.values]
      obtain ⟨f1, f2⟩ := positions_facts hcs hcn
      have ho := order_end f1 f2
      have e1 : ((ds ++ moms).map x.dims.idxOf).map (fun a : ℕ => (a : ℤ))
          = (ds ++ moms).map (fun d => (x.dims.idxOf d : ℤ)) := by rw [List.map_map]; rfl
      rw [e1, List.length_map, List.length_append] at ho
      refine throughView_ok (order := keptAxes x.dims.length ((ds ++ moms).map x.dims.idxOf) ++
          (ds ++ moms).map x.dims.idxOf) ?_ hy hz rfl (hwd ▸ g.distinct) v (fun e _ => by rw [hw2]) ?_
        hout
      · unfold outForReduce
        rw [if_neg (by simp), if_pos rfl]
        exact whole_moveaxis hl ho
      · rw [hwd, hyd]
        exact order_names g.distinct hcs
    | false =>
      have hwd : z.dims = x.dims.filter (fun d => decide (d ∉ ds)) := hzd
      have hl : out.shape.length = (x.dims.filter (fun d => decide (d ∉ ds))).length := by
        rw [hout, ← hwd]; simp [DataArray.values]
      have hcm : ∀ d ∈ moms, d ∈ x.dims.filter (fun d => decide (d ∉ ds)) := fun d hd =>
        List.mem_filter.2 ⟨g.momPresent d hd, by
          simp only [decide_eq_true_eq]; exact fun h => g.notMom d h hd⟩
      obtain ⟨f1, f2⟩ := positions_facts hcm g.momDistinct
      have ho := order_end f1 f2
      have e1 : (moms.map (x.dims.filter (fun d => decide (d ∉ ds))).idxOf).map
          (fun a : ℕ => (a : ℤ))
          = moms.map (fun d => ((x.dims.filter (fun d => decide (d ∉ ds))).idxOf d : ℤ)) := by
        rw [List.map_map]; rfl
      rw [e1, List.length_map] at ho
      refine throughView_ok ?_ hy hz rfl (hwd ▸ g.distinct.filter _) v (fun e _ => by rw [hw2]) ?_
        hout (order := keptAxes (x.dims.filter (fun d => decide (d ∉ ds))).length
          (moms.map (x.dims.filter (fun d => decide (d ∉ ds))).idxOf) ++
          moms.map (x.dims.filter (fun d => decide (d ∉ ds))).idxOf)
      · unfold outForReduce
        rw [if_neg (by simp), if_neg (by simp)]
        exact whole_moveaxis hl ho
      · rw [hwd, hyd, order_names (g.distinct.filter _) hcm, List.filter_filter]
        congr 2
        refine List.filter_congr fun d _ => ?_
        by_cases h1 : d ∈ ds <;> by_cases h2 : d ∈ moms <;> simp [h1, h2]

/-- `moments_type` -/
theorem transformOut_ok {x : DataArray δ β} {moms : List δ} (hx : x.dims.Nodup) (hm : moms.Nodup)
    (hmp : ∀ d ∈ moms, d ∈ x.dims) {axesToEnd : Bool} {out : Nd.Arr α} {inner : Py (DataArray δ α)}
    {y z : DataArray δ α} (hy : inner = .ok y)
    (hyd : y.dims = x.dims.filter (fun d => decide (d ∉ moms)) ++ moms)
    (hz : (if axesToEnd then .ok y else y.step (fun z => transposeLike z x.dims [] [] [none] []))
      = .ok z) (hout : out.shape = z.values.shape) :
    throughView out (outForTransform out.shape x.dims moms axesToEnd) inner
        (fun y => if axesToEnd then .ok y
          else y.step (fun z => transposeLike z x.dims [] [] [none] [])) = .ok (z, z.values) := by
  cases axesToEnd with
  | true => exact throughView_whole rfl hy hz (by rw [Except.ok.inj hz]) hout
  | false =>
    obtain ⟨hw1, hw2⟩ := step_inv (y := y) (z := z) (f := fun z => transposeLike z x.dims [] [] [none] [])
      (by simpa using hz)
    obtain ⟨⟨a, e, v, hd1⟩, -⟩ := C47_reduce_data x.dims [] moms hx List.nodup_nil hm (by simp) hmp
      (by simp) true y.toArr (by rw [applyUfuncDims_one hx]; simpa using hyd)
    have ha : a = z.toArr := Except.ok.inj (e.symm.trans (by simpa [reduceDataDims] using hw1))
    subst ha
    have hwd : z.dims = x.dims := hd1
    have hl : out.shape.length = x.dims.length := by rw [hout, ← hwd]; simp [DataArray.values]
    obtain ⟨f1, f2⟩ := positions_facts hmp hm
    have ho := order_end f1 f2
    have e1 : (moms.map x.dims.idxOf).map (fun a : ℕ => (a : ℤ))
        = moms.map (fun d => (x.dims.idxOf d : ℤ)) := by rw [List.map_map]; rfl
    rw [e1, List.length_map] at ho
    refine throughView_ok ?_ hy hz rfl (hwd ▸ hx) v (fun e _ => by rw [hw2]) ?_ hout
      (order := keptAxes x.dims.length (moms.map x.dims.idxOf) ++ moms.map x.dims.idxOf)
    · unfold outForTransform
      rw [if_neg (by simp)]
      exact whole_moveaxis hl ho
    · rw [hwd, hyd]
      exact order_names hx hmp

theorem bind_ok_right {r : Py α} : r.bind (fun y => .ok y) = r := by cases r <;> rfl

theorem bind_assoc' {γ : Type} {r : Py α} {f : α → Py β} {g : β → Py γ} :
    (r.bind f).bind g = r.bind fun a => (f a).bind g := by cases r <;> rfl

/-- What a call with a view says about the shapes. -/
theorem throughView_inv {out : Nd.Arr α} {view : Py View} {inner : Py (DataArray δ α)}
    {finish : DataArray δ α → Py (DataArray δ α)} {r : DataArray δ α × Nd.Arr α}
    (h : throughView out view inner finish = .ok r) :
    ∃ v y, view = .ok v ∧ inner = .ok y ∧ v.shape = y.values.shape := by
  unfold throughView at h
  obtain ⟨v, hv, h⟩ := bind_inv h
  obtain ⟨y, hy, h⟩ := bind_inv h
  obtain ⟨o, ho, h⟩ := bind_inv h
  refine ⟨v, y, hv, hy, ?_⟩
  unfold View.fill at ho
  split_ifs at ho with hs
  exact hs

end Through

section Vals

variable {K V M : Type} [Field K] [DecidableEq K]

theorem secondary_dims {axisNeg : ℤ} {nsamp : ℕ} {o o' : Operand δ K}
    (h : xprepareSecondary axisNeg nsamp o = .ok o') : operandDims o' = operandDims o := by
  unfold xprepareSecondary at h
  split at h
  · rw [← Except.ok.inj h]
  · cases e : Nd.prepareSecondary _ axisNeg nsamp true with
    | error e' => rw [e] at h; simp [Except.map] at h
    | ok a => rw [e] at h; rw [← Except.ok.inj h]; rfl

theorem mapM_secondary_dims {axisNeg : ℤ} {nsamp : ℕ} {l l' : List (Operand δ K)}
    (h : l.mapM (xprepareSecondary axisNeg nsamp) = .ok l') :
    ∀ o' ∈ l', ∃ o ∈ l, operandDims o' = operandDims o := by
  induction l generalizing l' with
  | nil =>
    rw [List.mapM_nil] at h
    rw [← Except.ok.inj h]; simp
  | cons o l ih =>
    rw [List.mapM_cons] at h
    obtain ⟨a, ha, h⟩ := bind_inv h
    obtain ⟨b, hb, h⟩ := bind_inv h
    rw [← Except.ok.inj h]
    intro o' ho'
    rcases List.mem_cons.1 ho' with rfl | ho'
    · exact ⟨o, by simp, secondary_dims ha⟩
    · obtain ⟨o'', h1, h2⟩ := ih hb o' ho'
      exact ⟨o'', by simp [h1], h2⟩

theorem xprepareValues_inv {x : DataArray δ K} (hx : x.dims.Nodup) {others : List (Operand δ K)}
    {nar : ℕ} {axis : Option (Option AxisArg)} {dim : Option (Option δ)}
    {p : δ × List (Operand δ K)} (h : xprepareValues x others nar axis dim = .ok p) :
    p.1 ∈ x.dims ∧ ∃ os, p.2 = .named x :: os ∧
      ∀ o' ∈ os, ∃ o ∈ others, operandDims o' = operandDims o := by
  unfold xprepareValues at h
  split_ifs at h
  obtain ⟨sd, hsd, h⟩ := bind_inv h
  obtain ⟨os, hos, h⟩ := bind_inv h
  obtain ⟨hp, -⟩ := selectAxisDim_inv hsd
  rw [← Except.ok.inj h]
  exact ⟨(idxOf_of_getElem? hx hp).2, os, rfl, mapM_secondary_dims hos⟩

theorem applyVals_dims {x : DataArray δ K} (hx : x.dims.Nodup) {os : List (Operand δ K)}
    {extra : List (Frame δ)} {dim : δ} {extraCore outCore : List δ}
    {f : List δ → List (Nd.Arr K) → Py (Nd.Arr β)} {y : DataArray δ β}
    (ho : ∀ o ∈ os, ∀ d ∈ operandDims o, d ∈ x.dims)
    (hex : ∀ g ∈ extra, ∀ d ∈ g.1, d ∉ dim :: extraCore ++ outCore → d ∈ x.dims)
    (h : applyVals (.named x :: os) extra dim extraCore outCore f = .ok y) :
    y.dims = x.dims.filter (fun d => decide (d ∉ dim :: extraCore ++ outCore)) ++ outCore := by
  unfold applyVals at h
  obtain ⟨l, hl, h⟩ := bind_inv h
  obtain ⟨a, -, h⟩ := bind_inv h
  obtain ⟨o, -, h⟩ := bind_inv h
  obtain ⟨h1, h2⟩ := wrapResult_inv h
  have e0 : (Operand.named x :: os).filterMap Operand.frame? ++ extra
      = x.frame :: (os.filterMap Operand.frame? ++ extra) := rfl
  rw [e0] at hl
  rw [h1, loopDims_one (f := x.frame) hx (by simp) ?_ hl]
  · rfl
  intro g hg d hd hn
  rcases List.mem_append.1 hg with hg | hg
  · obtain ⟨o', ho', e⟩ := List.mem_filterMap.1 hg
    cases o' with
    | named w =>
      have : w.frame = g := Option.some.inj e
      rw [← this] at hd
      exact ho _ ho' d hd
    | plain a => simp [Operand.frame?] at e
  · exact hex g hg d hd hn

/-- Functions of values none of which have dimensions that `x` does not have. -/
theorem valsOut_ok {x : DataArray δ K} {moms : List δ} (hx : x.dims.Nodup) (hm : moms.Nodup)
    (hmx : ∀ d ∈ moms, d ∉ x.dims) {others : List (Operand δ K)} {nar nd : ℕ}
    (hnd : moms.length = nd) {axis : Option (Option AxisArg)} {dim : Option (Option δ)}
    {rep new : Option δ} (hr : ∀ r ∈ rep, r ∉ x.dims ∧ r ∉ moms) {axesToEnd : Bool}
    {out : Nd.Arr (Option K)} {inner : δ × List (Operand δ K) → Py (DataArray δ (Option K))}
    (ho : ∀ o ∈ others, ∀ d ∈ operandDims o, d ∈ x.dims)
    (hinner : ∀ p os y, p.2 = .named x :: os → (∀ o ∈ os, ∀ d ∈ operandDims o, d ∈ x.dims) →
      p.1 ∈ x.dims → inner p = .ok y →
      y.dims = x.dims.filter (fun d => decide (d ≠ p.1)) ++ rep.getD p.1 :: moms)
    {z : DataArray δ (Option K)}
    (h : ((xprepareValues x others nar axis dim).bind fun p =>
      (inner p).bind fun y =>
      (y.step (fun z => valsDims z x.dims (newName p.1 rep)
        (rep.getD p.1) moms axesToEnd false)).bind (renameTo p.1 new)) = .ok z)
    (hout : out.shape = z.values.shape) :
    valsOut x others nar nd moms axis dim rep new axesToEnd out inner = .ok (z, z.values) := by
  obtain ⟨p, hp, h⟩ := bind_inv h
  obtain ⟨y, hy, h⟩ := bind_inv h
  obtain ⟨w, hw, hz⟩ := bind_inv h
  obtain ⟨hpx, os, hos, hod⟩ := xprepareValues_inv hx hp
  have hyd := hinner p os y hos (by
    intro o ho' d hd
    obtain ⟨o', h1, h2⟩ := hod o ho'
    exact ho o' h1 d (h2 ▸ hd)) hpx hy
  have hzw := renameTo_values hz
  obtain ⟨hw1, hw2⟩ := step_inv hw
  unfold valsOut
  rw [hp]
  simp only [Except.bind]
  have hfin : (fun y : DataArray δ (Option K) => (y.step (fun z => valsDims z x.dims
      (newName p.1 rep)
      (rep.getD p.1) moms axesToEnd false)).bind (renameTo p.1 new)) y = .ok z := h
  obtain ⟨d, ops⟩ := p
  dsimp only at hpx hyd hw1 hfin hy ⊢
  set f : δ → δ := fun o => if o = d then rep.getD d else o with hf
  have hfx : ∀ a ∈ x.dims, ∀ b ∈ x.dims, f a = f b → a = b := by
    intro a ha b hb hab
    by_cases h1 : a = d <;> by_cases h2 : b = d
    · rw [h1, h2]
    · cases hrep : rep with
      | none => simpa [hf, h1, h2, hrep] using hab
      | some r =>
        simp only [hf, h1, h2, hrep, if_true, if_false, Option.getD_some] at hab
        exact absurd (hab ▸ hb) (hr r hrep).1
    · cases hrep : rep with
      | none => simpa [hf, h1, h2, hrep] using hab
      | some r =>
        simp only [hf, h1, h2, hrep, if_true, if_false, Option.getD_some] at hab
        exact absurd (hab ▸ ha) (hr r hrep).1
    · simpa [hf, h1, h2] using hab
  have hfm : ∀ a ∈ x.dims, f a ∉ moms := by
    intro a ha hfa
    by_cases h1 : a = d
    · cases hrep : rep with
      | none =>
        simp only [hf, h1, hrep, if_true, Option.getD_none] at hfa
        exact hmx _ hfa hpx
      | some r =>
        simp only [hf, h1, hrep, if_true, Option.getD_some] at hfa
        exact (hr r hrep).2 hfa
    · simp only [hf, h1, if_false] at hfa
      exact hmx _ hfa ha
  have htn : (x.dims.map f ++ moms).Nodup := by
    rw [List.nodup_append]
    refine ⟨hx.map_on hfx, hm, ?_⟩
    rintro a ha b hb rfl
    obtain ⟨e, he, rfl⟩ := List.mem_map.1 ha
    exact hfm e he hb
  have hmem : ∀ e, e ∈ y.dims ↔ e ∈ x.dims.map f ++ moms := by
    intro e
    rw [hyd]
    simp only [List.mem_append, List.mem_filter, List.mem_cons, List.mem_map, decide_eq_true_eq]
    constructor
    · rintro (⟨h1, h2⟩ | h1 | h1)
      · exact .inl ⟨e, h1, by simp [hf, h2]⟩
      · exact .inl ⟨d, hpx, by simp [hf, h1]⟩
      · exact .inr h1
    · rintro (⟨a, ha, rfl⟩ | h1)
      · by_cases h1 : a = d
        · exact .inr (.inl (by simp [hf, h1]))
        · exact .inl ⟨by simpa [hf, h1] using ha, by simpa [hf, h1] using h1⟩
      · exact .inr (.inr h1)
  have hyn : y.dims.Nodup := by
    rw [hyd, List.nodup_append, List.nodup_cons]
    have hnew : ∀ a ∈ x.dims, a ≠ d → a ≠ rep.getD d := by
      intro a ha hne
      cases hrep : rep with
      | none => simpa using hne
      | some r => exact fun e => (hr r hrep).1 (by rw [Option.getD_some] at e; exact e ▸ ha)
    refine ⟨hx.filter _, ⟨?_, hm⟩, ?_⟩
    · have := hfm d hpx
      simpa [hf] using this
    · rintro a ha b hb rfl
      obtain ⟨h1, h2⟩ := List.mem_filter.1 ha
      simp only [decide_eq_true_eq] at h2
      rcases List.mem_cons.1 hb with h3 | h3
      · exact hnew a h1 h2 h3
      · exact hmx a h3 h1
  cases axesToEnd with
  | true =>
    refine throughView_whole rfl hy hfin ?_ hout
    rw [hzw]
    have hwy : w.toArr = y.toArr := by
      have : valsDims y.toArr x.dims (newName d rep)
          (rep.getD d) moms true false = .ok y.toArr := by simp [valsDims]
      exact Except.ok.inj (hw1.symm.trans this)
    have : w = y := by
      cases w; cases y; simp_all
    rw [this]
  | false =>
    have key : SameValues y.toArr w.toArr ∧ w.dims = x.dims.map f ++ moms := by
      have fin : ∀ {a : Arr δ (Option K)} {t : List δ},
          valsDims y.toArr x.dims (newName d rep)
            (rep.getD d) moms false false = .ok a →
          SameValues y.toArr a → t = x.dims.map f →
          a.dims = y.dims.filter (fun e => decide (e ∉ t ++ moms)) ++ t ++ moms →
          SameValues y.toArr w.toArr ∧ w.dims = x.dims.map f ++ moms := by
        intro a t e v ht hd
        have ha : a = w.toArr := Except.ok.inj (e.symm.trans hw1)
        subst ha
        refine ⟨v, ?_⟩
        have hnil : y.dims.filter (fun e => decide (e ∉ t ++ moms)) = [] := by
          rw [List.filter_eq_nil_iff]
          intro e he
          have := (hmem e).1 he
          rw [← ht] at this
          simp only [decide_eq_true_eq, not_not]
          exact this
        rw [show w.dims = _ from hd, hnil, ht, List.nil_append]
      cases hrep : rep with
      | none =>
        obtain ⟨a, e, v, hd⟩ := C47_vals x.dims moms hx hm hmx d d false (by simp) false y.toArr hyn
          (by
            intro e he
            have h1 : x.dims.map (fun o => if false = true ∧ o = d then d else o) = x.dims.map f := by
              refine List.map_congr_left fun o _ => ?_
              by_cases h : o = d <;> simp [hf, h, hrep]
            rw [h1] at he
            exact (hmem e).2 he)
        refine fin (t := x.dims.map (fun o => if false = true ∧ o = d then d else o)) ?_ v ?_ hd
        · rw [hrep]; exact e
        · refine List.map_congr_left fun o _ => ?_
          by_cases h : o = d <;> simp [hf, h, hrep]
      | some r =>
        obtain ⟨a, e, v, hd⟩ := C47_vals x.dims moms hx hm hmx d r true (fun _ => hr r hrep) false
          y.toArr hyn
          (by
            intro e he
            have h1 : x.dims.map (fun o => if true = true ∧ o = d then r else o) = x.dims.map f := by
              refine List.map_congr_left fun o _ => ?_
              by_cases h : o = d <;> simp [hf, h, hrep]
            rw [h1] at he
            exact (hmem e).2 he)
        refine fin (t := x.dims.map (fun o => if true = true ∧ o = d then r else o)) ?_ v ?_ hd
        · rw [hrep]; exact e
        · refine List.map_congr_left fun o _ => ?_
          by_cases h : o = d <;> simp [hf, h, hrep]
    obtain ⟨v, hwd⟩ := key
    have hl : out.shape.length = x.dims.length + nd := by
      rw [hout, hzw]; simp [DataArray.values, hwd, hnd]
    have hlt := List.idxOf_lt_length_iff.2 hpx
    refine throughView_ok (order := keptAxes x.dims.length [x.dims.idxOf d] ++ x.dims.idxOf d ::
        (List.range nd).map (fun j => x.dims.length + j)) ?_ hy hfin hzw (hwd ▸ htn) v
      (fun e _ => by rw [hw2]) ?_ hout
    · unfold outForVals
      rw [if_neg (by simp)]
      have e0 : positiveToNegative (x.dims.idxOf d : ℤ) x.dims.length - nd
          = (x.dims.idxOf d : ℤ) - x.dims.length - nd := by
        rw [(nameFromEnd_facts hpx).2.2]
        unfold nameFromEnd
        omega
      rw [e0]
      exact whole_moveaxis hl (order_behind hlt)
    · have h1 := order_renamed (f := f) (order_names (S := [d]) hx (by simpa using hpx))
      rw [List.map_cons, List.map_nil] at h1
      have e2 : (x.dims.filter (fun e => decide (e ∉ [d])) ++ [d]).map f
          = x.dims.filter (fun e => decide (e ≠ d)) ++ [rep.getD d] := by
        rw [List.map_append, List.map_singleton, show f d = rep.getD d from if_pos rfl]
        have e3 : x.dims.filter (fun e => decide (e ∉ [d]))
            = x.dims.filter (fun e => decide (e ≠ d)) := List.filter_congr fun e _ => by simp
        rw [e3]
        congr 1
        conv_rhs => rw [← List.map_id (x.dims.filter _)]
        refine List.map_congr_left fun e he => ?_
        have := (List.mem_filter.1 he).2
        simp only [decide_eq_true_eq] at this
        simp [hf, this]
      rw [e2] at h1
      rw [hwd, hyd, show ∀ (a : ℕ) (l1 l2 : List ℕ), l1 ++ a :: l2 = (l1 ++ [a]) ++ l2 by simp,
        show ∀ (a : δ) (l1 l2 : List δ), l1 ++ a :: l2 = (l1 ++ [a]) ++ l2 by simp,
        List.map_append, List.map_append (l₂ := moms)]
      congr 1
      · rw [← h1]
        refine List.map_congr_left fun p hp => ?_
        rw [List.getElem?_append_left]
        rw [List.length_map]
        rcases List.mem_append.1 hp with hp | hp
        · exact (Nd.mem_keptAxes.1 hp).1
        · rw [List.mem_singleton.1 hp]; exact hlt
      · rw [List.map_map, ← hnd]
        refine List.ext_getElem? fun j => ?_
        rw [List.getElem?_map, List.getElem?_map]
        by_cases hj : j < moms.length
        · rw [List.getElem?_range hj, Option.map_some, Function.comp_apply,
            List.getElem?_append_right (by simp), List.length_map, Nat.add_sub_cancel_left,
            List.getElem?_eq_getElem hj]
          rfl
        · rw [List.getElem?_eq_none (by simpa using hj), List.getElem?_eq_none (by simpa using hj)]
          rfl

/-- With `axes_to_end` the result is what `apply_ufunc` gives. -/
theorem valsOut_end {x : DataArray δ K} {moms : List δ} {others : List (Operand δ K)} {nar nd : ℕ}
    {axis : Option (Option AxisArg)} {dim : Option (Option δ)} {rep new : Option δ}
    {out : Nd.Arr (Option K)} {inner : δ × List (Operand δ K) → Py (DataArray δ (Option K))}
    {z : DataArray δ (Option K)}
    (h : ((xprepareValues x others nar axis dim).bind fun p =>
      (inner p).bind fun y =>
      (y.step (fun z => valsDims z x.dims (newName p.1 rep)
        (rep.getD p.1) moms true false)).bind (renameTo p.1 new)) = .ok z)
    (hout : out.shape = z.values.shape) :
    valsOut x others nar nd moms axis dim rep new true out inner = .ok (z, z.values) := by
  obtain ⟨p, hp, h⟩ := bind_inv h
  obtain ⟨y, hy, h⟩ := bind_inv h
  obtain ⟨w, hw, hz⟩ := bind_inv h
  obtain ⟨hw1, hw2⟩ := step_inv hw
  unfold valsOut
  rw [hp]
  simp only [Except.bind]
  have hwy : w.toArr = y.toArr := by
    have : valsDims y.toArr x.dims (newName p.1 rep) (rep.getD p.1) moms true false = .ok y.toArr := by
      simp [valsDims]
    exact Except.ok.inj (hw1.symm.trans this)
  have hwy' : w = y := by
    cases w; cases y; simp_all
  exact throughView_whole rfl hy h (by rw [renameTo_values hz, hwy']) hout

end Vals

section More

theorem sameOut_end {x : DataArray δ β} {moms : List δ} {axis : Option (Option AxisArg)}
    {dim : Option (Option δ)} {new : Option δ} {out : Nd.Arr α}
    {inner : ℕ × δ → Py (DataArray δ α)} {z : DataArray δ α}
    (h : ((selectAxisDim x.dims moms axis dim none none false).bind fun sd =>
      (inner sd).bind fun y =>
      (y.step (fun z => sameDims z x.dims sd.2 moms true false)).bind (renameTo sd.2 new))
        = .ok z) (hout : out.shape = z.values.shape) :
    sameOut x moms axis dim new true out inner = .ok (z, z.values) := by
  obtain ⟨sd, hsd, h⟩ := bind_inv h
  obtain ⟨y, hy, h⟩ := bind_inv h
  obtain ⟨w, hw, hz⟩ := bind_inv h
  obtain ⟨hw1, hw2⟩ := step_inv hw
  unfold sameOut
  rw [hsd]
  simp only [Except.bind]
  have hwy : w.toArr = y.toArr := by
    have : sameDims y.toArr x.dims sd.2 moms true false = .ok y.toArr := by simp [sameDims]
    exact Except.ok.inj (hw1.symm.trans this)
  have hwy' : w = y := by
    cases w; cases y; simp_all
  exact throughView_whole rfl hy h (by rw [renameTo_values hz, hwy']) hout

theorem infixDims_sub {supplied : List (Option δ)} {all l : List δ}
    (h : infixDims supplied all = .ok l) : ∀ d ∈ l, d ∈ all := by
  unfold infixDims at h
  split_ifs at h with h1 h2
  · rw [← Except.ok.inj h]
    intro d hd
    obtain ⟨o, ho, hd⟩ := List.mem_flatMap.1 hd
    have ho := (List.mem_filter.1 ho).2
    cases o with
    | none => exact (List.mem_filter.1 hd).1
    | some e =>
      have : d = e := by simpa using hd
      subst this
      simpa using ho
  · dsimp only at h
    split_ifs at h with h3
    rw [← Except.ok.inj h]
    intro d hd
    simp only [Bool.and_eq_true, List.all_eq_true, decide_eq_true_eq] at h3
    exact h3.1 d hd

theorem transpose_sub {x y : Arr δ α} {l : List (Option δ)} (h : transpose x l = .ok y) :
    ∀ d ∈ y.dims, d ∈ x.dims := by
  unfold transpose at h
  split at h
  · cases h
  · rename_i dims hd
    split_ifs at h
    rw [← Except.ok.inj h]
    split_ifs at hd with h1
    · rw [← Except.ok.inj hd]; simp
    · exact infixDims_sub hd

variable {K V M : Type} [Field K] [DecidableEq K]

theorem selectAxisDimMult_inv {dims moms : List δ} {axis : Option AxesArg}
    {dim : Option (Option (List δ))} {sd : List ℕ × List δ}
    (h : selectAxisDimMult dims moms axis dim = .ok sd) : ∀ d ∈ sd.2, d ∈ dims := by
  unfold selectAxisDimMult at h
  obtain ⟨ad, -, h⟩ := bind_inv h
  obtain ⟨r, hr, h⟩ := bind_inv h
  split_ifs at h
  cases h
  split at hr
  · dsimp only at hr
    split_ifs at hr with h1
    rw [← Except.ok.inj hr]; exact h1
  · obtain ⟨axs, -, hr⟩ := bind_inv hr
    rw [← Except.ok.inj hr]
    intro d hd
    obtain ⟨a, -, ha⟩ := List.mem_filterMap.1 hd
    exact List.mem_of_getElem? ha
  · cases hr

theorem reduceX_sub {core : Nd.Core K M} {k : Kernel K V M} {x : DataArray δ K} {moms : List δ}
    (hx : x.dims.Nodup) (hmp : ∀ d ∈ moms, d ∈ x.dims) {axis : Option AxesArg}
    {dim : Option (Option (List δ))} {y : DataArray δ (Option K)}
    (h : reduceX core k x moms axis dim false true = .ok y) : ∀ d ∈ y.dims, d ∈ x.dims := by
  unfold reduceX at h
  obtain ⟨sd, hsd, h⟩ := bind_inv h
  obtain ⟨w, hw, h⟩ := bind_inv h
  obtain ⟨h1, -⟩ := step_inv h
  have h2 := (applyUfunc_dims hx (by intro d hd; exact List.mem_append_left _ hd) hw).1
  intro d hd
  have h3 := transpose_sub (by simpa [reduceDataDims] using h1) d hd
  have h3 : d ∈ w.dims := h3
  rw [h2] at h3
  rcases List.mem_append.1 h3 with h3 | h3
  · exact (List.mem_filter.1 h3).1
  · exact hmp d (by simpa using h3)

theorem reduceValsX_sub {val : List K → V} {core : Nd.Core K M} {fam : List ℕ → Kernel K V M}
    {mom : List ℕ} {moms : List δ} {x : DataArray δ K} (hx : x.dims.Nodup)
    {others : List (Operand δ K)} (ho : ∀ o ∈ others, ∀ d ∈ operandDims o, d ∈ x.dims)
    {axis : Option (Option AxisArg)} {dim : Option (Option δ)} {y : DataArray δ (Option K)}
    (h : reduceValsX val core fam mom moms x others axis dim = .ok y) :
    ∀ d ∈ y.dims, d ∈ x.dims ∨ d ∈ moms := by
  unfold reduceValsX at h
  obtain ⟨p, hp, h⟩ := bind_inv h
  obtain ⟨hpx, os, hos, hod⟩ := xprepareValues_inv hx hp
  rw [hos] at h
  have := applyVals_dims hx (by
    intro o ho' d hd
    obtain ⟨o', h1, h2⟩ := hod o ho'
    exact ho o' h1 d (h2 ▸ hd)) (by simp) h
  rw [this]
  intro d hd
  rcases List.mem_append.1 hd with hd | hd
  · exact .inl (List.mem_filter.1 hd).1
  · exact .inr hd

end More

end Cmomy.Labelled
