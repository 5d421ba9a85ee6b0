import Verif.Lemmas.LabelledJoin
import Verif.Props.LabelledObject
import Verif.Props.LabelledCollect

/-!
# C69: moving dimensions of labelled objects, and joining them
-/

namespace Cmomy

open Spec Labelled Axes ObjectIndex

section Move

variable {δ : Type} [DecidableEq δ] {α : Type} {obj : DataArray δ α} {moms : List δ} {nd : ℕ}

private theorem moms_le (g : LabelledObject obj moms nd) : moms.length ≤ obj.dims.length :=
  (List.subperm_of_subset g.momDistinct g.momPresent).length_le

private theorem dims_ne (g : LabelledObject obj moms nd) (hne : moms ≠ []) : obj.dims ≠ [] := by
  obtain ⟨d, hd⟩ := List.exists_mem_of_ne_nil _ hne
  exact List.ne_nil_of_mem (g.momPresent d hd)

/-- **C69** `moveaxis`, the function, given the moment dimensions: the dimensions chosen go where they are
told to go, the others keep their order, and every entry stays at its named coordinates. -/
theorem C69_moveaxis_function (g : LabelledObject obj moms nd) (hne : moms ≠ [])
    {axis dest : Option AxesArg} {dim destDim : Option (Option (List δ))} {s t : List ℕ}
    (hs : PickedAxes obj.dims moms axis dim s) (ht : PickedAxes obj.dims moms dest destDim t)
    (hsn : s.Nodup) (htn : t.Nodup) (hlen : s.length = t.length) {allowMom : Bool}
    (hm : allowMom = true ∨ NoMomentAt obj.dims moms (s ++ t)) :
    ∃ out order, moveaxisMomX obj moms axis dest dim destDim allowMom false = .ok out ∧
      IsAxisMove obj.dims.length (s.zip t) order ∧
      out.dims.map some = order.map (fun o => obj.dims[o]?) ∧ out.size = obj.size ∧
      CellsNamed out obj moms nd id := by
  obtain ⟨order, h1, h2⟩ := moveaxisCore_spec hlen hsn htn (pickedAxes_lt hs) (pickedAxes_lt ht)
  obtain ⟨y, e1, e2, e3, e4, e5⟩ := transpose_order g.distinct (dims_ne g hne) h2.perm
  refine ⟨y, order, ?_, h2, e2, e4, cells_same g e3 e4 e5⟩
  unfold moveaxisMomX moveOrderX
  rw [if_neg (by simp), moveOrderPlainX_eq (moms_le g) hs ht allowMom hm, h1]
  exact e1

/-- **C69** `moveaxis`, the method. -/
theorem C69_moveaxis (g : LabelledObject obj moms nd) (h2 : ∀ d ∈ moms, 2 ≤ obj.size d)
    (hne : moms ≠ []) {axis dest : Option AxesArg} {dim destDim : Option (Option (List δ))}
    {s t : List ℕ} (hs : PickedAxes obj.dims moms axis dim s)
    (ht : PickedAxes obj.dims moms dest destDim t) (hsn : s.Nodup) (htn : t.Nodup)
    (hlen : s.length = t.length) (hm : NoMomentAt obj.dims moms (s ++ t)) :
    ∃ out order, moveaxisX moms obj axis dest dim destDim false = .ok out ∧
      IsAxisMove obj.dims.length (s.zip t) order ∧
      out.dims.map some = order.map (fun o => obj.dims[o]?) ∧ out.size = obj.size ∧
      CellsNamed out obj moms nd id := by
  obtain ⟨y, order, e1, e2, e3, e4, e5⟩ := C69_moveaxis_function g hne hs ht hsn htn hlen
    (allowMom := false) (.inr hm)
  refine ⟨y, order, ?_, e2, e3, e4, e5⟩
  unfold moveaxisX
  rw [e1]
  exact newLikeX_ok e5.object.momPresent e5.momSize h2

/-- **C69** Moment dimensions are not moved, and nothing is moved to where one of them is: a
`ValueError`. -/
theorem C69_moveaxis_moment_refused (g : LabelledObject obj moms nd) {axis dest : Option AxesArg}
    {dim destDim : Option (Option (List δ))} {s t : List ℕ}
    (hs : PickedAxes obj.dims moms axis dim s) (ht : PickedAxes obj.dims moms dest destDim t)
    (hm : ¬ NoMomentAt obj.dims moms (s ++ t)) :
    moveaxisX moms obj axis dest dim destDim false = .error .valueError := by
  unfold moveaxisX moveaxisMomX moveOrderX
  rw [if_neg (by simp), moveOrderPlainX_refused (moms_le g) hs ht hm]
  rfl

/-- **C69** There have to be as many places to go to as dimensions to move. -/
theorem C69_moveaxis_lengths_refused (g : LabelledObject obj moms nd) {axis dest : Option AxesArg}
    {dim destDim : Option (Option (List δ))} {s t : List ℕ}
    (hs : PickedAxes obj.dims moms axis dim s) (ht : PickedAxes obj.dims moms dest destDim t)
    (hlen : s.length ≠ t.length) :
    moveaxisX moms obj axis dest dim destDim false = .error .valueError := by
  by_cases hm : NoMomentAt obj.dims moms (s ++ t)
  · unfold moveaxisX moveaxisMomX moveOrderX
    rw [if_neg (by simp), moveOrderPlainX_eq (moms_le g) hs ht false (.inr hm), moveaxisCore,
      if_pos hlen]
    rfl
  · exact C69_moveaxis_moment_refused g hs ht hm

/-- **C69** A name that is no dimension is refused. -/
theorem C69_moveaxis_unknown {ds : List δ} {d : δ} (hd : d ∈ ds) (hn : d ∉ obj.dims)
    (dest : Option AxesArg) (destDim : Option (Option (List δ))) (axesToEnd : Bool) :
    moveaxisX moms obj none dest (some (some ds)) destDim axesToEnd = .error .valueError := by
  have e : ∀ allow, selectAxesDims obj.dims moms none (some (some ds)) allow = .error .valueError := by
    intro allow
    simp only [selectAxesDims, axisDimDefaults, Except.bind, Option.getD_some]
    rw [if_neg fun h => hn (h d hd)]
  unfold moveaxisX moveaxisMomX moveOrderX moveOrderPlainX
  cases axesToEnd <;> simp [e, Except.bind, Except.map]

/-- **C69** Dimensions may be chosen by number or by name, not by both. -/
theorem C69_moveaxis_both_refused (a : AxesArg) (ds : Option (List δ)) (dest : Option AxesArg)
    (destDim : Option (Option (List δ))) (axesToEnd : Bool) :
    moveaxisX moms obj (some a) dest (some ds) destDim axesToEnd = .error .valueError := by
  have e : ∀ allow, selectAxesDims obj.dims moms (some a) (some ds) allow = .error .valueError := by
    intro allow
    rfl
  unfold moveaxisX moveaxisMomX moveOrderX moveOrderPlainX
  cases axesToEnd <;> simp [e, Except.bind, Except.map]

/-- **C69** Without `axes_to_end`, dimensions have to be chosen, and their places. -/
theorem C69_moveaxis_none_refused (dest : Option AxesArg) (destDim : Option (Option (List δ))) :
    moveaxisX moms obj none dest none destDim false = .error .valueError := rfl

/-- **C69** `moveaxis(..., axes_to_end=True)`: first the dimensions not chosen, then those chosen, as
listed, then the moment dimensions, wherever they were. Choosing none is allowed. -/
theorem C69_moveaxis_to_end (g : LabelledObject obj moms nd) (h2 : ∀ d ∈ moms, 2 ≤ obj.size d)
    (hne : moms ≠ []) {axis : Option AxesArg} {dim : Option (Option (List δ))} {ds : List δ}
    (hp : ∀ d ∈ ds, d ∈ obj.dims)
    (hs : PickedAxes obj.dims moms axis dim (ds.map obj.dims.idxOf) ∨
      (axis = none ∧ dim = none ∧ ds = []))
    (hn : ds.Nodup) (hm : ∀ d ∈ ds, d ∉ moms) (dest : Option AxesArg)
    (destDim : Option (Option (List δ))) :
    ∃ out, moveaxisX moms obj axis dest dim destDim true = .ok out ∧
      out.dims = (valDims obj moms).filter (fun d => decide (d ∉ ds)) ++ ds ++ moms ∧
      out.size = obj.size ∧ CellsNamed out obj moms nd id := by
  have hnm : NoMomentAt obj.dims moms (ds.map obj.dims.idxOf) := by
    intro a ha d hd
    obtain ⟨e, he, rfl⟩ := List.mem_map.1 ha
    rw [← (idxOf_getElem?_iff (hp e he)).1 hd]
    exact hm e he
  have hsn : (ds.map obj.dims.idxOf).Nodup :=
    hn.map_on fun a ha b hb hab => (List.idxOf_inj (hp a ha)).1 hab
  have e := moveOrderX_end g.distinct g.momDistinct g.momPresent
    (hs.imp_right fun h => ⟨h.1, h.2.1, by rw [h.2.2]; rfl⟩) hsn hnm dest destDim false
  set places := ds.map obj.dims.idxOf ++ moms.map obj.dims.idxOf with hpl
  have hpd : ∀ d ∈ ds ++ moms, d ∈ obj.dims := by
    intro d hd
    rcases List.mem_append.1 hd with h | h
    · exact hp d h
    · exact g.momPresent d h
  have hnd : (ds ++ moms).Nodup :=
    List.nodup_append.2 ⟨hn, g.momDistinct, fun a ha b hb hab => hm a ha (hab ▸ hb)⟩
  have hplm : places = (ds ++ moms).map obj.dims.idxOf := by rw [hpl, List.map_append]
  have hpn : places.Nodup := by
    rw [hplm]
    exact hnd.map_on fun a ha b hb hab => (List.idxOf_inj (hpd a ha)).1 hab
  have hplt : ∀ a ∈ places, a < obj.dims.length := by
    rw [hplm]
    intro a ha
    obtain ⟨d, hd, rfl⟩ := List.mem_map.1 ha
    exact List.idxOf_lt_length_iff.2 (hpd d hd)
  obtain ⟨y, e1, e2, e3, e4, e5⟩ := transpose_order g.distinct (dims_ne g hne)
    (Nd.keptAxes_perm hpn hplt)
  have hc := cells_same g e3 e4 e5
  refine ⟨y, ?_, ?_, e4, hc⟩
  · unfold moveaxisX moveaxisMomX
    rw [e]
    simp only [Except.bind]
    rw [e1]
    exact newLikeX_ok hc.object.momPresent hc.momSize h2
  · have hinj : Function.Injective (List.map (some : δ → Option δ)) :=
      List.map_injective_iff.2 (Option.some_injective δ)
    refine hinj ?_
    rw [e2, List.map_append, List.append_assoc, List.map_append (f := some)]
    refine congrArg₂ (· ++ ·) ?_ ?_
    · have hk : keptAxes obj.dims.length places
          = ((valDims obj moms).filter (fun d => decide (d ∉ ds))).map obj.dims.idxOf := by
        unfold keptAxes valDims
        rw [List.filter_filter]
        have hr : List.range obj.dims.length = obj.dims.map obj.dims.idxOf :=
          List.ext_getElem (by simp) fun p h1 h3 => by
            simp [g.distinct.idxOf_getElem]
        rw [hr, List.filter_map]
        congr 1
        refine List.filter_congr fun d hd => ?_
        have hmem : obj.dims.idxOf d ∈ places ↔
            ∃ a, (a ∈ ds ∨ a ∈ moms) ∧ obj.dims.idxOf a = obj.dims.idxOf d := by
          rw [hplm, List.mem_map]
          simp only [List.mem_append]
        have : (∃ a, (a ∈ ds ∨ a ∈ moms) ∧ obj.dims.idxOf a = obj.dims.idxOf d) ↔ d ∈ ds ∨ d ∈ moms := by
          constructor
          · rintro ⟨a, ha, hab⟩
            rw [← (List.idxOf_inj (hpd a (List.mem_append.2 ha))).1 hab]
            exact ha
          · exact fun h => ⟨d, h, rfl⟩
        have hq := hmem.trans this
        by_cases h1 : d ∈ ds <;> by_cases h3 : d ∈ moms <;> simp [hq, h1, h3]
      rw [hk, List.map_map]
      refine List.map_congr_left fun d hd => ?_
      exact (idxOf_getElem?_iff (List.mem_filter.1 (List.mem_filter.1 hd).1).1).2 rfl
    · rw [hplm, List.map_map]
      refine List.map_congr_left fun d hd => ?_
      exact (idxOf_getElem?_iff (hpd d hd)).2 rfl

end Move

section Samples

variable {δ : Type} [DecidableEq δ] {K M σ : Type} {core : Nd.Core K M} {H : List σ → M → Prop}
  {obj : DataArray δ K} {moms : List δ} {L : (δ → ℕ) → List σ}

/-- **C69** An object with moved dimensions stands, at all named coordinates, for the samples the object
stood for. -/
theorem C69_moveaxis_samples (hS : StandsNamed core H obj moms L) (h2 : ∀ d ∈ moms, 2 ≤ obj.size d)
    (hne : moms ≠ []) {axis dest : Option AxesArg} {dim destDim : Option (Option (List δ))}
    {s t : List ℕ} (hs : PickedAxes obj.dims moms axis dim s)
    (ht : PickedAxes obj.dims moms dest destDim t) (hsn : s.Nodup) (htn : t.Nodup)
    (hlen : s.length = t.length) (hm : NoMomentAt obj.dims moms (s ++ t)) :
    ∃ out, moveaxisX moms obj axis dest dim destDim false = .ok out ∧ out.size = obj.size ∧
      StandsNamed core H out moms L := by
  obtain ⟨y, _, e1, _, _, e4, e5⟩ := C69_moveaxis hS.object h2 hne hs ht hsn htn hlen hm
  exact ⟨y, e1, e4, C65_keep_samples hS e5⟩

end Samples

/-! ## Joining -/

section Join

variable {δ : Type} [DecidableEq δ] {α : Type} {arrays : List (DataArray δ α)} {first : DataArray δ α}
  {dim : δ}

private theorem concatX_existing {as : List (DataArray δ α)} (hn : first.dims.Nodup)
    (hd : dim ∈ first.dims) {axis : Option (Option AxisArg)} {name : Option (Option δ)}
    (hc : JoinDim first.dims axis name dim) :
    concatX (first :: as) axis name = xrConcat (first :: as) dim := by
  have hsel : selectAxisDim first.dims [] axis name (some (some (.int 0))) none false
      = .ok (first.dims.idxOf dim, dim) := by
    rcases hc with ⟨rfl, rfl, h0⟩ | hc
    · have := selectAxisDim_ok (dims := first.dims) (moms := []) hn hd (by simp)
        (axis := some (some (.int 0))) (dim := none)
        (.inr (.inl ⟨rfl, 0, rfl, by
          have := List.length_pos_of_mem hd
          simp [InRange]; omega, by simpa [wrap] using h0⟩))
      rw [← this]
      rfl
    · rw [← selectAxisDim_ok (dims := first.dims) (moms := []) hn hd (by simp) hc]
      rcases hc with ⟨rfl, rfl⟩ | ⟨rfl, z, rfl, _⟩ | ⟨rfl, re, z, rfl, _⟩ <;> rfl
  unfold concatX
  cases name with
  | none =>
    simp only
    rw [hsel]
    rfl
  | some o =>
    cases o with
    | none =>
      simp only
      rw [hsel]
      rfl
    | some d =>
      have : d = dim := by
        rcases hc with ⟨_, h', _⟩ | ⟨_, h'⟩ | ⟨h', _⟩ | ⟨h', _⟩
        · cases h'
        · injection h' with h'; injection h'
        · cases h'
        · cases h'
      subst this
      simp only
      rw [if_pos hd, hsel]
      rfl

omit [DecidableEq δ] in
private theorem joinable_cons (h : Joinable arrays first dim) : ∃ as, arrays = first :: as := by
  cases arrays with
  | nil => simpa using h.head
  | cons a as =>
    obtain rfl : a = first := by simpa using h.head
    exact ⟨as, rfl⟩

/-- **C69** `concat` of labelled arrays along a dimension they have: the arrays one behind the other.
Entries are found by name, whatever the order of the dimensions of each array. Without `axis` and `dim` it
is the first dimension of the first array. -/
theorem C69_concat (h : Joinable arrays first dim) (hd : dim ∈ first.dims)
    {axis : Option (Option AxisArg)} {name : Option (Option δ)}
    (hc : JoinDim first.dims axis name dim) :
    ∃ out, concatX arrays axis name = .ok out ∧ JoinedNamed out arrays first.dims dim := by
  obtain ⟨out, h1, h2, _⟩ := xrConcat_joins h hd
  obtain ⟨as, rfl⟩ := joinable_cons h
  exact ⟨out, (concatX_existing h.distinct hd hc).trans h1, h2⟩

/-- **C69** `concat` along a dimension they do not have: the arrays side by side along a new dimension, the
first one, whatever `axis` says. -/
theorem C69_concat_new (h : Joinable arrays first dim) (hd : dim ∉ first.dims)
    (axis : Option (Option AxisArg)) :
    ∃ out, concatX arrays axis (some (some dim)) = .ok out ∧
      StackedNamed out arrays first.dims dim := by
  obtain ⟨out, h1, h2⟩ := xrConcat_stacks h hd
  refine ⟨out, ?_, h2⟩
  cases arrays with
  | nil => simpa using h.head
  | cons a as =>
    obtain rfl : a = first := by simpa using h.head
    unfold concatX
    simp only
    rw [if_neg hd, h1]

/-- **C69** Arrays of different sizes along another dimension are refused with a `ValueError`. -/
theorem C69_concat_sizes_refused {as : List (DataArray δ α)} (hn : first.dims.Nodup)
    (hp : ∀ a ∈ as, a.dims.Perm first.dims) (hd : dim ∈ first.dims)
    {axis : Option (Option AxisArg)} {name : Option (Option δ)} (hc : JoinDim first.dims axis name dim)
    (hbad : ∃ a ∈ as, ∃ d ∈ first.dims, d ≠ dim ∧ a.size d ≠ first.size d) :
    concatX (first :: as) axis name = .error .valueError := by
  rw [concatX_existing hn hd hc]
  simp only [xrConcat]
  rw [if_neg, if_pos]
  · obtain ⟨a, ha, h⟩ := hbad
    exact ⟨a, List.mem_cons_of_mem _ ha, h⟩
  · rintro ⟨b, hb, h⟩
    rcases List.mem_cons.1 hb with rfl | hb
    · exact h.elim (fun h => h hn) (fun h => h (.refl _))
    · exact h.elim (fun h => h ((hp b hb).nodup_iff.2 hn)) (fun h => h (hp b hb))

/-- **C69** Finding: `concat` knows no moment dimensions. A moment dimension may be named too, and for an
object whose first dimension is a moment dimension it is the default: the moments of one array are put
behind those of the other, as a single object with more "moments". -/
theorem C69_concat_moment_dim {a b : DataArray δ α} {m : δ} {nd : ℕ} (ga : LabelledObject a [m] nd)
    (hp : b.dims.Perm a.dims) (hsz : ∀ d ∈ a.dims, d ≠ m → b.size d = a.size d)
    (hlast : a.dims = valDims a [m] ++ [m]) (h1 : 2 ≤ a.size m) {axis : Option (Option AxisArg)}
    {name : Option (Option δ)} (hc : JoinDim a.dims axis name m) :
    ∃ out, concatObjectsX [(a, [m]), (b, [m])] axis name = .ok (out, [m]) ∧
      out.size m = a.size m + b.size m ∧
      (∀ c, c m < a.size m → entry out c = entry a c) ∧
      ∀ c, c m < b.size m → entry out (Function.update c m (a.size m + c m)) = entry b c := by
  have hm : m ∈ a.dims := ga.momPresent m (by simp)
  have hJ : Joinable [a, b] a m := by
    refine ⟨rfl, ga.distinct, ?_, ?_⟩
    · intro x hx
      rcases List.mem_cons.1 hx with rfl | hx
      · exact .refl _
      · rw [List.mem_singleton.1 hx]; exact hp
    · intro x hx d hd hne
      rcases List.mem_cons.1 hx with rfl | hx
      · rfl
      · rw [List.mem_singleton.1 hx]; exact hsz d hd hne
  obtain ⟨out, o1, o2⟩ := C69_concat hJ hm hc
  have hsize : out.size m = a.size m + b.size m := by
    rw [o2.dim_size]; simp [startNamed]
  refine ⟨out, ?_, hsize, ?_, ?_⟩
  · have hdrop : out.dims.drop (out.dims.length - 1) = [m] := by
      rw [o2.dims_eq, hlast, List.length_append, List.length_singleton, Nat.add_sub_cancel]
      simp
    unfold concatObjectsX
    simp only [List.map_cons, List.map_nil, List.length_singleton]
    rw [o1]
    simp only [Except.bind, hdrop]
    unfold constructX
    rw [if_neg, if_neg]
    · rfl
    · simp only [List.mem_singleton, exists_eq_left]; omega
    · simp only [List.mem_singleton, exists_eq_left, not_not]
      rw [o2.dims_eq]; exact hm
  · intro c hc'
    have := o2.part 0 a rfl c hc'
    simpa [startNamed] using this
  · intro c hc'
    have := o2.part 1 b rfl c hc'
    simpa [startNamed] using this

/-- **C69** Finding: objects are joined without looking at their moment dimensions; the last dimensions of
the joined array are taken for them. When the first object has them anywhere else, the outcome has other
moment dimensions, or is refused. -/
theorem C69_concat_takes_last {objs : List (DataArray δ α × List δ)} {moms : List δ} {nd : ℕ}
    (hh : objs[0]? = some (first, moms)) (g : LabelledObject first moms nd)
    (hJ : Joinable (objs.map Prod.fst) first dim) {axis : Option (Option AxisArg)}
    {name : Option (Option δ)} (hc : JoinDim first.dims axis name dim ∧ dim ∈ first.dims ∨
      name = some (some dim) ∧ dim ∉ first.dims) :
    let last := first.dims.drop (first.dims.length - moms.length)
    let size := fun d => if d = dim then
        ((objs.map Prod.fst).map (fun a => if dim ∈ first.dims then a.size dim else 1)).sum
      else first.size d
    ((∀ d ∈ last, 2 ≤ size d) →
      ∃ out, concatObjectsX objs axis name = .ok (out, last) ∧ ∀ d ∈ first.dims, out.size d = size d) ∧
    ((∃ d ∈ last, size d ≤ 1) → concatObjectsX objs axis name = .error .valueError) := by
  intro last size
  have hle := moms_le g
  have hsub : ∀ d ∈ last, d ∈ first.dims := fun d hd => List.mem_of_mem_drop hd
  obtain ⟨out, o1, o2, o3, o4⟩ : ∃ out, concatX (objs.map Prod.fst) axis name = .ok out ∧
      out.dims.drop (out.dims.length - moms.length) = last ∧ (∀ d ∈ first.dims, d ∈ out.dims) ∧
      ∀ d ∈ first.dims, out.size d = size d := by
    have hfirst : first ∈ objs.map Prod.fst := List.mem_of_getElem? hJ.head
    rcases hc with ⟨hc, hd⟩ | ⟨rfl, hd⟩
    · obtain ⟨out, h1, h2⟩ := C69_concat hJ hd hc
      refine ⟨out, h1, by rw [h2.dims_eq], fun d h => by rw [h2.dims_eq]; exact h, fun d h => ?_⟩
      by_cases e : d = dim
      · subst e
        rw [h2.dim_size, startNamed_eq, List.take_of_length_le (by simp)]
        simp only [size, if_true, if_pos hd]
      · rw [h2.size first hfirst d h e]
        simp only [size, if_neg e]
    · obtain ⟨out, h1, h2⟩ := C69_concat_new hJ hd axis
      refine ⟨out, h1, ?_, fun d h => by rw [h2.dims_eq]; exact List.mem_cons_of_mem _ h, fun d h => ?_⟩
      · rw [h2.dims_eq, List.length_cons,
          show first.dims.length + 1 - moms.length = (first.dims.length - moms.length) + 1 by omega]
        rfl
      · have e : d ≠ dim := fun e => hd (e ▸ h)
        rw [h2.size first hfirst d h]
        simp only [size, if_neg e]
  have hrun : concatObjectsX objs axis name = (constructX last out).map (·, last) := by
    cases objs with
    | nil => simp at hh
    | cons c cs =>
      obtain rfl : c = (first, moms) := by simpa using hh
      unfold concatObjectsX
      simp only
      rw [o1]
      simp only [Except.bind, o2]
  rw [hrun]
  have hpres : ¬ ∃ d ∈ last, d ∉ out.dims := by
    rintro ⟨d, hd, hn⟩
    exact hn (o3 d (hsub d hd))
  constructor
  · intro h
    refine ⟨out, ?_, o4⟩
    unfold constructX
    rw [if_neg hpres, if_neg]
    · rfl
    · rintro ⟨d, hd, hs⟩
      have := h d hd
      rw [← o4 d (hsub d hd)] at this
      omega
  · rintro ⟨d, hd, hs⟩
    unfold constructX
    rw [if_neg hpres, if_pos]
    · rfl
    · exact ⟨d, hd, by rw [o4 d (hsub d hd)]; exact hs⟩

end Join

section JoinSamples

variable {δ : Type} [DecidableEq δ] {K M σ : Type} {core : Nd.Core K M} {H : List σ → M → Prop}
  {arrays : List (DataArray δ K)} {first : DataArray δ K} {moms : List δ} {dim : δ}
  {L : ℕ → (δ → ℕ) → List σ}

/-- **C69** `concat` of labelled objects along a dimension that is no moment dimension, the moment
dimensions of the first object coming last: an object with the same moment dimensions. The samples stay
with their cells. -/
theorem C69_concat_samples (hJ : Joinable arrays first dim) (hd : dim ∈ first.dims) (hdm : dim ∉ moms)
    (hS : ∀ k a, arrays[k]? = some a → StandsNamed core H a moms (L k))
    (h2 : ∀ d ∈ moms, 2 ≤ first.size d) (hlast : first.dims = valDims first moms ++ moms)
    {axis : Option (Option AxisArg)} {name : Option (Option δ)} (hc : JoinDim first.dims axis name dim) :
    ∃ out L', concatObjectsX (arrays.map (·, moms)) axis name = .ok (out, moms) ∧
      JoinedNamed out arrays first.dims dim ∧ StandsNamed core H out moms L' ∧
      ∀ k a, arrays[k]? = some a → ∀ c, c dim < a.size dim →
        L' (Function.update c dim (startNamed arrays dim k + c dim)) = L k c := by
  have h0 := hS 0 first hJ.head
  have hlen : first.dims.length = (valDims first moms).length + moms.length := by
    conv_lhs => rw [hlast]
    exact List.length_append
  have hlast' : first.dims.drop (first.dims.length - moms.length) = moms := by
    rw [hlen, Nat.add_sub_cancel, hlast, List.drop_left']
    rfl
  obtain ⟨out, o1, o2, o3, o4⟩ := xrConcat_joins hJ hd
  obtain ⟨as, has⟩ := joinable_cons hJ
  have o1' : concatX arrays axis name = .ok out := by
    rw [has] at o1 ⊢
    exact (concatX_existing hJ.distinct hd hc).trans o1
  have hfirst : first ∈ arrays := List.mem_of_getElem? hJ.head
  have hmsz : ∀ d ∈ moms, out.size d = first.size d := fun d h =>
    o2.size first hfirst d (h0.object.momPresent d h) fun e => hdm (e ▸ h)
  have hO : LabelledObject out moms core.nd :=
    ⟨by rw [o3]; exact hJ.distinct, h0.object.momDistinct,
      fun d h => by rw [o3]; exact h0.object.momPresent d h, h0.object.momCount⟩
  refine ⟨out, fun c => L (findPart (arrays.map (fun a => a.size dim)) (c dim)).1
    (Function.update c dim (findPart (arrays.map (fun a => a.size dim)) (c dim)).2), ?_, o2,
    ⟨hO, fun c hc' => ?_⟩, ?_⟩
  · have e : concatObjectsX (arrays.map (·, moms)) axis name = (constructX moms out).map (·, moms) := by
      have hm : (arrays.map (fun x => (x, moms))).map Prod.fst = arrays := by
        rw [List.map_map]
        exact List.map_id arrays
      rw [has] at hm o1' ⊢
      simp only [List.map_cons] at hm ⊢
      unfold concatObjectsX
      simp only [List.map_cons]
      rw [hm, o1']
      simp only [Except.bind, o3, hlast']
    rw [e]
    unfold constructX
    rw [if_neg, if_neg]
    · rfl
    · rintro ⟨d, h, hs⟩
      have := h2 d h
      rw [hmsz d h] at hs
      omega
    · rintro ⟨d, h, hn⟩
      exact hn (hO.momPresent d h)
  · have hlt : c dim < (arrays.map (fun a => a.size dim)).sum := by
      have := hc' dim (by
        unfold valDims
        rw [o3]
        exact List.mem_filter.2 ⟨hd, by simpa using hdm⟩)
      rw [o2.dim_size, startNamed_eq, List.take_of_length_le (by simp)] at this
      exact this
    obtain ⟨p1, p2, p3⟩ := findPart_lt _ _ hlt
    have p1' : (findPart (arrays.map (fun a => a.size dim)) (c dim)).1 < arrays.length := by simpa using p1
    set p := findPart (arrays.map (fun a => a.size dim)) (c dim) with hp
    have hSk := hS p.1 arrays[p.1] (List.getElem?_eq_getElem p1')
    have e : recordNamed core out moms c
        = recordNamed core arrays[p.1] moms (Function.update c dim p.2) := by
      refine congrArg core.recd (funext fun ms => ?_)
      rw [o4]
      have e1 : withNames moms ms c dim = c dim := if_neg hdm
      simp only [e1, ← hp]
      rw [List.getD_eq_getElem _ _ p1']
      refine entry_congr _ fun d _ => ?_
      by_cases ed : d = dim
      · subst ed
        simp [withNames, hdm]
      · rw [Function.update_of_ne ed]
        unfold withNames
        rw [Function.update_of_ne ed]
    rw [e]
    refine hSk.holds _ fun d hd' => ?_
    have hmem : d ∈ first.dims ∧ d ∉ moms := by
      obtain ⟨h1, h3⟩ := List.mem_filter.1 hd'
      exact ⟨(hJ.perm _ (List.getElem_mem p1')).mem_iff.1 h1, by simpa using h3⟩
    by_cases ed : d = dim
    · subst ed
      rw [Function.update_self]
      simpa using p2
    · rw [Function.update_of_ne ed]
      have := hc' d (by
        unfold valDims
        rw [o3]
        exact List.mem_filter.2 ⟨hmem.1, by simpa using hmem.2⟩)
      rw [o2.size _ (List.getElem_mem p1') d hmem.1 ed] at this
      exact this
  · intro k a hk c hc'
    obtain ⟨hk', rfl⟩ := List.getElem?_eq_some_iff.1 hk
    simp only [Function.update_self, Function.update_idem]
    rw [startNamed_eq, findPart_eq _ k _ (by simpa using hk') (by simpa using hc')]
    simp only [Function.update_eq_self]

/-- **C69** `concat` of labelled objects along a new dimension, the moment dimensions of the first object
coming last: cell `c` of the outcome is cell `c` of the object whose number is the coordinate of `c` along
the new dimension. -/
theorem C69_concat_new_samples (hJ : Joinable arrays first dim) (hd : dim ∉ first.dims)
    (hS : ∀ k a, arrays[k]? = some a → StandsNamed core H a moms (L k))
    (h2 : ∀ d ∈ moms, 2 ≤ first.size d) (hlast : first.dims = valDims first moms ++ moms)
    (axis : Option (Option AxisArg)) :
    ∃ out, concatObjectsX (arrays.map (·, moms)) axis (some (some dim)) = .ok (out, moms) ∧
      StackedNamed out arrays first.dims dim ∧ StandsNamed core H out moms (fun c => L (c dim) c) := by
  have h0 := hS 0 first hJ.head
  have hdm : dim ∉ moms := fun h => hd (h0.object.momPresent dim h)
  have hlen : first.dims.length = (valDims first moms).length + moms.length := by
    conv_lhs => rw [hlast]
    exact List.length_append
  have hlast' : first.dims.drop (first.dims.length - moms.length) = moms := by
    rw [hlen, Nat.add_sub_cancel, hlast, List.drop_left']
    rfl
  obtain ⟨out, o1, o2⟩ := C69_concat_new hJ hd axis
  have hfirst : first ∈ arrays := List.mem_of_getElem? hJ.head
  have hdrop : out.dims.drop (out.dims.length - moms.length) = moms := by
    rw [o2.dims_eq, List.length_cons,
      show first.dims.length + 1 - moms.length = (first.dims.length - moms.length) + 1 by omega]
    exact hlast'
  have hO : LabelledObject out moms core.nd :=
    ⟨by rw [o2.dims_eq]; exact List.nodup_cons.2 ⟨hd, hJ.distinct⟩, h0.object.momDistinct,
      fun d h => by rw [o2.dims_eq]; exact List.mem_cons_of_mem _ (h0.object.momPresent d h),
      h0.object.momCount⟩
  refine ⟨out, ?_, o2, hO, fun c hc' => ?_⟩
  · have e : concatObjectsX (arrays.map (·, moms)) axis (some (some dim))
        = (constructX moms out).map (·, moms) := by
      obtain ⟨as, has⟩ := joinable_cons hJ
      have hm : (arrays.map (fun x => (x, moms))).map Prod.fst = arrays := by
        rw [List.map_map]
        exact List.map_id arrays
      rw [has] at hm o1 ⊢
      simp only [List.map_cons] at hm ⊢
      unfold concatObjectsX
      simp only [List.map_cons]
      rw [hm, o1]
      simp only [Except.bind, hdrop]
    rw [e]
    unfold constructX
    rw [if_neg, if_neg]
    · rfl
    · rintro ⟨d, h, hs⟩
      have := h2 d h
      rw [o2.size first hfirst d (h0.object.momPresent d h)] at hs
      omega
    · rintro ⟨d, h, hn⟩
      exact hn (hO.momPresent d h)
  · have hk : c dim < arrays.length := by
      have := hc' dim (by
        unfold valDims
        rw [o2.dims_eq]
        exact List.mem_filter.2 ⟨by simp, by simpa using hdm⟩)
      rwa [o2.dim_size] at this
    have hSk := hS (c dim) arrays[c dim] (List.getElem?_eq_getElem hk)
    have e : recordNamed core out moms c = recordNamed core arrays[c dim] moms c := by
      refine congrArg core.recd (funext fun ms => ?_)
      exact o2.part (c dim) _ (List.getElem?_eq_getElem hk) _ (if_neg hdm)
    rw [e]
    refine hSk.holds _ fun d hd' => ?_
    obtain ⟨h1, h3⟩ := List.mem_filter.1 hd'
    have h1' := (hJ.perm _ (List.getElem_mem hk)).mem_iff.1 h1
    have := hc' d (by
      unfold valDims
      rw [o2.dims_eq]
      exact List.mem_filter.2 ⟨List.mem_cons_of_mem _ h1', h3⟩)
    rw [o2.size _ (List.getElem_mem hk) d h1'] at this
    exact this

end JoinSamples

section Examples

open ExDim Nd

/-- One sample in each cell, the moment dimension last. -/
def exJoin : DataArray ExDim ℚ where
  dims := [t, p, m]
  data idx := if idx.getD 2 0 = 0 then 1 else if idx.getD 2 0 = 1 then
    7 + (idx.getD 1 0 : ℚ) + 10 * (idx.getD 0 0 : ℚ) else 0
  size d := match d with
    | m => 3
    | _ => 2

def exJoinL (c : ExDim → ℕ) : List (Sample ℚ) := [⟨1, 7 + (c p : ℚ) + 10 * (c t : ℚ)⟩]

theorem exJoin_stands : StandsNamed core1 (Holds 2) exJoin [m] exJoinL where
  object := ⟨by decide, by decide, by decide, rfl⟩
  holds := by
    intro c _
    have e : ∀ n, recordNamed core1 exJoin [m] c n
        = if n = 0 then 1 else if n = 1 then 7 + (c p : ℚ) + 10 * (c t : ℚ) else 0 := fun n => rfl
    refine .inl ⟨by norm_num [exJoinL, weight], ?_, ?_, fun n h1 h2 => ?_⟩
    · rw [e]; norm_num [exJoinL, weight]
    · rw [e]; norm_num [exJoinL, weight, mean, wsum]
    · obtain rfl : n = 2 := by omega
      rw [e]; norm_num [exJoinL, weight, mean, wsum, central]

-- moving, by name and by number
example := C69_moveaxis exGather_stands.object (by decide) (by decide) (axis := none)
  (dest := some (.one (.int (-1)))) (dim := some (some [p])) (destDim := none) (s := [0]) (t := [2])
  (.inl ⟨rfl, [p], rfl, by decide, by decide⟩)
  (.inr (.inr ⟨rfl, _, rfl, 2, rfl, by simp [InRange, exGather], by decide⟩)) (by decide) (by decide) rfl
  (by unfold NoMomentAt; decide)
example : ((moveaxisX [m] exGather none (some (.one (.int (-1)))) (some (some [p])) none false).map
    (fun x => x.dims)).toOption = some [m, t, p] := by decide +kernel
example := C69_moveaxis_samples exGather_stands (by decide) (by decide) (axis := none) (dest := none)
  (dim := some (some [p, t])) (destDim := some (some [t, p])) (s := [0, 2]) (t := [2, 0])
  (.inl ⟨rfl, [p, t], rfl, by decide, by decide⟩) (.inl ⟨rfl, [t, p], rfl, by decide, by decide⟩)
  (by decide) (by decide) rfl (by unfold NoMomentAt; decide)
example : ((moveaxisX [m] exGather none none (some (some [p, t])) (some (some [t, p])) false).map
    (fun x => x.dims)).toOption = some [t, m, p] := by decide +kernel
-- by leave, the function moves moment dimensions
example := C69_moveaxis_function exGather_stands.object (by decide) (axis := none)
  (dest := some (.one (.int 0))) (dim := some (some [m])) (destDim := none) (s := [1]) (t := [0])
  (.inl ⟨rfl, [m], rfl, by decide, by decide⟩)
  (.inr (.inr ⟨rfl, _, rfl, 0, rfl, by simp [InRange, exGather], by decide⟩)) (by decide) (by decide) rfl
  (allowMom := true) (.inl rfl)
example := C69_moveaxis_moment_refused exGather_stands.object (axis := none)
  (dest := some (.one (.int 1))) (dim := some (some [p])) (destDim := none) (s := [0]) (t := [1])
  (.inl ⟨rfl, [p], rfl, by decide, by decide⟩)
  (.inr (.inr ⟨rfl, _, rfl, 1, rfl, by simp [InRange, exGather], by decide⟩))
  (fun h => absurd (h 1 (by decide) m rfl) (by decide))
example := C69_moveaxis_lengths_refused exGather_stands.object (axis := none)
  (dest := some (.one (.int 2))) (dim := some none) (destDim := none) (s := [0, 2]) (t := [2])
  (.inr (.inl ⟨rfl, rfl, by decide⟩)) (.inr (.inr ⟨rfl, _, rfl, 2, rfl, by simp [InRange, exGather], by decide⟩)) (by decide)
example := C69_moveaxis_unknown (obj := exGather) (moms := [m]) (ds := [p, b]) (d := b) (by decide)
  (by decide) none none true
example := C69_moveaxis_none_refused (obj := exGather) (moms := [m]) (some (.one (.int 0))) none
example := C69_moveaxis_both_refused (obj := exGather) (moms := [m]) (.one (.int 0)) (some [p]) none none
  false
example := C69_moveaxis_to_end exGather_stands.object (by decide) (by decide) (axis := none)
  (dim := some (some [p])) (ds := [p]) (by decide) (.inl (.inl ⟨rfl, [p], rfl, by decide, rfl⟩))
  (by decide) (by decide) none none
example : ((moveaxisX [m] exGather none none (some (some [p])) none true).map
    (fun x => x.dims)).toOption
    = some [t, p, m] := by decide +kernel
example := C69_moveaxis_to_end exGather_stands.object (by decide) (by decide) (axis := none)
  (dim := none) (ds := []) (by simp) (.inr ⟨rfl, rfl, rfl⟩) (by simp) (by simp) none none

theorem exJoin_joinable : Joinable [exJoin, exGather] exJoin p where
  head := rfl
  distinct := by decide
  perm := by decide
  size := by decide

-- joining two objects with their dimensions in different orders
example := C69_concat exJoin_joinable (by decide) (axis := some (some (.int 1))) (name := none)
  (.inr (.inr (.inl ⟨rfl, 1, rfl, by simp [InRange, exJoin], rfl⟩)))
example := C69_concat_samples exJoin_joinable (by decide) (moms := [m]) (by decide) (core := core1)
  (H := Holds 2) (L := fun k => if k = 0 then exJoinL else exGatherL)
  (by
    intro k a hk
    match k, hk with
    | 0, hk => cases hk; exact exJoin_stands
    | 1, hk => cases hk; exact exGather_stands
    | k + 2, hk => simp at hk)
  (by decide) (by decide) (axis := none) (name := some (some p)) (.inr (.inl ⟨rfl, rfl⟩))
example : dimEntries ((concatObjectsX [(exJoin, [m]), (exGather, [m])] none (some (some p))).map
      (fun r => ⟨⟨r.1.dims, fun idx => some (r.1.data idx)⟩, r.1.size⟩))
    [[(t, 1), (p, 1), (m, 1)], [(t, 1), (p, 2), (m, 1)], [(t, 1), (p, 4), (m, 1)]]
    = some ([t, p, m], [2, 5, 3], [some 18, some 10, some 12]) := by decide +kernel

/-- The same with three positions along `p`. -/
def exJoin3 : DataArray ExDim ℚ := ⟨exJoin.toArr, exGather.size⟩

theorem exJoin3_stands : StandsNamed core1 (Holds 2) exJoin3 [m] exJoinL where
  object := ⟨by decide, by decide, by decide, rfl⟩
  holds := by
    intro c _
    have e : ∀ n, recordNamed core1 exJoin3 [m] c n
        = if n = 0 then 1 else if n = 1 then 7 + (c p : ℚ) + 10 * (c t : ℚ) else 0 := fun n => rfl
    refine .inl ⟨by norm_num [exJoinL, weight], ?_, ?_, fun n h1 h2 => ?_⟩
    · rw [e]; norm_num [exJoinL, weight]
    · rw [e]; norm_num [exJoinL, weight, mean, wsum]
    · obtain rfl : n = 2 := by omega
      rw [e]; norm_num [exJoinL, weight, mean, wsum, central]

theorem exJoin3_joinable : Joinable [exJoin3, exGather] exJoin3 b where
  head := rfl
  distinct := by decide
  perm := by decide
  size := by decide

example := C69_concat_new exJoin3_joinable (by decide) (some (some (.int 7)))
example := C69_concat_new_samples exJoin3_joinable (by decide) (moms := [m]) (core := core1)
  (H := Holds 2) (L := fun k => if k = 0 then exJoinL else exGatherL)
  (by
    intro k a hk
    match k, hk with
    | 0, hk => cases hk; exact exJoin3_stands
    | 1, hk => cases hk; exact exGather_stands
    | k + 2, hk => simp at hk)
  (by decide) (by decide) none
example := C69_concat_sizes_refused (first := exJoin) (as := [exGather]) (dim := t) (by decide) (by decide)
  (by decide) (axis := none) (name := none) (.inl ⟨rfl, rfl, rfl⟩)
  ⟨exGather, by simp, p, by decide, by decide, by decide⟩

-- the moment dimension of the first object is not the last one: the other one is taken for it
theorem exGather_joinable : Joinable ([(exGather, [m]), (exJoin, [m])].map Prod.fst) exGather p where
  head := rfl
  distinct := by decide
  perm := by decide
  size := by decide

example := C69_concat_takes_last (nd := 1) (objs := [(exGather, [m]), (exJoin, [m])]) rfl
  exGather_stands.object exGather_joinable (axis := none) (name := some (some p))
  (.inl ⟨.inr (.inl ⟨rfl, rfl⟩), by decide⟩)
example : ((concatObjectsX [(exGather, [m]), (exJoin, [m])] none (some (some p))).map Prod.snd).toOption
    = some [t] := by decide +kernel

-- moments behind moments
example := C69_concat_moment_dim (a := exJoin3) (b := exGather) (m := m) exJoin3_stands.object (by decide)
  (by decide) (by decide) (by decide) (axis := none) (name := some (some m)) (.inr (.inl ⟨rfl, rfl⟩))

end Examples

end Cmomy
