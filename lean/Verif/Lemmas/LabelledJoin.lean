import Verif.Spec.LabelledJoin
import Verif.Lemmas.LabelledObject
import Verif.Lemmas.ObjectIndex
import Verif.Lemmas.ObjectOps

/-!
# Lemmas about moving dimensions and joining labelled arrays
-/

namespace Cmomy.Labelled

open Spec Axes ObjectIndex ObjectOps

variable {δ : Type} [DecidableEq δ] {α : Type}

/-! ## Choosing dimensions -/

theorem namesAxes_ok {n d : ℕ} (hd : d ≤ n) {a : AxesArg} {s : List ℕ} (h : NamesAxes n d a s) :
    normalizeAxisTuple a n (some d) false = .ok s := by
  cases a with
  | all => rw [show s = List.range (n - d) from h]; rfl
  | one a =>
    obtain ⟨r, rfl, h⟩ := h
    exact normalizeAxes_names hd (.cons h .nil) (by simp)
  | many as => exact normalizeAxes_names hd h.1 h.2

theorem namesAxes_lt {n d : ℕ} {a : AxesArg} {s : List ℕ} (h : NamesAxes n d a s) :
    ∀ p ∈ s, p < n := by
  cases a with
  | all =>
    rw [show s = List.range (n - d) from h]
    intro p hp
    have := List.mem_range.1 hp
    omega
  | one a =>
    obtain ⟨r, rfl, h⟩ := h
    simpa using namesAxis_lt h
  | many as => exact forall2_names_lt h.1

theorem filterMap_places {dims : List δ} {s : List ℕ} (h : ∀ p ∈ s, p < dims.length) {d : δ} :
    d ∈ s.filterMap (fun p => dims[p]?) ↔ ∃ p ∈ s, dims[p]? = some d := by
  simp [List.mem_filterMap]

theorem pickedAxes_lt {dims moms : List δ} {axis : Option AxesArg} {dim : Option (Option (List δ))}
    {s : List ℕ} (h : PickedAxes dims moms axis dim s) : ∀ p ∈ s, p < dims.length := by
  rcases h with ⟨_, ds, _, h, rfl⟩ | ⟨_, _, rfl⟩ | ⟨_, a, _, h⟩
  · intro p hp
    obtain ⟨d, hd, rfl⟩ := List.mem_map.1 hp
    exact List.idxOf_lt_length_iff.2 (h d hd)
  · intro p hp
    obtain ⟨d, hd, rfl⟩ := List.mem_map.1 hp
    exact List.idxOf_lt_length_iff.2 (List.mem_filter.1 hd).1
  · exact namesAxes_lt h

theorem idxOf_getElem?_iff {dims : List δ} {d e : δ} (hd : d ∈ dims) :
    dims[dims.idxOf d]? = some e ↔ d = e := by
  have h := List.idxOf_lt_length_iff.2 hd
  rw [List.getElem?_eq_getElem h, List.getElem_idxOf]
  simp

/-- Choosing dimensions gives their places, unless a moment dimension is chosen without leave. -/
theorem selectAxesDims_eq {dims moms : List δ} (hl : moms.length ≤ dims.length)
    {axis : Option AxesArg} {dim : Option (Option (List δ))} {s : List ℕ}
    (h : PickedAxes dims moms axis dim s) (allowMom : Bool) :
    (allowMom = true ∨ NoMomentAt dims moms s →
      ∃ ds, selectAxesDims dims moms axis dim allowMom = .ok (s, ds)) ∧
    (allowMom = false → ¬ NoMomentAt dims moms s →
      selectAxesDims dims moms axis dim allowMom = .error .valueError) := by
  have key : ∀ ds : List δ, (∀ d, d ∈ ds ↔ ∃ p ∈ s, dims[p]? = some d) →
      ((allowMom = true ∨ NoMomentAt dims moms s →
        (if allowMom = false ∧ ∃ d ∈ ds, d ∈ moms then .error .valueError else .ok (s, ds)
          : Py (List ℕ × List δ)) = .ok (s, ds)) ∧
      (allowMom = false → ¬ NoMomentAt dims moms s →
        (if allowMom = false ∧ ∃ d ∈ ds, d ∈ moms then .error .valueError else .ok (s, ds)
          : Py (List ℕ × List δ)) = .error .valueError)) := by
    intro ds hds
    constructor
    · rintro h
      rw [if_neg]
      rintro ⟨h1, d, hd, hm⟩
      rcases h with h | h
      · simp [h1] at h
      · obtain ⟨p, hp, e⟩ := (hds d).1 hd
        exact h p hp d e hm
    · intro h1 h2
      rw [if_pos]
      refine ⟨h1, ?_⟩
      by_contra hc
      refine h2 fun p hp d e hm => hc ⟨d, (hds d).2 ⟨p, hp, e⟩, hm⟩
  rcases h with ⟨rfl, ds, rfl, h, rfl⟩ | ⟨rfl, rfl, rfl⟩ | ⟨rfl, a, rfl, h⟩
  · have e : selectAxesDims dims moms none (some (some ds)) allowMom
        = if allowMom = false ∧ ∃ d ∈ ds, d ∈ moms then .error .valueError
          else .ok (ds.map dims.idxOf, ds) := by
      simp only [selectAxesDims, axisDimDefaults, Except.bind, Option.getD_some]
      rw [if_pos h]
    have k := key ds fun d => by
      constructor
      · intro hd
        exact ⟨_, List.mem_map.2 ⟨d, hd, rfl⟩, (idxOf_getElem?_iff (h d hd)).2 rfl⟩
      · rintro ⟨p, hp, e⟩
        obtain ⟨d', hd', rfl⟩ := List.mem_map.1 hp
        rw [← (idxOf_getElem?_iff (h d' hd')).1 e]
        exact hd'
    rw [e]
    exact ⟨fun h => ⟨_, k.1 h⟩, k.2⟩
  · set ds := dims.filter (fun d => decide (d ∉ moms)) with hds
    have h : ∀ d ∈ ds, d ∈ dims := fun d hd => (List.mem_filter.1 hd).1
    have e : selectAxesDims dims moms none (some none) allowMom
        = if allowMom = false ∧ ∃ d ∈ ds, d ∈ moms then .error .valueError
          else .ok (ds.map dims.idxOf, ds) := by
      simp only [selectAxesDims, axisDimDefaults, Except.bind, Option.getD_none]
      rw [if_pos h]
    have k := key ds fun d => by
      constructor
      · intro hd
        exact ⟨_, List.mem_map.2 ⟨d, hd, rfl⟩, (idxOf_getElem?_iff (h d hd)).2 rfl⟩
      · rintro ⟨p, hp, e⟩
        obtain ⟨d', hd', rfl⟩ := List.mem_map.1 hp
        rw [← (idxOf_getElem?_iff (h d' hd')).1 e]
        exact hd'
    rw [e]
    exact ⟨fun h => ⟨_, k.1 h⟩, k.2⟩
  · obtain ⟨ds, hds⟩ : ∃ ds : List δ, ds = s.filterMap (fun p => dims[p]?) := ⟨_, rfl⟩
    have e : selectAxesDims dims moms (some a) none allowMom
        = if allowMom = false ∧ ∃ d ∈ ds, d ∈ moms then .error .valueError else .ok (s, ds) := by
      rw [hds]
      simp only [selectAxesDims, axisDimDefaults, Except.bind]
      rw [namesAxes_ok hl h]
    have k := key ds fun d => by rw [hds]; exact filterMap_places (namesAxes_lt h)
    rw [e]
    exact ⟨fun h => ⟨_, k.1 h⟩, k.2⟩

/-! ## Moving dimensions -/

/-- Listing all places in a new order. -/
theorem transpose_order {x : DataArray δ α} (hx : x.dims.Nodup) (hne : x.dims ≠ []) {order : List ℕ}
    (ho : order.Perm (List.range x.dims.length)) :
    ∃ y, x.transposeStrict (order.map (fun o => x.dims[o]?)) = .ok y ∧
      y.dims.map some = order.map (fun o => x.dims[o]?) ∧ y.dims.Perm x.dims ∧ y.size = x.size ∧
      ∀ c, entry y c = entry x c := by
  set ds := order.filterMap (fun o => x.dims[o]?) with hds
  have hlt : ∀ o ∈ order, o < x.dims.length := fun o h => List.mem_range.1 (ho.mem_iff.1 h)
  have e : order.map (fun o => x.dims[o]?) = ds.map some := by
    rw [hds]
    clear hds ds ho
    induction order with
    | nil => rfl
    | cons o l ih =>
      have := hlt o (by simp)
      rw [List.map_cons, ih fun o h => hlt o (List.mem_cons_of_mem _ h), List.getElem?_eq_getElem this,
        List.filterMap_cons_some (b := x.dims[o]) (List.getElem?_eq_getElem this), List.map_cons]
  have hp : ds.Perm x.dims := by
    refine (ho.filterMap (fun o => x.dims[o]?)).trans (List.Perm.of_eq ?_)
    have : (List.range x.dims.length).map (fun o => x.dims[o]?) = x.dims.map some :=
      List.ext_getElem (by simp) fun p h1 h2 => by simp
    have h3 := congrArg (List.filterMap id) this
    simpa [List.filterMap_map] using h3
  obtain ⟨y, h1, h2, h3, h4⟩ := transposeStrict_ok (x := x) hx (supplied := ds.map some) (ds := ds)
    (by
      intro h
      have h' : ds = [] := by simpa using h
      rw [h'] at hp
      exact hne (List.nil_perm.1 hp))
    (by
      intro d hd
      refine hp.mem_iff.1 ?_
      simpa using hd)
    (infix_all hp) hp
  rw [e]
  exact ⟨y, h1, by rw [h2], by rw [h2]; exact hp, h3, h4⟩

theorem moveOrderPlainX_eq {dims moms : List δ} (hl : moms.length ≤ dims.length)
    {axis dest : Option AxesArg} {dim destDim : Option (Option (List δ))} {s t : List ℕ}
    (hs : PickedAxes dims moms axis dim s) (ht : PickedAxes dims moms dest destDim t) (allowMom : Bool)
    (hm : allowMom = true ∨ NoMomentAt dims moms (s ++ t)) :
    moveOrderPlainX dims moms axis dest dim destDim allowMom = moveaxisCore dims.length s t := by
  obtain ⟨ds, e1⟩ := (selectAxesDims_eq hl hs allowMom).1
    (hm.imp_right fun h p hp => h p (List.mem_append_left _ hp))
  obtain ⟨dt, e2⟩ := (selectAxesDims_eq hl ht allowMom).1
    (hm.imp_right fun h p hp => h p (List.mem_append_right _ hp))
  unfold moveOrderPlainX
  rw [e1, Except.bind, e2]
  rfl

theorem moveOrderPlainX_refused {dims moms : List δ} (hl : moms.length ≤ dims.length)
    {axis dest : Option AxesArg} {dim destDim : Option (Option (List δ))} {s t : List ℕ}
    (hs : PickedAxes dims moms axis dim s) (ht : PickedAxes dims moms dest destDim t)
    (hm : ¬ NoMomentAt dims moms (s ++ t)) :
    moveOrderPlainX dims moms axis dest dim destDim false = .error .valueError := by
  unfold moveOrderPlainX
  by_cases h1 : NoMomentAt dims moms s
  · obtain ⟨ds, e1⟩ := (selectAxesDims_eq hl hs false).1 (.inr h1)
    rw [e1, Except.bind, (selectAxesDims_eq hl ht false).2 rfl]
    · rfl
    · intro h2
      refine hm fun p hp => ?_
      rcases List.mem_append.1 hp with h | h
      · exact h1 p h
      · exact h2 p h
  · rw [(selectAxesDims_eq hl hs false).2 rfl h1]
    rfl

theorem moveOrderX_end {dims moms : List δ} (hd : dims.Nodup) (hmn : moms.Nodup)
    (hmp : ∀ d ∈ moms, d ∈ dims) {axis : Option AxesArg} {dim : Option (Option (List δ))} {s : List ℕ}
    (hs : PickedAxes dims moms axis dim s ∨ (axis = none ∧ dim = none ∧ s = []))
    (hsn : s.Nodup) (hm : NoMomentAt dims moms s) (dest : Option AxesArg)
    (destDim : Option (Option (List δ))) (allowMom : Bool) :
    moveOrderX dims moms axis dest dim destDim allowMom true
      = .ok (keptAxes dims.length (s ++ moms.map dims.idxOf) ++ (s ++ moms.map dims.idxOf)) := by
  have hl : moms.length ≤ dims.length := (List.subperm_of_subset hmn hmp).length_le
  have hmi : (moms.map dims.idxOf).Nodup :=
    hmn.map_on fun a ha b hb hab => (List.idxOf_inj (hmp a ha)).1 hab
  have hslt : ∀ a ∈ s, a < dims.length := by
    rcases hs with hs | ⟨_, _, rfl⟩
    · exact pickedAxes_lt hs
    · simp
  have hnd : (s ++ moms.map dims.idxOf).Nodup := by
    refine List.nodup_append.2 ⟨hsn, hmi, ?_⟩
    rintro a ha b hb rfl
    obtain ⟨d, hd', rfl⟩ := List.mem_map.1 hb
    exact hm _ ha d ((idxOf_getElem?_iff (hmp d hd')).2 rfl) hd'
  have hlt : ∀ a ∈ s ++ moms.map dims.idxOf, a < dims.length := by
    intro a ha
    rcases List.mem_append.1 ha with h | h
    · exact hslt a h
    · obtain ⟨d, hd', rfl⟩ := List.mem_map.1 h
      exact List.idxOf_lt_length_iff.2 (hmp d hd')
  have hle : s.length + moms.length ≤ dims.length := by
    have := length_le_of_nodup hnd hlt
    simpa using this
  have h3 : PickedAxes dims moms
      (some (.many ((s ++ moms.map dims.idxOf).map (fun a : ℕ => AxisArg.int a)))) none
      (s ++ moms.map dims.idxOf) := .inr (.inr ⟨rfl, _, rfl, forall2_names_int hlt, hnd⟩)
  have h4 : PickedAxes dims moms (some (.many ((List.range s.length).map
        (fun j : ℕ => AxisArg.complex 0 (-(s.length : ℚ) + j)) ++
      (Select.axesLast moms.length).map .int))) none
      ((List.range (s.length + moms.length)).map
        (fun j => dims.length - (s.length + moms.length) + j)) := by
    refine .inr (.inr ⟨rfl, _, rfl, ?_, Cmomy.Nd.nodup_shift _ _⟩)
    rw [← range_join hle]
    exact List.rel_append (ends_names hle) (last_names (by omega))
  have e5 := moveaxisCore_end hnd hlt
  rw [List.length_append, List.length_map] at e5
  have hrun : moveOrderPlainX dims moms _ _ none none true = _ :=
    (moveOrderPlainX_eq hl h3 h4 true (.inl rfl)).trans e5
  unfold moveOrderX
  rw [if_pos rfl]
  rcases hs with hs | ⟨rfl, rfl, rfl⟩
  · obtain ⟨ds, e1⟩ := (selectAxesDims_eq hl hs false).1 (.inr hm)
    rw [if_pos, e1]
    · exact hrun
    · rcases hs with ⟨_, ds, rfl, _⟩ | ⟨_, rfl, _⟩ | ⟨_, a, rfl, _⟩ <;> simp
  · rw [if_neg (by simp)]
    exact hrun

/-! ## Joining -/

omit [DecidableEq δ] in
theorem startNamed_eq (arrays : List (DataArray δ α)) (dim : δ) (k : ℕ) :
    startNamed arrays dim k = ((arrays.map (fun a => a.size dim)).take k).sum := by
  rw [startNamed, List.map_take]

theorem xrConcat_joins {arrays : List (DataArray δ α)} {first : DataArray δ α} {dim : δ}
    (h : Joinable arrays first dim) (hd : dim ∈ first.dims) :
    ∃ out, xrConcat arrays dim = .ok out ∧ JoinedNamed out arrays first.dims dim ∧
      out.dims = first.dims ∧ ∀ c, entry out c =
        let p := findPart (arrays.map (fun a => a.size dim)) (c dim)
        entry (arrays.getD p.1 first) (Function.update c dim p.2) := by
  cases arrays with
  | nil => simpa using h.head
  | cons a as =>
    obtain rfl : a = first := by simpa using h.head
    set arrays := a :: as with harr
    have hall : ∀ k, (arrays.getD k a).dims.Perm a.dims := by
      intro k
      by_cases hk : k < arrays.length
      · rw [List.getD_eq_getElem _ _ hk]
        exact h.perm _ (List.getElem_mem hk)
      · rw [List.getD_eq_default _ _ (by omega)]
    have hrun : xrConcat arrays dim = .ok ⟨⟨a.dims, fun idx =>
        let p := findPart (arrays.map (fun b => b.size dim)) (idx.getD (a.dims.idxOf dim) 0)
        (arrays.getD p.1 a).data ((arrays.getD p.1 a).dims.map (fun d =>
          if d = dim then p.2 else idx.getD (a.dims.idxOf d) 0))⟩,
        fun d => if d = dim then (arrays.map (fun b => b.size dim)).sum else a.size d⟩ := by
      rw [harr]
      simp only [xrConcat]
      rw [if_neg, if_neg]
      · simp only [if_pos hd]
      · rintro ⟨b, hb, d, hd', hne, hsz⟩
        exact hsz (h.size b hb d hd' hne)
      · rintro ⟨b, hb, hbad⟩
        have hp := h.perm b hb
        rcases hbad with hbad | hbad
        · exact hbad (hp.nodup_iff.2 h.distinct)
        · exact hbad hp
    have hent : ∀ c, entry (⟨⟨a.dims, fun idx =>
        let p := findPart (arrays.map (fun b => b.size dim)) (idx.getD (a.dims.idxOf dim) 0)
        (arrays.getD p.1 a).data ((arrays.getD p.1 a).dims.map (fun d =>
          if d = dim then p.2 else idx.getD (a.dims.idxOf d) 0))⟩,
        fun d => if d = dim then (arrays.map (fun b => b.size dim)).sum else a.size d⟩ : DataArray δ α) c =
        let p := findPart (arrays.map (fun b => b.size dim)) (c dim)
        entry (arrays.getD p.1 a) (Function.update c dim p.2) := by
      intro c
      have hg : ∀ d ∈ a.dims, (a.dims.map c).getD (a.dims.idxOf d) 0 = c d := by
        intro d hd'
        have hi := List.idxOf_lt_length_iff.2 hd'
        rw [List.getD_eq_getElem _ _ (by simpa using hi), List.getElem_map, List.getElem_idxOf]
      simp only [entry]
      rw [hg dim hd]
      congr 1
      refine List.map_congr_left fun d hd' => ?_
      by_cases e : d = dim
      · subst e
        simp
      · rw [if_neg e, Function.update_of_ne e, hg d ((hall _).mem_iff.1 hd')]
    refine ⟨_, hrun, ⟨rfl, ?_, ?_, ?_⟩, rfl, hent⟩
    · show (if dim = dim then _ else _) = _
      rw [if_pos rfl, startNamed_eq, List.take_of_length_le (by simp)]
    · intro b hb d hd' hne
      show (if d = dim then _ else _) = _
      rw [if_neg hne]
      exact (h.size b hb d hd' hne).symm
    · intro k b hk c hc
      obtain ⟨hk', rfl⟩ := List.getElem?_eq_some_iff.1 hk
      rw [hent]
      simp only [Function.update_self, Function.update_idem]
      rw [startNamed_eq, findPart_eq _ k _ (by simpa using hk') (by simpa using hc)]
      simp only
      rw [List.getD_eq_getElem _ _ hk', Function.update_eq_self]

theorem sum_ones (n : ℕ) : (List.replicate n 1).sum = n := by simp

theorem findPart_ones {n k : ℕ} (hk : k < n) : findPart (List.replicate n 1) k = (k, 0) := by
  have := findPart_eq (List.replicate n 1) k 0 (by simpa using hk) (by simp)
  simpa [List.take_replicate, Nat.min_eq_left (le_of_lt hk)] using this

theorem xrConcat_stacks {arrays : List (DataArray δ α)} {first : DataArray δ α} {dim : δ}
    (h : Joinable arrays first dim) (hd : dim ∉ first.dims) :
    ∃ out, xrConcat arrays dim = .ok out ∧ StackedNamed out arrays first.dims dim := by
  cases arrays with
  | nil => simpa using h.head
  | cons a as =>
    obtain rfl : a = first := by simpa using h.head
    set arrays := a :: as with harr
    have hones : arrays.map (fun _ => 1) = List.replicate arrays.length 1 := by
      simp [List.map_const']
    have hrun : xrConcat arrays dim = .ok ⟨⟨dim :: a.dims, fun idx =>
        let p := findPart (arrays.map (fun _ => 1)) (idx.getD ((dim :: a.dims).idxOf dim) 0)
        (arrays.getD p.1 a).data ((arrays.getD p.1 a).dims.map (fun d =>
          if d = dim then p.2 else idx.getD ((dim :: a.dims).idxOf d) 0))⟩,
        fun d => if d = dim then (arrays.map (fun _ => 1)).sum else a.size d⟩ := by
      rw [harr]
      simp only [xrConcat]
      rw [if_neg, if_neg]
      · simp only [if_neg hd]
      · rintro ⟨b, hb, d, hd', hne, hsz⟩
        exact hsz (h.size b hb d hd' hne)
      · rintro ⟨b, hb, hbad⟩
        have hp := h.perm b hb
        rcases hbad with hbad | hbad
        · exact hbad (hp.nodup_iff.2 h.distinct)
        · exact hbad hp
    refine ⟨_, hrun, rfl, ?_, ?_, ?_⟩
    · show (if dim = dim then _ else _) = _
      rw [if_pos rfl, hones, sum_ones]
    · intro b hb d hd'
      show (if d = dim then _ else _) = _
      have hne : d ≠ dim := fun e => hd (e ▸ hd')
      rw [if_neg hne]
      exact (h.size b hb d hd' hne).symm
    · intro k b hk c hc
      obtain ⟨hk', rfl⟩ := List.getElem?_eq_some_iff.1 hk
      simp only [entry]
      rw [hones]
      have e0 : ((dim :: a.dims).map c).getD ((dim :: a.dims).idxOf dim) 0 = k := by simp [hc]
      rw [e0, findPart_ones hk']
      simp only
      rw [List.getD_eq_getElem _ _ hk']
      congr 1
      refine List.map_congr_left fun d hd' => ?_
      have hda : d ∈ a.dims := (h.perm _ (List.getElem_mem hk')).mem_iff.1 hd'
      have hne : d ≠ dim := fun e => hd (e ▸ hda)
      have hmem : d ∈ dim :: a.dims := List.mem_cons_of_mem _ hda
      have hi := List.idxOf_lt_length_iff.2 hmem
      rw [if_neg hne, List.getD_eq_getElem _ _ (by simpa using hi), List.getElem_map, List.getElem_idxOf]

end Cmomy.Labelled
