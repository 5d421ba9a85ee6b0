import Verif.Lemmas.LabelledStats
import Verif.Props.ObjectStats
import Verif.Props.LabelledCollect

/-!
# C67: the statistics of labelled objects

An object is its labelled array with the names of its moment dimensions. `selection name squeeze sizes`
lists which moments a name stands for, and `selNames` names the dimensions they are shown along.
-/

set_option linter.unusedSectionVars false

namespace Cmomy

open Spec Axes Labelled Convert
open Nd (core1 core2 core1_ok core2_ok family1 family2)

section Select

variable {δ : Type} [DecidableEq δ] {α : Type} {obj : DataArray δ α} {moms : List δ}

/-- **C67** `select_moment("all")` is the array itself. -/
theorem C67_select_all (moms : List δ) (obj : DataArray δ α) (sq : Bool) (combined : δ)
    (ncoords : Option ℕ) : selectMomentX moms obj "all" sq combined ncoords = .ok obj := rfl

/-- **C67** `select_moment(name)` of a labelled object: the dimensions that are not moment dimensions come
first, in their order and with their sizes, then those the name brings with it, and at each coordinate stands
the moment that the name means, whatever the order in which the object stores its dimensions. The name of the
dimension for the variables, when it is needed, must be new. -/
theorem C67_select (g : MomentObject obj moms) {name : String} (hn : name ≠ "all") {sq : Bool}
    (hs : Selectable name sq (moms.map obj.size)) {combined : δ}
    (hf : combined ∈ selNames moms name sq (some combined) → combined ∉ obj.dims) {ncoords : Option ℕ} (hc : ncoords = none ∨ ncoords = some moms.length) :
    ∃ out, selectMomentX moms obj name sq combined ncoords = .ok out ∧
      out.dims = valDims obj moms ++ selNames moms name sq (some combined) ∧
      (∀ d ∈ valDims obj moms, out.size d = obj.size d) ∧
      (selNames moms name sq (some combined)).map out.size = selShape name sq (moms.map obj.size) ∧
      ∀ p ∈ selection name sq (moms.map obj.size), ∀ c,
        entry out (withNames (selNames moms name sq (some combined)) p.1 c)
          = entry obj (withNames moms p.2 c) :=
  selectMomentX_ok g hn hs hf (by rcases hc with rfl | rfl <;> rfl)

/-- **C67** `select_moment` refuses a name it does not know with `ValueError`, and with `IndexError` a name
for moments that the object does not have. -/
theorem C67_select_missing (g : MomentObject obj moms) (name : String) (sq : Bool) {combined : δ}
    (hf : combined ∉ valDims obj moms) {ncoords : Option ℕ}
    (hc : ncoords = none ∨ ncoords = some moms.length) :
    (name ∉ knownNames moms.length →
      selectMomentX moms obj name sq combined ncoords = .error .valueError) ∧
    (name ∈ knownNames moms.length → name ≠ "all" → ¬ Selectable name sq (moms.map obj.size) →
      selectMomentX moms obj name sq combined ncoords = .error .indexError) :=
  selectMomentX_fails g hf (by rcases hc with rfl | rfl <;> rfl)

/-- **C67** When the result has a dimension for the variables, a name for it which another dimension of the
object has is refused with `ValueError`. -/
theorem C67_select_name_in_use (g : MomentObject obj moms) {name : String} {sq : Bool} {combined : δ}
    (hf : combined ∈ valDims obj moms) (hs : combined ∈ selNames moms name sq (some combined))
    (ncoords : Option ℕ) :
    selectMomentX moms obj name sq combined ncoords = .error .valueError :=
  selectMomentX_in_use g hf hs

/-- **C67** So is a number of coordinates for it other than the number of variables. -/
theorem C67_select_coords {name : String} {sq : Bool} {combined : δ} (hm : combined ∉ moms)
    (hs : combined ∈ selNames moms name sq (some combined)) {n : ℕ} (hn : n ≠ moms.length) :
    selectMomentX moms obj name sq combined (some n) = .error .valueError := by
  obtain ⟨h1, h2, -, -⟩ := perVariable_of_names hm hs
  unfold selectMomentX
  rw [if_neg h2, if_pos ⟨h1, hn⟩]

end Select

section Assign

variable {δ : Type} [DecidableEq δ] {K : Type} [Field K] [DecidableEq K] {obj : DataArray δ K}
  {moms : List δ}

/-- **C67** `assign_moment(name=value, ...)` of a labelled object: the moments meant by each name are replaced,
in order, labelled values being matched by the names of their dimensions and others by position; nothing
else changes. In the result the moment dimensions come last. With `copy` the object stays as it was; without,
the object itself shows the same, its dimensions in the order they had. -/
theorem C67_assign (g : MomentObject obj moms) {sq : Bool} {combined : Option δ}
    (hf : ∀ x ∈ combined, x ∉ obj.dims) {values : List (String × Operand δ K)}
    (hv : ∀ v ∈ values, GoodValue obj moms sq combined v) (copy : Bool) :
    ∃ after out, assignMomentX moms obj values sq combined copy = (after, .ok out) ∧
      ShowsNamed out (valDims obj moms ++ moms) obj.size (assignedAt obj moms sq combined values) ∧
      ShowsNamed after obj.dims obj.size
        (if copy then entry obj else assignedAt obj moms sq combined values) :=
  assignMomentX_ok g hf hv copy

/-- **C67** `assign_moment` refuses with `ValueError` a labelled value which has a dimension of the object with
another size, lacks a dimension that belongs to the moments named, or has a moment dimension that does not.
Nothing is assigned, not even the values before it. -/
theorem C67_assign_mismatch {values : List (String × Operand δ K)} {sq : Bool} {combined : Option δ}
    {name : String} {y : DataArray δ K} (hk : name ∈ knownNames moms.length)
    (hv : (name, .named y) ∈ values)
    (h : (∃ d ∈ y.dims, d ∈ obj.dims ∧ y.size d ≠ obj.size d) ∨
      (∃ d ∈ selNames moms name sq combined, d ∉ y.dims) ∨
      ∃ d ∈ y.dims, d ∈ moms ∧ d ∉ selNames moms name sq combined) (copy : Bool) :
    assignMomentX moms obj values sq combined copy = (obj, .error .valueError) :=
  assignMomentX_refused hk hv h copy

/-- **C67** It refuses an unknown name, or a plain value of a shape that does not fit, with `ValueError` and a
name for moments the object does not have with `IndexError`; the object stays as it was. -/
theorem C67_assign_refused (g : MomentObject obj moms) (name : String) (sq : Bool) {combined : Option δ}
    (hf : ∀ x ∈ combined, x ∉ obj.dims) {a : Nd.Arr K} (ha : a.Proper) (copy : Bool) :
    ∃ after, ShowsNamed after obj.dims obj.size (entry obj) ∧
    (name ∉ knownNames moms.length →
      assignMomentX moms obj [(name, .plain a)] sq combined copy = (after, .error .valueError)) ∧
    (name ∈ knownNames moms.length → ¬ Selectable name sq (moms.map obj.size) →
      assignMomentX moms obj [(name, .plain a)] sq combined copy = (after, .error .indexError)) ∧
    (Selectable name sq (moms.map obj.size) →
      ¬ Broadcasts a.shape ((valDims obj moms).map obj.size ++ selShape name sq (moms.map obj.size)) →
      assignMomentX moms obj [(name, .plain a)] sq combined copy = (after, .error .valueError)) :=
  assignMomentX_fails g hf ha copy

/-- What assigning a weight does. -/
theorem weight_assigned (g : MomentObject obj moms) {v : Operand δ K}
    (hv : GoodValue obj moms true none ("weight", v)) (copy : Bool) :
    ∃ after out, assignMomentX moms obj [("weight", v)] true none copy = (after, .ok out) ∧
      ShowsNamed out (valDims obj moms ++ moms) obj.size (fun c =>
        if ∀ d ∈ moms, c d = 0 then shownBy (valDims obj moms) [] c [] v else entry obj c) ∧
      ShowsNamed after obj.dims obj.size (fun c => if copy = false ∧ ∀ d ∈ moms, c d = 0 then
        shownBy (valDims obj moms) [] c [] v else entry obj c) := by
  obtain ⟨after, out, h1, h2, h3⟩ := assignMomentX_ok g (combined := none) (by simp)
    (values := [("weight", v)]) (by simpa using hv) copy
  have e : assignedAt obj moms true none [("weight", v)] = fun c =>
      if ∀ d ∈ moms, c d = 0 then shownBy (valDims obj moms) [] c [] v else entry obj c := by
    funext c
    rcases hm : moms with _ | ⟨a, _ | ⟨b, _ | ⟨d, l⟩⟩⟩
    · have := g.count; rw [hm] at this; simp at this
    · by_cases h : c a = 0 <;>
        simp [assignedAt, selection, selection1, selNames, h, eq_comm]
    · by_cases h : c a = 0 <;> by_cases h' : c b = 0 <;>
        simp [assignedAt, selection, selection2, selNames, h, h', eq_comm]
    · have := g.count; rw [hm] at this; simp at this
  rw [e] at h2 h3
  refine ⟨after, out, h1, h2, h3.dims_eq, h3.size_eq, fun c hc => ?_⟩
  rw [h3.entry_eq c hc]
  cases copy <;> simp

end Assign

section Stats

variable {δ : Type} [DecidableEq δ] {α : Type} {obj : DataArray δ α} {moms : List δ}

theorem withNames_self {names : List δ} (c : δ → ℕ) : withNames names (names.map c) c = c := by
  funext d
  unfold withNames
  split_ifs with h
  · have hi := List.idxOf_lt_length_iff.2 h
    rw [List.getD_eq_getElem _ _ (by simpa using hi), List.getElem_map, List.getElem_idxOf]
  · rfl

theorem Spec.MomentObject.cases (g : MomentObject obj moms) :
    (∃ a, moms = [a] ∧ 2 ≤ obj.size a) ∨
      ∃ a b, moms = [a, b] ∧ 2 ≤ obj.size a ∧ 2 ≤ obj.size b := by
  have hc := g.count
  have ho := g.orders
  rcases moms with _ | ⟨s, _ | ⟨t, _ | ⟨u, l⟩⟩⟩
  · simp at hc
  · exact .inl ⟨s, rfl, ho s (by simp)⟩
  · exact .inr ⟨s, t, rfl, ho s (by simp), ho t (by simp)⟩
  · simp at hc

theorem Spec.MomentObject.weight_selectable (g : MomentObject obj moms) :
    Selectable "weight" true (moms.map obj.size) := by
  rcases g.cases with ⟨s, rfl, hs⟩ | ⟨s, t, rfl, hs, ht⟩
  · refine ⟨by simp [knownNames], ?_⟩
    simp [selection, selection1, Within]
    omega
  · refine ⟨by simp [knownNames], ?_⟩
    simp [selection, selection2, Within]
    omega

theorem Spec.MomentObject.ave_selectable (g : MomentObject obj moms) (sq : Bool) :
    Selectable "ave" sq (moms.map obj.size) := by
  rcases g.cases with ⟨s, rfl, hs⟩ | ⟨s, t, rfl, hs, ht⟩
  · refine ⟨by simp [knownNames], ?_⟩
    simp [selection, selection1, Within]
    omega
  · refine ⟨by simp [knownNames], ?_⟩
    simp [selection, selection2, Within]
    omega

/-- A selection without coordinates of its own. -/
theorem Spec.MomentObject.selectOne (g : MomentObject obj moms) {name : String} (hn : name ≠ "all")
    {sq : Bool} (hs : Selectable name sq (moms.map obj.size)) {vn : δ}
    (h0 : selNames moms name sq (some vn) = []) {l : List ℕ}
    (hl : ([], l) ∈ selection name sq (moms.map obj.size)) :
    ∃ out, selectMomentX moms obj name sq vn none = .ok out ∧
      ShowsNamed out (valDims obj moms) obj.size (fun c => entry obj (withNames moms l c)) := by
  obtain ⟨out, h1, h2, h3, -, h5⟩ := C67_select g hn hs (combined := vn) (by simp [h0]) (.inl rfl)
  rw [h0, List.append_nil] at h2
  refine ⟨out, h1, h2, h3, fun c _ => ?_⟩
  have := h5 _ hl c
  rw [h0] at this
  rw [← this]
  congr 1

/-- A selection with one coordinate per variable. -/
theorem Spec.MomentObject.selectPer (g : MomentObject obj moms) {name : String} (hn : name ≠ "all")
    {sq : Bool} (hs : Selectable name sq (moms.map obj.size)) {vn : δ} (hf : vn ∉ obj.dims)
    (h0 : selNames moms name sq (some vn) = [vn])
    (h1 : selShape name sq (moms.map obj.size) = [moms.length]) {l : ℕ → List ℕ}
    (hl : ∀ v < moms.length, ([v], l v) ∈ selection name sq (moms.map obj.size)) :
    ∃ out, selectMomentX moms obj name sq vn none = .ok out ∧
      ShowsNamed out (valDims obj moms ++ [vn]) (Function.update obj.size vn moms.length)
        (fun c => entry obj (withNames moms (l (c vn)) c)) := by
  obtain ⟨out, e1, e2, e3, e4, e5⟩ := C67_select g hn hs (combined := vn) (fun _ => hf) (.inl rfl)
  rw [h0] at e2 e4 e5
  rw [h1] at e4
  refine ⟨out, e1, e2, fun d hd => ?_, fun c hc => ?_⟩
  · rcases List.mem_append.1 hd with h | h
    · rw [e3 d h, Function.update_of_ne]
      rintro rfl
      exact hf (mem_valDims.1 h).1
    · rw [List.mem_singleton.1 h]
      simpa using e4
  · have hv := hc vn (by simp)
    rw [Function.update_self] at hv
    rw [← e5 _ (hl _ hv) c]
    congr 1
    exact (withNames_self (names := [vn]) c).symm

end Stats

section Samples

variable {δ : Type} [DecidableEq δ] {K : Type} [Field K] [DecidableEq K] [CharZero K]
  {obj : DataArray δ K} {mom mom0 mom1 : δ} {order o0 o1 : ℕ}

/-- **C67** An object that stands for samples with a weight other than zero holds their moments. -/
theorem C67_from_samples {L : (δ → ℕ) → List (Sample K)} (ho : 1 ≤ order)
    (h : StandsNamed core1 (Holds order) obj [mom] L) (hs : obj.size mom = order + 1)
    (hw : ∀ c, InLabelled obj [mom] c → weight (L c) ≠ 0) : MomentsNamed obj mom order L := by
  refine ⟨h.object, hs, ho, hw, fun c hc => ?_⟩
  rcases h.holds c hc with h1 | h1
  · exact h1.2
  · exact absurd (by simpa [wsum, weight] using h1.2 0 (by omega)) (hw c hc)

/-- **C67** The same for pairs. -/
theorem C67_from_samples_cov {L : (δ → ℕ) → List (Sample2 K)} (h0 : 1 ≤ o0) (h1 : 1 ≤ o1)
    (h : StandsNamed core2 (Holds2 o0 o1) obj [mom0, mom1] L) (hs0 : obj.size mom0 = o0 + 1)
    (hs1 : obj.size mom1 = o1 + 1) (hw : ∀ c, InLabelled obj [mom0, mom1] c → weight2 (L c) ≠ 0) :
    ComomentsNamed obj mom0 mom1 o0 o1 L := by
  refine ⟨h.object, hs0, hs1, h0, h1, hw, fun c hc => ?_⟩
  rcases h.holds c hc with e | e
  · exact e.2
  · exact absurd (by simpa [wsum2, weight2] using e.2 0 0 (by omega) (by omega)) (hw c hc)

theorem Spec.MomentsNamed.momentObject {L : (δ → ℕ) → List (Sample K)}
    (h : MomentsNamed obj mom order L) : MomentObject obj [mom] :=
  ⟨h.object, .inl rfl, by have := h.size; have := h.positive; simp; omega⟩

theorem Spec.ComomentsNamed.momentObject {L : (δ → ℕ) → List (Sample2 K)}
    (h : ComomentsNamed obj mom0 mom1 o0 o1 L) : MomentObject obj [mom0, mom1] :=
  ⟨h.object, .inr rfl, by
    have := h.size0; have := h.positive0; have := h.size1; have := h.positive1; simp; omega⟩

theorem inLabelled_of {α : Type} {obj : DataArray δ α} {moms : List δ} {l : List δ} {s : δ → ℕ}
    {c : δ → ℕ} (hc : ∀ d ∈ valDims obj moms ++ l, c d < s d)
    (hs : ∀ d ∈ valDims obj moms, s d = obj.size d) : InLabelled obj moms c := fun d hd => by
  rw [← hs d hd]
  exact hc d (List.mem_append_left _ hd)

/-- **C67** `weight()` and `mean()` of an object over samples of one variable. -/
theorem C67_weight_mean {L : (δ → ℕ) → List (Sample K)} (h : MomentsNamed obj mom order L) (vn : δ) :
    (∃ out, weightNamed [mom] vn obj = .ok out ∧
      ShowsNamed out (valDims obj [mom]) obj.size (fun c => weight (L c))) ∧
    ∃ out, meanNamed [mom] vn obj true = .ok out ∧
      ShowsNamed out (valDims obj [mom]) obj.size (fun c => mean (L c)) := by
  have g := h.momentObject
  refine ⟨?_, ?_⟩
  · obtain ⟨out, h1, h2⟩ := g.selectOne (by decide) g.weight_selectable (vn := vn)
      (by simp [selNames]) (l := [0]) (by simp [selection, selection1])
    exact ⟨out, h1, h2.dims_eq, h2.size_eq, fun c hc =>
      (h2.entry_eq c hc).trans (h.moments c hc).weight⟩
  · obtain ⟨out, h1, h2⟩ := g.selectOne (by decide) (g.ave_selectable true) (vn := vn)
      (by simp [selNames]) (l := [1]) (by simp [selection, selection1])
    exact ⟨out, h1, h2.dims_eq, h2.size_eq, fun c hc =>
      (h2.entry_eq c hc).trans (h.moments c hc).mean⟩

/-- **C67** `mean(squeeze=False)` has a further dimension, with one place. -/
theorem C67_mean_kept {L : (δ → ℕ) → List (Sample K)} (h : MomentsNamed obj mom order L) {vn : δ}
    (hv : vn ∉ obj.dims) :
    ∃ out, meanNamed [mom] vn obj false = .ok out ∧
      ShowsNamed out (valDims obj [mom] ++ [vn]) (Function.update obj.size vn 1)
        (fun c => mean (L c)) := by
  have g := h.momentObject
  obtain ⟨out, h1, h2⟩ := g.selectPer (by decide) (g.ave_selectable false) hv
    (by simp [selNames]) (by simp [selShape]) (l := fun _ => [1])
    (by simp [selection, selection1])
  refine ⟨out, h1, h2.dims_eq, h2.size_eq, fun c hc =>
    (h2.entry_eq c hc).trans (h.moments c (inLabelled_of hc fun d hd => ?_)).mean⟩
  rw [Function.update_of_ne]
  rintro rfl
  exact hv (mem_valDims.1 hd).1

theorem var_selectable {L : (δ → ℕ) → List (Sample K)} (h : MomentsNamed obj mom order L)
    (ho : 2 ≤ order) (sq : Bool) : Selectable "var" sq ([mom].map obj.size) ∧
      Selectable "cov" sq ([mom].map obj.size) := by
  have := h.size
  constructor
  · refine ⟨by simp [knownNames], ?_⟩
    simp [selection, selection1, Within]; omega
  · refine ⟨by simp [knownNames], ?_⟩
    simp [selection, selection1, Within]; omega

/-- **C67** `var()`, `cov()` and `std()` for orders from two; for one variable the covariance is the
variance. -/
theorem C67_var {L : (δ → ℕ) → List (Sample K)} (h : MomentsNamed obj mom order L) (ho : 2 ≤ order)
    (vn : δ) (sqrt : K → K) :
    (∃ out, varNamed [mom] vn obj true = .ok out ∧
      ShowsNamed out (valDims obj [mom]) obj.size (fun c => central (L c) 2)) ∧
    (∃ out, covNamed [mom] vn obj = .ok out ∧
      ShowsNamed out (valDims obj [mom]) obj.size (fun c => central (L c) 2)) ∧
    ∃ out, stdNamed sqrt [mom] vn obj true = .ok out ∧
      ShowsNamed out (valDims obj [mom]) obj.size (fun c => sqrt (central (L c) 2)) := by
  have g := h.momentObject
  obtain ⟨v, h1, h2⟩ := g.selectOne (by decide) (var_selectable h ho true).1 (vn := vn)
    (by simp [selNames]) (l := [2]) (by simp [selection, selection1])
  have hv : ShowsNamed v (valDims obj [mom]) obj.size (fun c => central (L c) 2) :=
    ⟨h2.dims_eq, h2.size_eq, fun c hc =>
      (h2.entry_eq c hc).trans ((h.moments c hc).central 2 le_rfl ho)⟩
  refine ⟨⟨v, h1, hv⟩, ?_, v.mapEntries sqrt, ?_, hv.dims_eq, hv.size_eq, fun c hc => ?_⟩
  · obtain ⟨out, h1, h2⟩ := g.selectOne (by decide) (var_selectable h ho true).2 (vn := vn)
      (by simp [selNames]) (l := [2]) (by simp [selection, selection1])
    exact ⟨out, h1, h2.dims_eq, h2.size_eq, fun c hc =>
      (h2.entry_eq c hc).trans ((h.moments c hc).central 2 le_rfl ho)⟩
  · unfold stdNamed varNamed
    rw [h1]
    rfl
  · rw [← hv.entry_eq c hc]
    rfl

/-- **C67** `var(squeeze=False)` and `std(squeeze=False)`. -/
theorem C67_var_kept {L : (δ → ℕ) → List (Sample K)} (h : MomentsNamed obj mom order L)
    (ho : 2 ≤ order) {vn : δ} (hv : vn ∉ obj.dims) (sqrt : K → K) :
    (∃ out, varNamed [mom] vn obj false = .ok out ∧
      ShowsNamed out (valDims obj [mom] ++ [vn]) (Function.update obj.size vn 1)
        (fun c => central (L c) 2)) ∧
    ∃ out, stdNamed sqrt [mom] vn obj false = .ok out ∧
      ShowsNamed out (valDims obj [mom] ++ [vn]) (Function.update obj.size vn 1)
        (fun c => sqrt (central (L c) 2)) := by
  have g := h.momentObject
  obtain ⟨v, h1, h2⟩ := g.selectPer (by decide) (var_selectable h ho false).1 hv
    (by simp [selNames]) (by simp [selShape]) (l := fun _ => [2])
    (by simp [selection, selection1])
  have hs : ShowsNamed v (valDims obj [mom] ++ [vn]) (Function.update obj.size vn 1)
      (fun c => central (L c) 2) := by
    refine ⟨h2.dims_eq, h2.size_eq, fun c hc => (h2.entry_eq c hc).trans
      ((h.moments c (inLabelled_of hc fun d hd => ?_)).central 2 le_rfl ho)⟩
    rw [Function.update_of_ne]
    rintro rfl
    exact hv (mem_valDims.1 hd).1
  refine ⟨⟨v, h1, hs⟩, v.mapEntries sqrt, ?_, hs.dims_eq, hs.size_eq, fun c hc => ?_⟩
  · unfold stdNamed varNamed
    rw [h1]
    rfl
  · rw [← hs.entry_eq c hc]
    rfl

/-- **C67** With order one there is no variance: `var`, `cov` and `std` raise `IndexError`. -/
theorem C67_var_missing {α : Type} {obj : DataArray δ α} (g : MomentObject obj [mom])
    (h : obj.size mom = 2) {vn : δ} (hv : vn ∉ obj.dims) (sq : Bool) (sqrt : α → α) :
    varNamed [mom] vn obj sq = .error .indexError ∧ covNamed [mom] vn obj = .error .indexError ∧
      stdNamed sqrt [mom] vn obj sq = .error .indexError := by
  have hf : vn ∉ valDims obj [mom] := fun h => hv (mem_valDims.1 h).1
  have h1 : varNamed [mom] vn obj sq = .error .indexError := by
    refine (C67_select_missing g "var" sq hf (.inl rfl)).2 (by simp [knownNames]) (by decide)
      fun hs => ?_
    have := hs.2 (if sq then [] else [0], [2]) (by simp [selection, selection1])
    simp [Within, h] at this
  refine ⟨h1, ?_, by unfold stdNamed; rw [h1]; rfl⟩
  refine (C67_select_missing g "cov" true hf (.inl rfl)).2 (by simp [knownNames]) (by decide)
    fun hs => ?_
  have := hs.2 ([], [2]) (by simp [selection, selection1])
  simp [Within, h] at this

/-- **C67** The statistics for two variables: the weight, the covariance, and the means along a further
dimension of two places. -/
theorem C67_stats_cov {L : (δ → ℕ) → List (Sample2 K)} (h : ComomentsNamed obj mom0 mom1 o0 o1 L)
    (vn : δ) :
    (∃ out, weightNamed [mom0, mom1] vn obj = .ok out ∧
      ShowsNamed out (valDims obj [mom0, mom1]) obj.size (fun c => weight2 (L c))) ∧
    (∃ out, covNamed [mom0, mom1] vn obj = .ok out ∧
      ShowsNamed out (valDims obj [mom0, mom1]) obj.size (fun c => central2 (L c) 1 1)) ∧
    (vn ∉ obj.dims → ∀ sq, ∃ out, meanNamed [mom0, mom1] vn obj sq = .ok out ∧
      ShowsNamed out (valDims obj [mom0, mom1] ++ [vn]) (Function.update obj.size vn 2)
        (fun c => if c vn = 0 then meanX (L c) else meanY (L c))) := by
  have g := h.momentObject
  have s0 := h.size0
  have s1 := h.size1
  have p0 := h.positive0
  have p1 := h.positive1
  refine ⟨?_, ?_, fun hv sq => ?_⟩
  · obtain ⟨out, h1, h2⟩ := g.selectOne (by decide) g.weight_selectable (vn := vn)
      (by simp [selNames]) (l := [0, 0]) (by simp [selection, selection2])
    exact ⟨out, h1, h2.dims_eq, h2.size_eq, fun c hc =>
      (h2.entry_eq c hc).trans (h.moments c hc).weight⟩
  · obtain ⟨out, h1, h2⟩ := g.selectOne (name := "cov") (sq := true) (by decide)
      ⟨by simp [knownNames], by simp [selection, selection2, Within]; omega⟩ (vn := vn)
      (by simp [selNames]) (l := [1, 1]) (by simp [selection, selection2])
    exact ⟨out, h1, h2.dims_eq, h2.size_eq, fun c hc =>
      (h2.entry_eq c hc).trans ((h.moments c hc).central 1 1 (by omega) (by omega) le_rfl)⟩
  · obtain ⟨out, h1, h2⟩ := g.selectPer (by decide) (g.ave_selectable sq) hv
      (by simp [selNames]) (by simp [selShape]) (l := fun v => if v = 0 then [1, 0] else [0, 1])
      (by
        intro v hv
        obtain rfl | rfl : v = 0 ∨ v = 1 := by simp at hv; omega
        all_goals simp [selection, selection2])
    refine ⟨out, h1, h2.dims_eq, h2.size_eq, fun c hc => (h2.entry_eq c hc).trans ?_⟩
    have hM := h.moments c (inLabelled_of hc fun d hd => by
      rw [Function.update_of_ne]
      rintro rfl
      exact hv (mem_valDims.1 hd).1)
    split_ifs with e
    · exact hM.meanX
    · exact hM.meanY

/-- **C67** The variances of two variables, for orders from two. -/
theorem C67_var_cov {L : (δ → ℕ) → List (Sample2 K)} (h : ComomentsNamed obj mom0 mom1 o0 o1 L)
    (h0 : 2 ≤ o0) (h1 : 2 ≤ o1) {vn : δ} (hv : vn ∉ obj.dims) (sq : Bool) (sqrt : K → K) :
    (∃ out, varNamed [mom0, mom1] vn obj sq = .ok out ∧
      ShowsNamed out (valDims obj [mom0, mom1] ++ [vn]) (Function.update obj.size vn 2)
        (fun c => if c vn = 0 then central2 (L c) 2 0 else central2 (L c) 0 2)) ∧
    ∃ out, stdNamed sqrt [mom0, mom1] vn obj sq = .ok out ∧
      ShowsNamed out (valDims obj [mom0, mom1] ++ [vn]) (Function.update obj.size vn 2)
        (fun c => sqrt (if c vn = 0 then central2 (L c) 2 0 else central2 (L c) 0 2)) := by
  have g := h.momentObject
  have s0 := h.size0
  have s1 := h.size1
  obtain ⟨v, e1, e2⟩ := g.selectPer (name := "var") (sq := sq) (by decide)
    ⟨by simp [knownNames], by simp [selection, selection2, Within]; omega⟩ hv
    (by simp [selNames]) (by simp [selShape]) (l := fun v => if v = 0 then [2, 0] else [0, 2])
    (by
      intro v hv
      obtain rfl | rfl : v = 0 ∨ v = 1 := by simp at hv; omega
      all_goals simp [selection, selection2])
  have hs : ShowsNamed v (valDims obj [mom0, mom1] ++ [vn]) (Function.update obj.size vn 2)
      (fun c => if c vn = 0 then central2 (L c) 2 0 else central2 (L c) 0 2) := by
    refine ⟨e2.dims_eq, e2.size_eq, fun c hc => (e2.entry_eq c hc).trans ?_⟩
    have hM := h.moments c (inLabelled_of hc fun d hd => by
      rw [Function.update_of_ne]
      rintro rfl
      exact hv (mem_valDims.1 hd).1)
    split_ifs with e
    · exact hM.central 2 0 (by omega) (by omega) (by omega)
    · exact hM.central 0 2 (by omega) (by omega) (by omega)
  refine ⟨⟨v, e1, hs⟩, v.mapEntries sqrt, ?_, hs.dims_eq, hs.size_eq, fun c hc => ?_⟩
  · unfold stdNamed varNamed
    rw [e1]
    rfl
  · rw [← hs.entry_eq c hc]
    rfl

theorem num_good {moms : List δ} {name : String} {sq : Bool} {combined : Option δ}
    (hs : Selectable name sq (moms.map obj.size)) (x : K) :
    GoodValue obj moms sq combined (name, .plain (ObjectStats.num x)) :=
  ⟨hs, num_proper x, num_broadcasts x _⟩

/-- What `cmom()` does. -/
theorem cmom_assigned {moms : List δ} (g : MomentObject obj moms) :
    ∃ out, cmomNamed moms obj = .ok out ∧
      ShowsNamed out (valDims obj moms ++ moms) obj.size
        (assignedAt obj moms true none [("weight", .plain (ObjectStats.num 1)),
          ("ave", .plain (ObjectStats.num 0))]) := by
  obtain ⟨after, out, h1, h2, -⟩ := assignMomentX_ok g (combined := none) (sq := true) (by simp)
    (values := [("weight", .plain (ObjectStats.num 1)), ("ave", .plain (ObjectStats.num 0))])
    (by
      intro v hv
      rcases List.mem_pair.1 hv with rfl | rfl
      · exact num_good g.weight_selectable 1
      · exact num_good (g.ave_selectable true) 0) true
  exact ⟨out, by unfold cmomNamed; rw [h1], h2⟩

theorem inLabelled_all {α : Type} {obj : DataArray δ α} {moms : List δ} {c : δ → ℕ}
    (hc : ∀ d ∈ valDims obj moms ++ moms, c d < obj.size d) : InLabelled obj moms c :=
  fun d hd => hc d (List.mem_append_left _ hd)

/-- **C67** `cmom()` shows the central moments of all orders, the zeroth being one and the first zero; the
moment dimension comes last. -/
theorem C67_cmom {L : (δ → ℕ) → List (Sample K)} (h : MomentsNamed obj mom order L) :
    ∃ out, cmomNamed [mom] obj = .ok out ∧
      ShowsNamed out (valDims obj [mom] ++ [mom]) obj.size (fun c => central (L c) (c mom)) := by
  obtain ⟨out, h1, h2⟩ := cmom_assigned h.momentObject
  refine ⟨out, h1, h2.dims_eq, h2.size_eq, fun c hc => ?_⟩
  rw [h2.entry_eq c hc]
  have hw := h.nonzero c (inLabelled_all hc)
  have hM := h.moments c (inLabelled_all hc)
  have hm := hc mom (by simp)
  rw [h.size] at hm
  generalize hn : c mom = n at hm ⊢
  have hwn : withNames [mom] [n] c = c := by rw [← hn]; exact withNames_self (names := [mom]) c
  rcases n with _ | _ | n
  · simp only [assignedAt, selection, selection1, hn, List.map_cons, List.map_nil]
    exact (central_zero hw).symm
  · simp only [assignedAt, selection, selection1, hn, List.map_cons, List.map_nil]
    exact (central_one hw).symm
  · have := hM.central (n + 2) (by omega) (by omega)
    simp only [hwn] at this
    rw [← this]
    simp [assignedAt, selection, selection1, hn]

/-- **C67** The same for two variables. -/
theorem C67_cmom_cov {L : (δ → ℕ) → List (Sample2 K)} (h : ComomentsNamed obj mom0 mom1 o0 o1 L) :
    ∃ out, cmomNamed [mom0, mom1] obj = .ok out ∧
      ShowsNamed out (valDims obj [mom0, mom1] ++ [mom0, mom1]) obj.size
        (fun c => central2 (L c) (c mom0) (c mom1)) := by
  obtain ⟨out, h1, h2⟩ := cmom_assigned h.momentObject
  refine ⟨out, h1, h2.dims_eq, h2.size_eq, fun c hc => ?_⟩
  rw [h2.entry_eq c hc]
  have hw := h.nonzero c (inLabelled_all hc)
  have hM := h.moments c (inLabelled_all hc)
  have hm0 := hc mom0 (by simp)
  have hm1 := hc mom1 (by simp)
  rw [h.size0] at hm0
  rw [h.size1] at hm1
  have hwn := withNames_self (names := [mom0, mom1]) c
  simp only [List.map_cons, List.map_nil] at hwn
  generalize hn : c mom0 = a at hm0 hwn ⊢
  generalize hn' : c mom1 = b at hm1 hwn ⊢
  by_cases hab : 2 ≤ a + b
  · have := hM.central a b (by omega) (by omega) hab
    simp only [hwn] at this
    rw [← this]
    simp only [assignedAt, selection, selection2, hn, hn', List.map_cons, List.map_nil]
    have e1 : ¬ ([0, 0] = [a, b]) := by simp; omega
    have e2 : ¬ ([1, 0] = [a, b]) := by simp; omega
    have e3 : ¬ ([0, 1] = [a, b]) := by simp; omega
    simp [e1, e2, e3]
  · obtain ⟨rfl, rfl⟩ | ⟨rfl, rfl⟩ | ⟨rfl, rfl⟩ :
        (a = 0 ∧ b = 0) ∨ (a = 1 ∧ b = 0) ∨ (a = 0 ∧ b = 1) := by omega
    all_goals simp only [assignedAt, selection, selection2, hn, hn', List.map_cons, List.map_nil]
    · exact (central2_zero hw).symm
    · exact (central2_one_zero hw).symm
    · exact (central2_zero_one hw).symm

variable {M : Type}

theorem toRaw_converted {core : Nd.Core K M} (hc : core.Ok) (conv : M → M) {moms : List δ}
    (g : MomentObject obj moms) (hn : moms.length = core.nd) :
    ∃ y, momentsTypeX core conv false obj moms false = .ok y ∧
      ShowsNamed y obj.dims obj.size (fun c =>
        core.ent (conv (recordNamed core obj moms c)) (moms.map c)) :=
  momentsTypeX_spec hc conv false g.object.distinct g.object.momDistinct g.object.momPresent hn false

theorem Spec.MomentObject.transfer {moms : List δ} (g : MomentObject obj moms) {y : DataArray δ K}
    (hd : y.dims = obj.dims) (hs : ∀ d ∈ obj.dims, y.size d = obj.size d) : MomentObject y moms := by
  refine ⟨⟨hd ▸ g.object.distinct, g.object.momDistinct, fun d h => hd ▸ g.object.momPresent d h,
    rfl⟩, g.count, fun d h => ?_⟩
  rw [hs d (g.object.momPresent d h)]
  exact g.orders d h

theorem goodValue_transfer {moms : List δ} (g : MomentObject obj moms) {y : DataArray δ K}
    (hd : y.dims = obj.dims) (hs : ∀ d ∈ obj.dims, y.size d = obj.size d) {sq : Bool}
    {combined : Option δ} {v : String × Operand δ K} (hv : GoodValue obj moms sq combined v) :
    GoodValue y moms sq combined v := by
  have e1 : valDims y moms = valDims obj moms := by unfold valDims; rw [hd]
  have e2 : moms.map y.size = moms.map obj.size :=
    List.map_congr_left fun d h => hs d (g.object.momPresent d h)
  have e3 : (valDims obj moms).map y.size = (valDims obj moms).map obj.size :=
    List.map_congr_left fun d h => hs d (mem_valDims.1 h).1
  obtain ⟨name, v | a⟩ := v
  · obtain ⟨h1, h2, h3, h4, h5, h6⟩ := hv
    refine ⟨by rw [e2]; exact h1, h2, h3, by rw [e1]; exact h4, fun d hd' hv' => ?_, by rw [e2]; exact h6⟩
    rw [e1] at hv'
    rw [hs d (mem_valDims.1 hv').1]
    exact h5 d hd' hv'
  · obtain ⟨h1, h2, h3⟩ := hv
    exact ⟨by rw [e2]; exact h1, h2, by rw [e1, e2, e3]; exact h3⟩

/-- What `to_raw(weight=w)` does. -/
theorem toRaw_assigned {core : Nd.Core K M} (hc : core.Ok) (conv : M → M) {moms : List δ}
    (g : MomentObject obj moms) (hn : moms.length = core.nd) {w : Operand δ K}
    (hw : GoodValue obj moms true none ("weight", w)) :
    ∃ out, toRawNamed core conv moms obj (some w) = .ok out ∧
      ShowsNamed out (valDims obj moms ++ moms) obj.size (fun c =>
        if ∀ d ∈ moms, c d = 0 then shownBy (valDims obj moms) [] c [] w
        else core.ent (conv (recordNamed core obj moms c)) (moms.map c)) := by
  obtain ⟨y, y1, y2⟩ := toRaw_converted hc conv g hn
  have e1 : valDims y moms = valDims obj moms := by unfold valDims; rw [y2.dims_eq]
  obtain ⟨after, out, h1, h2, -⟩ := weight_assigned (g.transfer y2.dims_eq y2.size_eq)
    (goodValue_transfer g y2.dims_eq y2.size_eq hw) false
  rw [e1] at h2
  have hmem : ∀ d ∈ valDims obj moms ++ moms, d ∈ obj.dims := by
    intro d hd
    rcases List.mem_append.1 hd with h | h
    · exact (mem_valDims.1 h).1
    · exact g.object.momPresent d h
  refine ⟨out, ?_, h2.dims_eq, fun d hd => ?_, fun c hcb => ?_⟩
  · unfold toRawNamed
    rw [y1]
    show (assignMomentX moms y [("weight", w)] true none false).2 = _
    rw [h1]
  · rw [h2.size_eq d hd, y2.size_eq d (hmem d hd)]
  · rw [h2.entry_eq c fun d hd => by rw [y2.size_eq d (hmem d hd)]; exact hcb d hd]
    split_ifs with h
    · rfl
    · refine y2.entry_eq c fun d hd => hcb d ?_
      by_cases hm : d ∈ moms
      · exact List.mem_append_right _ hm
      · exact List.mem_append_left _ (mem_valDims.2 ⟨hd, hm⟩)

/-- **C67** `to_raw()` shows the weight and, from order one, the raw moments; the dimensions keep their
order. -/
theorem C67_to_raw {L : (δ → ℕ) → List (Sample K)} (h : MomentsNamed obj mom order L) (mem : Mom K) :
    ∃ out, toRawNamed core1 (fun c => centralToRaw order c mem) [mom] obj none = .ok out ∧
      ShowsNamed out obj.dims obj.size (fun c =>
        if c mom = 0 then weight (L c) else rawMoment (L c) (c mom)) := by
  obtain ⟨y, y1, y2⟩ := toRaw_converted core1_ok (fun c => centralToRaw order c mem) h.momentObject rfl
  refine ⟨y, by unfold toRawNamed; rw [y1]; rfl, y2.dims_eq, y2.size_eq, fun c hc => ?_⟩
  rw [y2.entry_eq c hc]
  have hin : InLabelled obj [mom] c := fun d hd => hc d (mem_valDims.1 hd).1
  have hm := hc mom (h.object.momPresent mom (by simp))
  rw [h.size] at hm
  obtain ⟨e1, e2⟩ := C14_central_to_raw order (L c) (h.nonzero c hin) _ mem (h.moments c hin)
  show centralToRaw order _ mem (c mom) = _
  split_ifs with hz
  · rw [hz]; exact e1
  · exact e2 (c mom) (by omega) (by omega)

/-- **C67** `to_raw(weight=w)` shows the given weight instead, labelled ones matched by name; the moment
dimension comes last. -/
theorem C67_to_raw_weight {L : (δ → ℕ) → List (Sample K)} (h : MomentsNamed obj mom order L)
    (mem : Mom K) {w : Operand δ K} (hw : GoodValue obj [mom] true none ("weight", w)) :
    ∃ out, toRawNamed core1 (fun c => centralToRaw order c mem) [mom] obj (some w) = .ok out ∧
      ShowsNamed out (valDims obj [mom] ++ [mom]) obj.size (fun c =>
        if c mom = 0 then shownBy (valDims obj [mom]) [] c [] w else rawMoment (L c) (c mom)) := by
  obtain ⟨out, h1, h2⟩ := toRaw_assigned core1_ok (fun c => centralToRaw order c mem) h.momentObject rfl hw
  refine ⟨out, h1, h2.dims_eq, h2.size_eq, fun c hc => ?_⟩
  rw [h2.entry_eq c hc]
  have hm := hc mom (by simp)
  rw [h.size] at hm
  obtain ⟨-, e2⟩ := C14_central_to_raw order (L c) (h.nonzero c (inLabelled_all hc)) _ mem
    (h.moments c (inLabelled_all hc))
  by_cases hz : c mom = 0
  · rw [if_pos (by simpa using hz), if_pos hz]
  · rw [if_neg (by simpa using hz), if_neg hz]
    exact e2 (c mom) (by omega) (by omega)

/-- **C67** `rmom()` shows the raw moments of all orders. -/
theorem C67_rmom {L : (δ → ℕ) → List (Sample K)} (h : MomentsNamed obj mom order L) (mem : Mom K) :
    ∃ out, rmomNamed core1 (fun c => centralToRaw order c mem) [mom] obj = .ok out ∧
      ShowsNamed out (valDims obj [mom] ++ [mom]) obj.size (fun c => rawMoment (L c) (c mom)) := by
  obtain ⟨out, h1, h2⟩ := C67_to_raw_weight h mem (w := .plain (ObjectStats.num 1))
    (num_good h.momentObject.weight_selectable 1)
  refine ⟨out, h1, h2.dims_eq, h2.size_eq, fun c hc => ?_⟩
  rw [h2.entry_eq c hc]
  split_ifs with hz
  · rw [hz, rawMoment_zero (h.nonzero c (inLabelled_all hc))]; rfl
  · rfl

/-- **C67** `to_raw()` for two variables. -/
theorem C67_to_raw_cov {L : (δ → ℕ) → List (Sample2 K)} (h : ComomentsNamed obj mom0 mom1 o0 o1 L)
    (mem : Com K) :
    ∃ out, toRawNamed core2 (fun c => centralToRawCov o0 o1 c mem) [mom0, mom1] obj none = .ok out ∧
      ShowsNamed out obj.dims obj.size (fun c =>
        if c mom0 = 0 ∧ c mom1 = 0 then weight2 (L c) else rawMoment2 (L c) (c mom0) (c mom1)) := by
  obtain ⟨y, y1, y2⟩ := toRaw_converted core2_ok (fun c => centralToRawCov o0 o1 c mem)
    h.momentObject rfl
  refine ⟨y, by unfold toRawNamed; rw [y1]; rfl, y2.dims_eq, y2.size_eq, fun c hc => ?_⟩
  rw [y2.entry_eq c hc]
  have hin : InLabelled obj [mom0, mom1] c := fun d hd => hc d (mem_valDims.1 hd).1
  have hm0 := hc mom0 (h.object.momPresent mom0 (by simp))
  have hm1 := hc mom1 (h.object.momPresent mom1 (by simp))
  rw [h.size0] at hm0
  rw [h.size1] at hm1
  obtain ⟨e1, e2⟩ := C15_central_to_raw o0 o1 (L c) (h.nonzero c hin) _ mem (h.moments c hin)
  show centralToRawCov o0 o1 _ mem (c mom0) (c mom1) = _
  split_ifs with hz
  · rw [hz.1, hz.2]; exact e1
  · exact e2 (c mom0) (c mom1) (by omega) (by omega) (by omega)

/-- **C67** `to_raw(weight=w)` for two variables. -/
theorem C67_to_raw_weight_cov {L : (δ → ℕ) → List (Sample2 K)}
    (h : ComomentsNamed obj mom0 mom1 o0 o1 L) (mem : Com K) {w : Operand δ K}
    (hw : GoodValue obj [mom0, mom1] true none ("weight", w)) :
    ∃ out, toRawNamed core2 (fun c => centralToRawCov o0 o1 c mem) [mom0, mom1] obj (some w) = .ok out ∧
      ShowsNamed out (valDims obj [mom0, mom1] ++ [mom0, mom1]) obj.size (fun c =>
        if c mom0 = 0 ∧ c mom1 = 0 then shownBy (valDims obj [mom0, mom1]) [] c [] w
        else rawMoment2 (L c) (c mom0) (c mom1)) := by
  obtain ⟨out, h1, h2⟩ := toRaw_assigned core2_ok (fun c => centralToRawCov o0 o1 c mem)
    h.momentObject rfl hw
  refine ⟨out, h1, h2.dims_eq, h2.size_eq, fun c hc => ?_⟩
  rw [h2.entry_eq c hc]
  have hm0 := hc mom0 (by simp)
  have hm1 := hc mom1 (by simp)
  rw [h.size0] at hm0
  rw [h.size1] at hm1
  obtain ⟨-, e2⟩ := C15_central_to_raw o0 o1 (L c) (h.nonzero c (inLabelled_all hc)) _ mem
    (h.moments c (inLabelled_all hc))
  by_cases hz : c mom0 = 0 ∧ c mom1 = 0
  · rw [if_pos (by simpa using hz), if_pos hz]
  · rw [if_neg (by simpa using hz), if_neg hz]
    exact e2 (c mom0) (c mom1) (by omega) (by omega) (by omega)

/-- **C67** `rmom()` for two variables. -/
theorem C67_rmom_cov {L : (δ → ℕ) → List (Sample2 K)} (h : ComomentsNamed obj mom0 mom1 o0 o1 L)
    (mem : Com K) :
    ∃ out, rmomNamed core2 (fun c => centralToRawCov o0 o1 c mem) [mom0, mom1] obj = .ok out ∧
      ShowsNamed out (valDims obj [mom0, mom1] ++ [mom0, mom1]) obj.size
        (fun c => rawMoment2 (L c) (c mom0) (c mom1)) := by
  obtain ⟨out, h1, h2⟩ := C67_to_raw_weight_cov h mem (w := .plain (ObjectStats.num 1))
    (num_good h.momentObject.weight_selectable 1)
  refine ⟨out, h1, h2.dims_eq, h2.size_eq, fun c hc => ?_⟩
  rw [h2.entry_eq c hc]
  split_ifs with hz
  · rw [hz.1, hz.2, rawMoment2_zero (h.nonzero c (inLabelled_all hc))]; rfl
  · rfl

/-- What `obj * scale` does to the array: the weights are multiplied. -/
theorem mul_array {moms : List δ} (g : MomentObject obj moms) (vn : δ) (scale : K) (copy : Bool) :
    ∃ after out, mulNamed moms vn obj scale copy = (after, .ok out) ∧
      ShowsNamed out (valDims obj moms ++ moms) obj.size (fun c =>
        if ∀ d ∈ moms, c d = 0 then entry obj c * scale else entry obj c) ∧
      ShowsNamed after obj.dims obj.size (fun c =>
        if copy = false ∧ ∀ d ∈ moms, c d = 0 then entry obj c * scale else entry obj c) := by
  obtain ⟨w, w1, w2⟩ := g.selectOne (by decide) g.weight_selectable (vn := vn)
    (by simp [selNames]) (l := List.replicate moms.length 0) (by
      rcases g.cases with ⟨s, rfl, -⟩ | ⟨s, t, rfl, -⟩
      · simp [selection, selection1]
      · simp [selection, selection2])
  have hnd : (valDims obj moms).Nodup := (valDims_nodup g.object).of_append_left
  obtain ⟨after, out, h1, h2, h3⟩ := weight_assigned g (v := .named (w.mapEntries (· * scale))) (by
    refine ⟨g.weight_selectable, ?_, by simp [selNames], ?_, ?_, by simp [selNames, selShape]⟩
    · show w.dims.Nodup
      rw [w2.dims_eq]; exact hnd
    · intro d hd
      have hd' : d ∈ w.dims := hd
      rw [w2.dims_eq] at hd'
      exact List.mem_append_left _ hd'
    · intro d _ hd
      exact w2.size_eq d hd) copy
  have key : ∀ c, InLabelled obj moms c → (∀ d ∈ moms, c d = 0) →
      shownBy (valDims obj moms) [] c [] (.named (w.mapEntries (· * scale))) = entry obj c * scale := by
    intro c hc hz
    have e : withNames moms (List.replicate moms.length 0) c = c := by
      have e0 : moms.map c = List.replicate moms.length 0 := by
        refine List.eq_replicate_iff.2 ⟨by simp, ?_⟩
        intro b hb
        obtain ⟨d, hd, rfl⟩ := List.mem_map.1 hb
        exact hz d hd
      rw [← e0, withNames_self]
    have e' : withNames ([] : List δ) [] c = c := rfl
    show entry (w.mapEntries (· * scale)) (withNames [] [] c) = _
    rw [e']
    have := w2.entry_eq c hc
    rw [e] at this
    rw [← this]
    rfl
  refine ⟨after, out, ?_, ⟨h2.dims_eq, h2.size_eq, fun c hc => ?_⟩, h3.dims_eq, h3.size_eq, fun c hc => ?_⟩
  · unfold mulNamed weightNamed
    rw [w1]
    exact h1
  · rw [h2.entry_eq c hc]
    split_ifs with hz
    · exact key c (inLabelled_all hc) hz
    · rfl
  · rw [h3.entry_eq c hc]
    split_ifs with hz
    · exact key c (fun d hd => hc d (mem_valDims.1 hd).1) hz.2
    · rfl

theorem mul_holds (ho : 1 ≤ order) {L : List (Sample K)} {a : Mom K} (h : Holds order L a) (f : K) :
    Holds order (L.map (reweighted f)) ((kernel1 order).mulWeight a f) := by
  rw [(meaning1 order ho).iff, (lawful1 order ho).raw_mul, (meaning1 order ho).scale,
    ((meaning1 order ho).iff _ _).1 h]

theorem mul_holds2 (h0 : 1 ≤ o0) (h1 : 1 ≤ o1) {L : List (Sample2 K)} {a : Com K} (h : Holds2 o0 o1 L a)
    (f : K) : Holds2 o0 o1 (L.map (reweighted2 f)) ((kernel2 o0 o1).mulWeight a f) := by
  rw [(meaning2 o0 o1 h0 h1).iff, (lawful2 o0 o1 h0 h1).raw_mul, (meaning2 o0 o1 h0 h1).scale,
    ((meaning2 o0 o1 h0 h1).iff _ _).1 h]

theorem withNames_bound {moms : List δ} {l : List ℕ} {c : δ → ℕ} {size : δ → ℕ}
    (hc : ∀ d, d ∈ obj.dims → d ∉ moms → c d < size d) (hl : Within (moms.map size) l) (d : δ)
    (hd : d ∈ obj.dims) : withNames moms l c d < size d := by
  unfold withNames
  split_ifs with h
  · have hi := List.idxOf_lt_length_iff.2 h
    have := List.Forall₂.get hl (i := moms.idxOf d)
      (by rw [List.Forall₂.length_eq hl]; simpa using hi) (by simpa using hi)
    rw [List.getD_eq_getElem _ _ (by rw [List.Forall₂.length_eq hl]; simpa using hi)]
    simpa using this
  · exact hc d hd h

/-- An array with the weights multiplied stands for the samples with theirs multiplied. -/
theorem stands_mul {L : (δ → ℕ) → List (Sample K)} (ho : 1 ≤ order)
    (h : StandsNamed core1 (Holds order) obj [mom] L) (hs : obj.size mom = order + 1) {f : K}
    {y : DataArray δ K} {dims : List δ} (hp : dims.Perm obj.dims)
    (hy : ShowsNamed y dims obj.size (fun c =>
      if ∀ d ∈ [mom], c d = 0 then entry obj c * f else entry obj c)) :
    StandsNamed core1 (Holds order) y [mom] (fun c => (L c).map (reweighted f)) := by
  have hmem : ∀ d, d ∈ y.dims ↔ d ∈ obj.dims := fun d => by rw [hy.dims_eq]; exact hp.mem_iff
  refine ⟨⟨by rw [hy.dims_eq]; exact hp.nodup_iff.2 h.object.distinct, h.object.momDistinct,
    fun d hd => (hmem d).2 (h.object.momPresent d hd), rfl⟩, fun c hc => ?_⟩
  have hc' : ∀ d, d ∈ obj.dims → d ∉ [mom] → c d < obj.size d := fun d h1 h2 => by
    rw [← hy.size_eq d (hp.mem_iff.2 h1)]
    exact hc d (mem_valDims.2 ⟨(hmem d).2 h1, h2⟩)
  have hin : InLabelled obj [mom] c := fun d hd => hc' d (mem_valDims.1 hd).1 (mem_valDims.1 hd).2
  refine holds_congr ho (fun n hn => ?_) (mul_holds ho (h.holds c hin) f)
  show entry y (withNames [mom] [n] c) = Function.update (recordNamed core1 obj [mom] c) 0 _ n
  rw [hy.entry_eq _ fun d hd => withNames_bound hc' (within_one.2 ⟨n, by omega, rfl⟩) d (hp.mem_iff.1 hd)]
  have e : withNames [mom] [n] c mom = n := by simp [withNames]
  by_cases hz : n = 0
  · subst hz
    rw [Function.update_self, if_pos (by simpa using e)]
    rfl
  · rw [Function.update_of_ne hz, if_neg (by simpa [e] using hz)]
    rfl

theorem stands_mul2 {L : (δ → ℕ) → List (Sample2 K)} (h0 : 1 ≤ o0) (h1 : 1 ≤ o1)
    (h : StandsNamed core2 (Holds2 o0 o1) obj [mom0, mom1] L) (hs0 : obj.size mom0 = o0 + 1)
    (hs1 : obj.size mom1 = o1 + 1) {f : K} {y : DataArray δ K} {dims : List δ}
    (hp : dims.Perm obj.dims) (hy : ShowsNamed y dims obj.size (fun c =>
      if ∀ d ∈ [mom0, mom1], c d = 0 then entry obj c * f else entry obj c)) :
    StandsNamed core2 (Holds2 o0 o1) y [mom0, mom1] (fun c => (L c).map (reweighted2 f)) := by
  have hmem : ∀ d, d ∈ y.dims ↔ d ∈ obj.dims := fun d => by rw [hy.dims_eq]; exact hp.mem_iff
  refine ⟨⟨by rw [hy.dims_eq]; exact hp.nodup_iff.2 h.object.distinct, h.object.momDistinct,
    fun d hd => (hmem d).2 (h.object.momPresent d hd), rfl⟩, fun c hc => ?_⟩
  have hc' : ∀ d, d ∈ obj.dims → d ∉ [mom0, mom1] → c d < obj.size d := fun d h1 h2 => by
    rw [← hy.size_eq d (hp.mem_iff.2 h1)]
    exact hc d (mem_valDims.2 ⟨(hmem d).2 h1, h2⟩)
  have hin : InLabelled obj [mom0, mom1] c := fun d hd =>
    hc' d (mem_valDims.1 hd).1 (mem_valDims.1 hd).2
  refine holds2_congr h0 h1 (fun a b ha hb => ?_) (mul_holds2 h0 h1 (h.holds c hin) f)
  show entry y (withNames [mom0, mom1] [a, b] c)
    = setAt (recordNamed core2 obj [mom0, mom1] c) 0 0 _ a b
  rw [hy.entry_eq _ fun d hd => withNames_bound hc'
    (within_two.2 ⟨a, by omega, b, by omega, rfl⟩) d (hp.mem_iff.1 hd)]
  have hne : mom0 ≠ mom1 := by have := h.object.momDistinct; simpa using this
  have e0 : withNames [mom0, mom1] [a, b] c mom0 = a := by simp [withNames]
  have e1 : withNames [mom0, mom1] [a, b] c mom1 = b := by
    simp [withNames, hne, List.idxOf_cons]
  by_cases hz : a = 0 ∧ b = 0
  · obtain ⟨rfl, rfl⟩ := hz
    rw [if_pos (by simp [e0, e1])]
    simp only [setAt, Function.update_self]
    rfl
  · rw [if_neg (by simpa [e0, e1] using hz)]
    by_cases ha0 : a = 0
    · subst ha0
      rw [setAt, Function.update_self, Function.update_of_ne (by simpa using hz)]
      rfl
    · rw [setAt, Function.update_of_ne ha0]
      rfl

/-- **C67** `obj * scale` stands for the same samples with their weights multiplied by `scale`; `obj` stays
as it was. The moment dimension of the result comes last. -/
theorem C67_mul {L : (δ → ℕ) → List (Sample K)} (ho : 1 ≤ order)
    (h : StandsNamed core1 (Holds order) obj [mom] L) (hs : obj.size mom = order + 1) (vn : δ) (scale : K) :
    ∃ after out, mulNamed [mom] vn obj scale true = (after, .ok out) ∧
      out.dims = valDims obj [mom] ++ [mom] ∧ (∀ d ∈ obj.dims, out.size d = obj.size d) ∧
      StandsNamed core1 (Holds order) out [mom] (fun c => (L c).map (reweighted scale)) ∧
      ShowsNamed after obj.dims obj.size (entry obj) := by
  obtain ⟨after, out, h1, h2, h3⟩ := mul_array (moms := [mom]) ⟨h.object, .inl rfl, by simp; omega⟩ vn
    scale true
  have hp := valDims_perm h.object
  exact ⟨after, out, h1, h2.dims_eq, fun d hd => h2.size_eq d (hp.mem_iff.2 hd),
    stands_mul ho h hs hp h2, by simpa using h3⟩

/-- **C67** `obj *= scale` makes `obj` itself stand for them, its dimensions in the order they had. -/
theorem C67_imul {L : (δ → ℕ) → List (Sample K)} (ho : 1 ≤ order)
    (h : StandsNamed core1 (Holds order) obj [mom] L) (hs : obj.size mom = order + 1) (vn : δ) (scale : K) :
    ∃ after out, mulNamed [mom] vn obj scale false = (after, .ok out) ∧
      after.dims = obj.dims ∧ (∀ d ∈ obj.dims, after.size d = obj.size d) ∧
      StandsNamed core1 (Holds order) after [mom] (fun c => (L c).map (reweighted scale)) ∧
      StandsNamed core1 (Holds order) out [mom] (fun c => (L c).map (reweighted scale)) := by
  obtain ⟨after, out, h1, h2, h3⟩ := mul_array (moms := [mom]) ⟨h.object, .inl rfl, by simp; omega⟩ vn
    scale false
  exact ⟨after, out, h1, h3.dims_eq, h3.size_eq, stands_mul ho h hs (.refl _) (by simpa using h3),
    stands_mul ho h hs (valDims_perm h.object) h2⟩

/-- **C67** The same for pairs. -/
theorem C67_mul_cov {L : (δ → ℕ) → List (Sample2 K)} (h0 : 1 ≤ o0) (h1 : 1 ≤ o1)
    (h : StandsNamed core2 (Holds2 o0 o1) obj [mom0, mom1] L) (hs0 : obj.size mom0 = o0 + 1)
    (hs1 : obj.size mom1 = o1 + 1) (vn : δ) (scale : K) :
    ∃ after out, mulNamed [mom0, mom1] vn obj scale true = (after, .ok out) ∧
      out.dims = valDims obj [mom0, mom1] ++ [mom0, mom1] ∧
      (∀ d ∈ obj.dims, out.size d = obj.size d) ∧
      StandsNamed core2 (Holds2 o0 o1) out [mom0, mom1] (fun c => (L c).map (reweighted2 scale)) ∧
      ShowsNamed after obj.dims obj.size (entry obj) := by
  obtain ⟨after, out, e1, e2, e3⟩ := mul_array (moms := [mom0, mom1])
    ⟨h.object, .inr rfl, by simp; omega⟩ vn scale true
  have hp := valDims_perm h.object
  exact ⟨after, out, e1, e2.dims_eq, fun d hd => e2.size_eq d (hp.mem_iff.2 hd),
    stands_mul2 h0 h1 h hs0 hs1 hp e2, by simpa using e3⟩

/-- **C67** The same for pairs, in place. -/
theorem C67_imul_cov {L : (δ → ℕ) → List (Sample2 K)} (h0 : 1 ≤ o0) (h1 : 1 ≤ o1)
    (h : StandsNamed core2 (Holds2 o0 o1) obj [mom0, mom1] L) (hs0 : obj.size mom0 = o0 + 1)
    (hs1 : obj.size mom1 = o1 + 1) (vn : δ) (scale : K) :
    ∃ after out, mulNamed [mom0, mom1] vn obj scale false = (after, .ok out) ∧
      after.dims = obj.dims ∧ (∀ d ∈ obj.dims, after.size d = obj.size d) ∧
      StandsNamed core2 (Holds2 o0 o1) after [mom0, mom1] (fun c => (L c).map (reweighted2 scale)) ∧
      StandsNamed core2 (Holds2 o0 o1) out [mom0, mom1] (fun c => (L c).map (reweighted2 scale)) := by
  obtain ⟨after, out, e1, e2, e3⟩ := mul_array (moms := [mom0, mom1])
    ⟨h.object, .inr rfl, by simp; omega⟩ vn scale false
  exact ⟨after, out, e1, e3.dims_eq, e3.size_eq,
    stands_mul2 h0 h1 h hs0 hs1 (.refl _) (by simpa using e3),
    stands_mul2 h0 h1 h hs0 hs1 (valDims_perm h.object) e2⟩

end Samples

open ExDim

theorem exGather_object : MomentObject exGather [m] := ⟨⟨by decide, by decide, by decide, rfl⟩, .inl rfl, by decide⟩
theorem exGather2_object : MomentObject exGather2 [m, n] :=
  ⟨⟨by decide, by decide, by decide, rfl⟩, .inr rfl, by decide⟩

theorem exGather_moments : MomentsNamed exGather m 2 exGatherL :=
  C67_from_samples (by omega) exGather_stands rfl (by intro c _; norm_num [exGatherL, weight])

theorem exGather2_moments : ComomentsNamed exGather2 m n 1 1 exGather2L :=
  C67_from_samples_cov (by omega) (by omega) exGather2_stands rfl rfl
    (by intro c _; norm_num [exGather2L, weight2])

theorem exGather_var : Selectable "var" false ([m].map exGather.size) :=
  ⟨by decide, by simp [selection, selection1, Within, exGather]⟩

example := C67_select_all [m] exGather true b none
example := C67_select exGather_object (by decide) exGather_var (combined := b) (fun _ => by decide)
  (ncoords := some 1) (.inr rfl)
example : dimEntries (selectMomentX [m] exGather "ave" false b none) [[(p, 1), (t, 1), (b, 0)]]
    = some ([p, t, b], [3, 2, 1], [11]) := by decide +kernel
-- the weight does not need the further dimension, so that its name is free
example := C67_select exGather_object (by decide) exGather_object.weight_selectable (combined := p)
  (by simp [selNames]) (.inl rfl)
example : dimEntries (selectMomentX [m, n] exGather2 "xmom_0" true b none) [[(p, 2), (n, 0)], [(p, 2), (n, 1)]]
    = some ([p, n], [3, 2], [1, 2]) := by decide +kernel

example := (C67_select_missing exGather_object "cumulant" true (combined := b) (by decide) (.inl rfl)).1
  (by decide)
example := (C67_select_missing exGather2_object "var" true (combined := b) (by decide) (.inl rfl)).2
  (by decide) (by decide) (fun h => by
    have := h.2 ([0], [2, 0]) (by decide)
    simp [Within, exGather2] at this)
example := C67_select_name_in_use exGather2_object (name := "ave") (sq := true) (combined := p) (by decide)
  (by decide) none
example := C67_select_coords (obj := exGather2) (moms := [m, n]) (name := "ave") (sq := true)
  (combined := b) (by decide) (by decide) (n := 3) (by decide)

/-- Weights for the places `p`. -/
def exPlaceW : DataArray ExDim ℚ where
  dims := [p]
  data idx := 10 + (idx.getD 0 0 : ℚ)
  size _ := 3

theorem exPlaceW_good : GoodValue exGather [m] true none ("weight", .named exPlaceW) :=
  ⟨exGather_object.weight_selectable, by decide, by decide, by decide, by decide, by decide⟩

example := C67_assign exGather_object (sq := true) (combined := none) (by simp)
  (values := [("weight", .named exPlaceW)]) (by simpa using exPlaceW_good) true
example : dimEntries (assignMomentX [m] exGather [("weight", .named exPlaceW),
    ("ave", .plain (ObjectStats.num 7))] true none true).2
    [[(p, 2), (t, 1), (m, 0)], [(p, 2), (t, 1), (m, 1)], [(p, 2), (t, 1), (m, 2)]]
    = some ([p, t, m], [3, 2, 3], [12, 7, 0]) := by decide +kernel
example : dimEntries (.ok (assignMomentX [m] exGather [("weight", .named exPlaceW),
    ("ave", .plain (ObjectStats.num 7))] true none false).1)
    [[(p, 2), (t, 1), (m, 0)], [(p, 2), (t, 1), (m, 1)], [(p, 2), (t, 1), (m, 2)]]
    = some ([p, m, t], [3, 3, 2], [12, 7, 0]) := by decide +kernel

example := C67_assign_mismatch (obj := exGather) (moms := [m]) (sq := true) (combined := none)
  (name := "weight") (y := { exPlaceW with size := fun _ => 2 })
  (values := [("ave", .plain (ObjectStats.num 7)), ("weight", .named { exPlaceW with size := fun _ => 2 })])
  (by decide) (by simp) (.inl ⟨p, by decide, by decide, by decide⟩) false
example := C67_assign_mismatch (obj := exGather2) (moms := [m, n]) (sq := true) (combined := some b)
  (name := "ave") (y := exPlaceW) (values := [("ave", .named exPlaceW)]) (by decide) (by simp)
  (.inr (.inl ⟨b, by decide, by decide⟩)) false
example := C67_assign_mismatch (obj := exGather) (moms := [m]) (sq := true) (combined := none)
  (name := "weight") (y := exGather) (values := [("weight", .named exGather)]) (by decide) (by simp)
  (.inr (.inr ⟨m, by decide, by decide, by decide⟩)) false

-- without `dim_combined` the means of two variables are matched by position: places taken for variables
example : dimEntries (assignMomentX [m, n] { exGather2 with size := fun _ => 2 }
    [("ave", .named { exPlaceW with size := fun _ => 2 })] true none true).2
    [[(p, 0), (m, 1), (n, 0)], [(p, 0), (m, 0), (n, 1)], [(p, 1), (m, 1), (n, 0)], [(p, 1), (m, 0), (n, 1)]]
    = some ([p, m, n], [2, 2, 2], [10, 11, 10, 11]) := by decide +kernel

example := C67_assign_refused exGather_object "cumulant" true (combined := none) (by simp)
  (num_proper (1 : ℚ)) false
example : (assignMomentX [m] exGather [("weight", .plain ⟨[5], fun _ => 0⟩)] true none false).2.isOk = false := by
  decide +kernel

example := C67_weight_mean exGather_moments b
example := C67_mean_kept exGather_moments (vn := b) (by decide)
example := C67_var exGather_moments (by decide) b id
example := C67_var_kept exGather_moments (by decide) (vn := b) (by decide) id
example := C67_var_missing (mom := m) (obj := { exGather with size := fun _ => 2 })
  ⟨⟨by decide, by decide, by decide, rfl⟩, .inl rfl, by decide⟩ rfl (vn := b) (by decide) true id
example := C67_stats_cov exGather2_moments b
example : dimEntries (meanNamed [m, n] b exGather2 true) [[(p, 1), (b, 0)], [(p, 1), (b, 1)]]
    = some ([p, b], [3, 2], [1, 2]) := by decide +kernel

/-- One pair in each cell, with orders two. -/
def exGather3 : DataArray ExDim ℚ where
  dims := [m, p, n]
  data idx := if idx.getD 0 0 = 0 ∧ idx.getD 2 0 = 0 then 1 else
    if idx.getD 0 0 = 1 ∧ idx.getD 2 0 = 0 then (idx.getD 1 0 : ℚ) else
    if idx.getD 0 0 = 0 ∧ idx.getD 2 0 = 1 then 2 else 0
  size _ := 3

theorem exGather3_moments : ComomentsNamed exGather3 m n 2 2 exGather2L where
  object := ⟨by decide, by decide, by decide, rfl⟩
  size0 := rfl
  size1 := rfl
  positive0 := by decide
  positive1 := by decide
  nonzero := by intro c _; norm_num [exGather2L, weight2]
  moments := by
    intro c _
    have e : ∀ i j, entry exGather3 (withNames [m, n] [i, j] c)
        = if i = 0 ∧ j = 0 then 1 else if i = 1 ∧ j = 0 then (c p : ℚ) else
          if i = 0 ∧ j = 1 then 2 else 0 := fun i j => rfl
    refine ⟨?_, ?_, ?_, fun i j h1 h2 h3 => ?_⟩
    · rw [e]; norm_num [exGather2L, weight2]
    · rw [e]; norm_num [exGather2L, weight2, meanX, wsum2]
    · rw [e]; norm_num [exGather2L, weight2, meanY, wsum2]
    · rw [e, if_neg (by omega), if_neg (by omega), if_neg (by omega)]
      have : i ≠ 0 ∨ j ≠ 0 := by omega
      rcases this with h | h
      · simp [exGather2L, weight2, meanX, meanY, wsum2, central2, zero_pow h]
      · simp [exGather2L, weight2, meanX, meanY, wsum2, central2, zero_pow h]

example := C67_var_cov exGather3_moments (by decide) (by decide) (vn := b) (by decide) true id
example := C67_cmom exGather_moments
example := C67_cmom_cov exGather3_moments
example : dimEntries (cmomNamed [m, n] exGather3) [[(p, 2), (m, 0), (n, 0)], [(p, 2), (m, 1), (n, 0)]]
    = some ([p, m, n], [3, 3, 3], [1, 0]) := by decide +kernel
example := C67_to_raw exGather_moments (fun _ => 0)
example : dimEntries (toRawNamed core1 (fun c => centralToRaw 2 c (fun _ => 0)) [m] exGather none)
    [[(p, 2), (m, 0), (t, 1)], [(p, 2), (m, 2), (t, 1)]] = some ([p, m, t], [3, 3, 2], [1, 144]) := by
  decide +kernel
example := C67_to_raw_weight exGather_moments (fun _ => 0) exPlaceW_good
example := C67_rmom exGather_moments (fun _ => 0)
example := C67_to_raw_cov exGather3_moments (fun _ _ => 0)
example := C67_to_raw_weight_cov exGather3_moments (fun _ _ => 0) (w := .plain (ObjectStats.num 5))
  (num_good exGather3_moments.momentObject.weight_selectable 5)
example := C67_rmom_cov exGather3_moments (fun _ _ => 0)
example := C67_mul (by omega) exGather_stands rfl b 3
example := C67_imul (by omega) exGather_stands rfl b 3
example := C67_mul_cov (by omega) (by omega) exGather2_stands rfl rfl b 3
example := C67_imul_cov (by omega) (by omega) exGather2_stands rfl rfl b 3
example : dimEntries (mulNamed [m] b exGather 3 true).2 [[(p, 1), (t, 1), (m, 0)], [(p, 1), (t, 1), (m, 1)]]
    = some ([p, t, m], [3, 2, 3], [3, 11]) := by decide +kernel

end Cmomy
