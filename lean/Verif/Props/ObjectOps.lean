import Verif.Lemmas.ObjectOps
import Verif.Props.ObjectStats
import Verif.Lemmas.Bridge

/-!
# C60: methods that rearrange an array object move whole cells
-/

set_option linter.unusedSectionVars false

namespace Cmomy

open Spec Nd Axes ObjectOps

section Cells

variable {K : Type*} {obj : Arr K} {vs ms : List ℕ}

/-- **C60** `reshape`: the object found has the sizes asked for, and its cells, read row by row (or column
by column, with `order="F"`), are the cells of the old object, read the same way. -/
theorem C60_reshape (h : IsObject obj vs ms) (hv : vs ≠ []) {req : List ℤ} {vs' : List ℕ}
    (hres : Resolves vs.prod req vs') (fortran : Bool) :
    ∃ out f, ObjectOps.reshape ms.length obj req fortran = .ok out ∧ CellsFrom out obj vs' vs ms f ∧
      (cellsIn (readingOrder vs'.length fortran) vs').map f
        = cellsIn (readingOrder vs.length fortran) vs := by
  have hr : ∀ z ∈ req, -1 ≤ z := by
    have := hres.sizes
    intro z hz
    obtain ⟨q, hq, rfl⟩ := List.mem_iff_getElem.1 hz
    have hq' : q < vs'.length := by rw [← this.length_eq]; exact hq
    rcases this.get hq hq' with e | e <;> simp only [List.get_eq_getElem] at e <;> omega
  exact ⟨_, cellSource vs vs' fortran, (reshape_eq h hv req hr fortran).1 vs' hres,
    reshapeTo_cells h hres.total fortran, cellSource_cells hres.total fortran⟩

/-- **C60** `reshape` is refused with a `ValueError` if the sizes do not fit (and for objects without
value axes, whatever the sizes). -/
theorem C60_reshape_rejects (h : IsObject obj vs ms) {req : List ℤ} (hr : ∀ z ∈ req, -1 ≤ z)
    (hbad : vs = [] ∨ ¬ ∃ vs', Resolves vs.prod req vs') (fortran : Bool) :
    ObjectOps.reshape ms.length obj req fortran = .error .valueError := by
  by_cases hv : vs = []
  · unfold ObjectOps.reshape
    rw [raiseIfScalar_eq h, if_pos hv]
    rfl
  · exact (reshape_eq h hv req hr fortran).2 (hbad.resolve_left hv)

/-- **C60** `moveaxis(axis, dest)`: the value axes named go where they are told to go, the others keep
their order, and every cell goes along with its index. -/
theorem C60_moveaxis (h : IsObject obj vs ms) {as bs : List AxisArg} {s t : List ℕ}
    (ha : List.Forall₂ (NamesAxis (vs.length + ms.length) ms.length) as s)
    (hb : List.Forall₂ (NamesAxis (vs.length + ms.length) ms.length) bs t)
    (hs : s.Nodup) (ht : t.Nodup) (hlen : s.length = t.length) (hsv : ∀ a ∈ s, a < vs.length)
    (htv : ∀ a ∈ t, a < vs.length) :
    ∃ out order, ObjectOps.moveaxis ms.length obj (some (.many as)) (some (.many bs)) false = .ok out ∧
      IsAxisMove vs.length (s.zip t) order ∧
      CellsFrom out obj (order.map (fun a => vs.getD a 0)) vs ms (fun i a => i (order.idxOf a)) := by
  obtain ⟨o, h1, h2⟩ := moveaxisCore_extend (d := ms.length) hlen hs ht hsv htv
  have hT := transpose_cells h h1.perm
  refine ⟨_, o, ?_, h1, hT⟩
  unfold ObjectOps.moveaxis moveaxisMom
  rw [h.length, moveOrder_plain (by omega) ha hb hs ht, if_neg, h2]
  · exact newLike_eq h (momShape_eq hT.object)
  · rintro ⟨a, ha', hge⟩
    rcases List.mem_append.1 ha' with hm | hm
    · have := hsv a hm; omega
    · have := htv a hm; omega

/-- **C60** Moment axes are not moved, and nothing is moved to where they are: a `ValueError`. -/
theorem C60_moveaxis_moment_rejected (h : IsObject obj vs ms) {as bs : List AxisArg} {s t : List ℕ}
    (ha : List.Forall₂ (NamesAxis (vs.length + ms.length) ms.length) as s)
    (hb : List.Forall₂ (NamesAxis (vs.length + ms.length) ms.length) bs t)
    (hs : s.Nodup) (ht : t.Nodup) (hbad : ∃ a ∈ s ++ t, vs.length ≤ a) :
    ObjectOps.moveaxis ms.length obj (some (.many as)) (some (.many bs)) false
      = .error .valueError := by
  unfold ObjectOps.moveaxis moveaxisMom
  rw [h.length, moveOrder_plain (by omega) ha hb hs ht, if_pos]
  · rfl
  · obtain ⟨a, h1, h2⟩ := hbad
    exact ⟨a, h1, by omega⟩

/-- **C60** `moveaxis(axis, axes_to_end=True)`: the value axes named become the last value axes. -/
theorem C60_moveaxis_to_end (h : IsObject obj vs ms) {axis : Option (List AxisArg)} {s : List ℕ}
    (ha : List.Forall₂ (NamesAxis (vs.length + ms.length) ms.length) (axis.getD []) s)
    (hs : s.Nodup) (hsv : ∀ a ∈ s, a < vs.length) (dest : Option AxesArg) :
    ∃ out, ObjectOps.moveaxis ms.length obj (axis.map .many) dest true = .ok out ∧
      CellsFrom out obj ((keptAxes vs.length s ++ s).map (fun a => vs.getD a 0)) vs ms
        (fun i a => i ((keptAxes vs.length s ++ s).idxOf a)) := by
  have hT := transpose_cells h (keptAxes_perm hs hsv)
  refine ⟨_, ?_, hT⟩
  have hw : (Select.axesLast ms.length).map (wrap (vs.length + ms.length))
      = (List.range ms.length).map (fun j => vs.length + j) := by
    have e := Nd.axesLast_wrap' (n := vs.length + ms.length) (nd := ms.length) (by omega)
    rw [Nat.add_sub_cancel] at e
    exact e
  have hl : (Select.axesLast ms.length).length = ms.length := by simp [Select.axesLast]
  have e := moveOrder_end (n := vs.length + ms.length) (mom := Select.axesLast ms.length)
    (Nd.axesLast_range' (by omega)) (axis := axis) (s := s) (by rwa [hl])
    (by
      rw [hw]
      refine List.nodup_append.2
        ⟨hs, by simpa using nodup_shift (vs.length + ms.length) ms.length, ?_⟩
      intro a ha' b hb' hab
      obtain ⟨j, _, rfl⟩ := List.mem_map.1 hb'
      have := hsv a ha'
      omega) dest false
  rw [hw] at e
  have hk : keptAxes (vs.length + ms.length) (s ++ (List.range ms.length).map (fun j => vs.length + j))
      = keptAxes vs.length s := by
    unfold keptAxes
    have e2 : ((List.range ms.length).map (fun j => vs.length + j)).filter
        (fun a => a ∉ s ++ (List.range ms.length).map (fun j => vs.length + j)) = [] :=
      List.filter_eq_nil_iff.2 fun a ha' => by
        simp only [List.mem_append, ha', or_true, not_true_eq_false, decide_false,
          Bool.false_eq_true, not_false_eq_true]
    rw [List.range_add, List.filter_append, e2, List.append_nil]
    · refine List.filter_congr fun a ha' => ?_
      have hlt := List.mem_range.1 ha'
      have : a ∉ (List.range ms.length).map (fun j => vs.length + j) := by
        intro hm
        obtain ⟨j, _, rfl⟩ := List.mem_map.1 hm
        omega
      simp only [List.mem_append, this, or_false]
  rw [hk, ← List.append_assoc] at e
  unfold ObjectOps.moveaxis moveaxisMom
  rw [h.length, e]
  exact newLike_eq h (momShape_eq hT.object)

/-- **C60** The function `moveaxis(..., axes_to_end=True)`, with moment axes anywhere: the axes named, then
the moment axes, come last, the others keep their order. -/
theorem C60_axes_to_end [Field K] [DecidableEq K] {x : Arr K} (hp : x.Proper) {mom : List ℤ}
    (hm : ∀ z ∈ mom, InRange x.shape.length z) {axis : Option (List AxisArg)} {s : List ℕ}
    (hax : List.Forall₂ (NamesAxis x.shape.length mom.length) (axis.getD []) s)
    (hnd : (s ++ mom.map (wrap x.shape.length)).Nodup) (dest : Option AxesArg) (allowMom : Bool) :
    ∃ out, moveaxisMom x (some mom) (axis.map .many) dest allowMom true = .ok out ∧
      HasLayout out (keptAxes x.shape.length (s ++ mom.map (wrap x.shape.length))
        ++ (s ++ mom.map (wrap x.shape.length))) (axisSize x) x.get := by
  have hlt : ∀ a ∈ s ++ mom.map (wrap x.shape.length), a < x.shape.length := by
    intro a ha
    rcases List.mem_append.1 ha with h | h
    · exact forall2_names_lt hax a h
    · obtain ⟨z, hz, rfl⟩ := List.mem_map.1 h
      exact wrap_lt (hm z hz)
  refine ⟨x.transpose (keptAxes x.shape.length (s ++ mom.map (wrap x.shape.length))
    ++ (s ++ mom.map (wrap x.shape.length))), ?_, ?_⟩
  · unfold moveaxisMom
    rw [moveOrder_end hm hax hnd]
    rfl
  · have hperm := keptAxes_perm hnd hlt
    have := transpose_layout hp (hasLayout_self hp) hperm
    have e : (keptAxes x.shape.length (s ++ mom.map (wrap x.shape.length))
        ++ (s ++ mom.map (wrap x.shape.length))).map
          (fun p => (List.range x.shape.length).getD p 0)
        = keptAxes x.shape.length (s ++ mom.map (wrap x.shape.length))
          ++ (s ++ mom.map (wrap x.shape.length)) := by
      conv_rhs => rw [← List.map_id (keptAxes _ _ ++ _)]
      refine List.map_congr_left fun p hp' => ?_
      have : p < x.shape.length := List.mem_range.1 (hperm.mem_iff.1 hp')
      simp [List.getD_eq_getElem?_getD, this]
    rwa [e] at this

/-- **C60** `resample(indices, axis)`: the axis is replaced by the axes of `indices`, and the cells found
there are those of the old object at the positions given by `indices`. -/
theorem C60_resample (h : IsObject obj vs ms) {a : AxisArg} {ax : ℕ}
    (ha : NamesAxis (vs.length + ms.length) ms.length a ax) (hax : ax < vs.length) {idx : IdxArr}
    {sizes : List ℕ} {entry : List ℕ → ℤ} (he : HasEntries idx sizes entry)
    (hr : ∀ c, Within sizes c → InRange (vs.getD ax 0) (entry c)) :
    ∃ out, ObjectOps.resample ms.length obj idx (some a) false = .ok out ∧
      CellsFrom out obj (vs.take ax ++ sizes ++ vs.drop (ax + 1)) vs ms
        (takenFrom (vs.getD ax 0) ax sizes.length entry) :=
  (resample_cells h ha hax he hr).1

/-- **C60** `resample(indices, axis, last=True)`: the same cells, but the new axes come last among the value
axes. -/
theorem C60_resample_last (h : IsObject obj vs ms) {a : AxisArg} {ax : ℕ}
    (ha : NamesAxis (vs.length + ms.length) ms.length a ax) (hax : ax < vs.length) {idx : IdxArr}
    {sizes : List ℕ} {entry : List ℕ → ℤ} (he : HasEntries idx sizes entry)
    (hr : ∀ c, Within sizes c → InRange (vs.getD ax 0) (entry c)) :
    ∃ out, ObjectOps.resample ms.length obj idx (some a) true = .ok out ∧
      CellsFrom out obj ((keptAxes vs.length [ax]).map (fun b => vs.getD b 0) ++ sizes) vs ms
        (takenLast vs.length (vs.getD ax 0) ax sizes.length entry) :=
  (resample_cells h ha hax he hr).2

/-- **C60** `resample` with a position outside the axis: an `IndexError`. -/
theorem C60_resample_index_error (h : IsObject obj vs ms) {a : AxisArg} {ax : ℕ}
    (ha : NamesAxis (vs.length + ms.length) ms.length a ax) (hax : ax < vs.length) {idx : IdxArr}
    {sizes : List ℕ} {entry : List ℕ → ℤ} (he : HasEntries idx sizes entry)
    (hbad : ∃ c, Within sizes c ∧ ¬ InRange (vs.getD ax 0) (entry c)) (last : Bool) :
    ObjectOps.resample ms.length obj idx (some a) last = .error .indexError := by
  have hv : vs ≠ [] := by rintro rfl; simp at hax
  have en := normalizeAxisIndex_names (by omega) ha
  obtain ⟨c, hc, hnot⟩ := hbad
  have hmem : entry c ∈ idx.vals := (hasEntries_mem he _).2 ⟨c, hc, rfl⟩
  have hbad' : ∀ {x : Arr K} {p : ℕ}, x.shape.getD p 0 = vs.getD ax 0 →
      npTake x idx p = .error .indexError := by
    intro x p hx
    unfold npTake
    rw [if_pos]
    refine ⟨_, hmem, ?_⟩
    rw [hx]
    unfold InRange at hnot
    omega
  unfold ObjectOps.resample
  rw [raiseIfScalar_eq h, if_neg hv, h.length]
  simp only [Option.elim_some, en, Except.bind]
  have hsz : obj.shape.getD ax 0 = vs.getD ax 0 := by
    rw [h.shape, List.getD_append _ _ _ _ hax]
  have el : vs.length + ms.length - ms.length - 1 = vs.length - 1 := by omega
  rw [el]
  split_ifs with hl
  · rw [moveaxis_last h hax]
    have hT := transpose_cells h (keptAxes_perm (n := vs.length) (s := [ax]) (by simp)
      (by simpa using hax))
    have hklen : (keptAxes vs.length [ax]).length = vs.length - 1 := by
      have := keptAxes_length (n := vs.length) (s := [ax]) (by simp) (by simpa using hax)
      simp at this; omega
    simp only
    rw [hbad']
    rw [hT.object.shape, List.getD_append _ _ _ _ (by simp [hklen]), List.map_append,
      List.getD_append_right _ _ _ _ (by simp [hklen])]
    simp [hklen]
  · rw [hbad' hsz]

/-- **C60** Left at its default `-1`, the axis of `resample` is the last moment axis, not the last value
axis: a list of as many indices as there are moments permutes the moments of every cell, without an
error; any other list of valid indices is refused. -/
theorem C60_resample_default_axis {s : ℕ} (h : IsObject obj vs [s]) (hv : vs ≠ []) {idx : IdxArr}
    {n : ℕ} {entry : List ℕ → ℤ} (he : HasEntries idx [n] entry)
    (hr : ∀ m < n, InRange s (entry [m])) :
    if n = s then
      ∃ out, ObjectOps.resample 1 obj idx (some (.int (-1))) false = .ok out ∧
        IsObject out vs [s] ∧ ∀ i, InBounds vs i → ∀ m < s,
          out.get (atMom vs.length i [m]) = obj.get (atMom vs.length i [wrap s (entry [m])])
    else ObjectOps.resample 1 obj idx (some (.int (-1))) false = .error .valueError := by
  have en : normalizeAxisIndex (.int (-1)) (vs.length + 1) (some 1) = .ok vs.length := by
    refine (npNormalize_int (-1) (vs.length + 1) vs.length).2 ⟨by unfold InRange; omega, ?_⟩
    have := wrap_neg (n := vs.length + 1) (z := -1) (by unfold InRange; omega) (by omega)
    omega
  have hsz : obj.shape.getD vs.length 0 = s := by
    rw [h.shape, List.getD_append_right _ _ _ _ (by omega)]
    simp
  have hok : ¬ ∃ z ∈ idx.vals, z < -(obj.shape.getD vs.length 0 : ℤ)
      ∨ (obj.shape.getD vs.length 0 : ℤ) ≤ z := by
    rintro ⟨z, hz, hbad⟩
    obtain ⟨c, hc, rfl⟩ := (hasEntries_mem he z).1 hz
    obtain ⟨m, hm, rfl⟩ := within_one.1 hc
    have := hr m hm
    rw [hsz] at hbad
    unfold InRange at this
    omega
  obtain ⟨out, hout, hsh, hget⟩ : ∃ out, npTake obj idx vs.length = .ok out ∧
      out.shape = vs ++ [n] ∧ ∀ i, out.get i = obj.get (fun p => if p < vs.length then i p
        else if p = vs.length then pyIdx s (idx.at [i vs.length]) else i p) := by
    unfold npTake
    rw [if_neg hok]
    refine ⟨_, rfl, ?_, fun i => ?_⟩
    · simp [h.shape, he.shape]
    · simp only [he.shape, hsz, List.length_singleton, List.range_one, List.map_cons, List.map_nil,
        Nat.add_zero, Nat.add_sub_cancel]
  have e0 : ObjectOps.resample 1 obj idx (some (.int (-1))) false = newLike 1 obj out := by
    unfold ObjectOps.resample
    have e1 := raiseIfScalar_eq h
    have e2 := h.length
    simp only [List.length_singleton] at e1 e2
    rw [e1, if_neg hv, e2]
    simp only [Option.elim_some, en, Except.bind, Bool.false_eq_true, false_and, if_false, hout]
  rw [e0]
  have hms : momShape 1 obj = .ok [s] := momShape_eq h
  have hmo : momShape 1 out = .ok [n] := by
    unfold momShape
    rw [hsh]
    simp
  unfold newLike
  simp only [hms, hmo, Except.bind]
  by_cases hn : n = s
  · subst hn
    rw [if_pos rfl, if_neg (by simp)]
    refine ⟨out, rfl, ⟨?_, hsh, h.count, h.orders⟩, ?_⟩
    · intro i j hij
      rw [hget, hget]
      have hl : out.shape.length = vs.length + 1 := by rw [hsh]; simp
      refine h.get_congr fun q hq => ?_
      have hq' : q < vs.length + 1 := by simpa using hq
      rw [hij q (by omega), hij vs.length (by omega)]
    · intro i hi m hm
      rw [hget]
      refine h.get_congr fun q hq => ?_
      have hq' : q < vs.length + 1 := by simpa using hq
      unfold atMom
      by_cases hlt : q < vs.length
      · simp [hlt]
      · have hqe : q = vs.length := by omega
        have hw : Within [n] [m] := within_one.2 ⟨m, hm, rfl⟩
        rw [if_neg hlt, if_pos hqe, if_neg hlt]
        simp only [lt_self_iff_false, if_false, Nat.sub_self, List.getD_cons_zero, hqe]
        rw [hasEntries_at he hw, pyIdx_eq_wrap (hr m hm)]
  · rw [if_neg hn, if_pos (by simpa using hn)]

end Cells

section Samples

variable {K : Type*} [Field K] [DecidableEq K] [CharZero K] {obj out : Arr K}
  {vs vs' : List ℕ}

theorem holds_congr {order : ℕ} (ho : 1 ≤ order) {L : List (Sample K)} {a b : Mom K}
    (e : EqUpTo order a b) (h : Holds order L b) : Holds order L a := by
  rcases h with ⟨hW, hm⟩ | ⟨hz, hs⟩
  · exact Or.inl ⟨hW, isMoments_of_eqUpTo ho e hm⟩
  · exact Or.inr ⟨(e 0 (by omega)).trans hz, hs⟩

theorem holds2_congr {o0 o1 : ℕ} (h0 : 1 ≤ o0) (h1 : 1 ≤ o1) {L : List (Sample2 K)}
    {a b : Com K} (e : EqUpTo2 o0 o1 a b) (h : Holds2 o0 o1 L b) : Holds2 o0 o1 L a := by
  rcases h with ⟨hW, hm⟩ | ⟨hz, hs⟩
  · exact Or.inl ⟨hW, isComoments_of_eqUpTo2 h0 h1 e hm⟩
  · exact Or.inr ⟨(e 0 0 (by omega) (by omega)).trans hz, hs⟩

/-- **C60** Cells that are moved as a whole keep standing for the same samples. -/
theorem C60_cells_keep_samples {order : ℕ} {f : (ℕ → ℕ) → ℕ → ℕ} {L : (ℕ → ℕ) → List (Sample K)}
    (h : CellsFrom out obj vs' vs [order + 1] f)
    (hs : Stands core1 (Holds order) obj vs [order + 1] L) :
    Stands core1 (Holds order) out vs' [order + 1] (fun i => L (f i)) where
  object := h.object
  nd := hs.nd
  holds := fun i hi => by
    have ho : 1 ≤ order := by have := hs.object.orders (order + 1) (by simp); omega
    refine holds_congr ho (fun m hm => ?_) (hs.holds (f i) (h.source i hi))
    exact h.cell i hi [m] (within_one.2 ⟨m, by omega, rfl⟩)

theorem C60_cells_keep_samples_cov {o0 o1 : ℕ} {f : (ℕ → ℕ) → ℕ → ℕ} {L : (ℕ → ℕ) → List (Sample2 K)}
    (h : CellsFrom out obj vs' vs [o0 + 1, o1 + 1] f)
    (hs : Stands core2 (Holds2 o0 o1) obj vs [o0 + 1, o1 + 1] L) :
    Stands core2 (Holds2 o0 o1) out vs' [o0 + 1, o1 + 1] (fun i => L (f i)) where
  object := h.object
  nd := hs.nd
  holds := fun i hi => by
    have h0 : 1 ≤ o0 := by have := hs.object.orders (o0 + 1) (by simp); omega
    have h1 : 1 ≤ o1 := by have := hs.object.orders (o1 + 1) (by simp); omega
    refine holds2_congr h0 h1 (fun m n hm hn => ?_) (hs.holds (f i) (h.source i hi))
    exact h.cell i hi [m, n] (within_two.2 ⟨m, by omega, n, by omega, rfl⟩)

/-- An object that shows the moments of samples stands for them. -/
theorem Spec.ObjectOf.stands {order : ℕ} {L : (ℕ → ℕ) → List (Sample K)}
    (h : ObjectOf obj vs order L) : Stands core1 (Holds order) obj vs [order + 1] L :=
  ⟨h.object, rfl, fun i hi => .inl ⟨h.nonzero i hi, h.moments i hi⟩⟩

theorem Spec.ObjectOf2.stands {o0 o1 : ℕ} {L : (ℕ → ℕ) → List (Sample2 K)}
    (h : ObjectOf2 obj vs o0 o1 L) : Stands core2 (Holds2 o0 o1) obj vs [o0 + 1, o1 + 1] L :=
  ⟨h.object, rfl, fun i hi => .inl ⟨h.nonzero i hi, h.moments i hi⟩⟩

end Samples

/-! Concrete cases -/

/-- Six cells with two value axes of sizes 2 and 3. -/
def exOps : Arr ℚ := ⟨[2, 3, 3], fun i => 100 * i 0 + 10 * i 1 + i 2⟩

theorem exOps_object : IsObject exOps [2, 3] [3] where
  proper := by
    intro i j h
    have h0 := h 0 (by decide)
    have h1 := h 1 (by decide)
    have h2 := h 2 (by decide)
    simp [exOps, h0, h1, h2]
  shape := rfl
  count := by decide
  orders := by decide

theorem exOps_resolves : Resolves ([2, 3] : List ℕ).prod [-1, 2] [3, 2] where
  sizes := by simp
  total := by decide
  atMostOne := by decide
  determined := by decide

example := C60_reshape exOps_object (by decide) exOps_resolves false

example : items (ObjectOps.reshape 1 exOps [-1, 2] false) [[0, 1, 0], [1, 0, 1], [2, 1, 2]]
    = some ([3, 2, 3], [10, 21, 122]) := by decide +kernel

example : items (ObjectOps.reshape 1 exOps [3, 2] true) [[0, 1, 0]]
    = some ([3, 2, 3], [110]) := by decide +kernel

example := C60_reshape_rejects exOps_object (req := [4, -1]) (by decide) (.inr (by
  rintro ⟨vs', h⟩
  obtain ⟨a, b, rfl⟩ := List.length_eq_two.1 h.sizes.length_eq.symm
  have h1 := h.sizes
  have h2 := h.total
  simp only [List.forall₂_cons, List.Forall₂.nil, and_true, List.prod_cons, List.prod_nil,
    mul_one] at h1 h2
  obtain rfl : a = 4 := by omega
  omega)) false

theorem exOps_names : List.Forall₂ (NamesAxis 3 1) [.int 0] [0] := by
  simp [NamesAxis, InRange, wrap]

theorem exOps_names' : List.Forall₂ (NamesAxis 3 1) [.complex 0 (-1)] [1] := by
  simp only [List.forall₂_cons, List.Forall₂.nil, and_true]
  exact ⟨-1, by norm_num, by unfold InRange; decide, by decide⟩

example := C60_moveaxis exOps_object exOps_names exOps_names' (by decide) (by decide) rfl
  (by decide) (by decide)

example := C60_moveaxis_moment_rejected exOps_object exOps_names
  (show List.Forall₂ (NamesAxis 3 1) [.int (-1)] [2] by simp [NamesAxis, InRange, wrap])
  (by decide) (by decide) (by decide)

example := C60_moveaxis_to_end exOps_object (axis := some [.int 0]) exOps_names (by decide)
  (by decide) none

example : items (ObjectOps.moveaxis 1 exOps (some (.many [.int 0])) (some (.many [.complex 0 (-1)]))
    false) [[2, 1, 0], [1, 0, 2]] = some ([3, 2, 3], [120, 12]) := by decide +kernel

example := C60_axes_to_end exOps_object.proper (mom := [0]) (by
  simp [InRange, exOps]) (axis := some [.int 1]) (s := [1])
  (by simp [NamesAxis, InRange, wrap, exOps]) (by simp [wrap, exOps]) none false

/-- With a moment axis that is not last, moving other axes may move it: here axis 0 goes to the end,
and the moment axis, 1 before, is 0 afterwards. -/
example : moveOrder 3 (some [1]) (some (.one (.int 0))) (some (.one (.int 2))) false false
    = .ok [1, 2, 0] := by decide +kernel

example : ∃ out, ∃ f : (ℕ → ℕ) → ℕ → ℕ, ObjectOps.reshape 1 exStat [1, -1] true = .ok out ∧
    Stands core1 (Holds 3) out [1, 2] [4] (fun i => exStatL (f i)) := by
  obtain ⟨out, f, h1, h2, _⟩ := C60_reshape exStat_object.object (by decide) (req := [1, -1])
    (vs' := [1, 2]) ⟨by simp, by decide, by decide, by decide⟩ true
  exact ⟨out, f, h1, C60_cells_keep_samples h2 exStat_object.stands⟩

example := C60_cells_keep_samples_cov (vs' := []) (f := id)
  ⟨exStat2_object.object, fun _ h => h, fun _ _ _ _ => rfl⟩ exStat2_object.stands

def exOpsIdx : IdxArr := ⟨[2, 2], [1, 1, 0, -1]⟩

theorem exOpsIdx_entries : HasEntries exOpsIdx [2, 2]
    (fun c => [1, 1, 0, -1].getD (2 * c.getD 0 0 + c.getD 1 0) 0) where
  shape := rfl
  vals := by decide +kernel

theorem exOpsIdx_range : ∀ c, Within [2, 2] c →
    InRange (([2, 3] : List ℕ).getD 0 0)
      ((fun c : List ℕ => ([1, 1, 0, -1] : List ℤ).getD (2 * c.getD 0 0 + c.getD 1 0) 0) c) := by
  intro c hc
  obtain ⟨a, ha, b, hb, rfl⟩ := within_two.1 hc
  obtain rfl | rfl : a = 0 ∨ a = 1 := by omega
  all_goals
    obtain rfl | rfl : b = 0 ∨ b = 1 := by omega
    all_goals simp [InRange]

example := C60_resample exOps_object (a := .int 0) (ax := 0) (by simp [NamesAxis, InRange, wrap])
  (by decide) exOpsIdx_entries exOpsIdx_range

example := C60_resample_last exOps_object (a := .int 0) (ax := 0)
  (by simp [NamesAxis, InRange, wrap]) (by decide) exOpsIdx_entries exOpsIdx_range

example : items (ObjectOps.resample 1 exOps exOpsIdx (some (.int 0)) false)
    [[0, 1, 2, 0], [1, 0, 2, 1]] = some ([2, 2, 3, 3], [120, 21]) := by decide +kernel

example : items (ObjectOps.resample 1 exOps exOpsIdx (some (.int 0)) true)
    [[2, 0, 1, 0], [2, 1, 0, 1]] = some ([3, 2, 2, 3], [120, 21]) := by decide +kernel

def exOpsIdx3 : IdxArr := ⟨[3], [0, 2, 1]⟩

theorem exOpsIdx3_entries : HasEntries exOpsIdx3 [3] (fun c => [0, 2, 1].getD (c.getD 0 0) 0) where
  shape := rfl
  vals := by decide +kernel

example := C60_resample_index_error exOps_object (a := .int 0) (ax := 0)
  (by simp [NamesAxis, InRange, wrap]) (by decide) exOpsIdx3_entries
  ⟨[1], within_one.2 ⟨1, by decide, rfl⟩, by simp [InRange]⟩ true

theorem exOpsIdx3_range : ∀ m < 3, InRange 3 ((fun c : List ℕ =>
    ([0, 2, 1] : List ℤ).getD (c.getD 0 0) 0) [m]) := by
  intro m hm
  obtain rfl | rfl | rfl : m = 0 ∨ m = 1 ∨ m = 2 := by omega
  all_goals simp [InRange]

example := C60_resample_default_axis exOps_object (by decide) exOpsIdx3_entries exOpsIdx3_range

/-- The moments of each cell are permuted. -/
example : items (ObjectOps.resample 1 exOps exOpsIdx3 (some (.int (-1))) false)
    [[1, 2, 0], [1, 2, 1], [1, 2, 2]] = some ([2, 3, 3], [120, 122, 121]) := by decide +kernel

end Cmomy
