import Verif.Lemmas.ObjectCollect
import Verif.Props.Grouped
import Verif.Props.AxisOps

/-!
# The collecting methods of array objects
-/

set_option linter.unusedSectionVars false

namespace Cmomy

open Spec Nd Axes ObjectOps

section Groups

variable {α : Type*}

theorem groupRows_append (g : ℤ) (A B : List ℤ) (l : List α) :
    groupRows g (A ++ B) l = groupRows g A l ++ groupRows g B (l.drop A.length) := by
  induction A generalizing l with
  | nil => simp [groupRows]
  | cons a A ih =>
    cases l with
    | nil => simp [groupRows]
    | cons x l =>
      have := ih l
      unfold groupRows at this ⊢
      rw [List.cons_append, List.zip_cons_cons, List.zip_cons_cons, List.filterMap_cons,
        List.filterMap_cons, List.length_cons, List.drop_succ_cons, this]
      by_cases h : a = g
      · simp [h]
      · simp [h]

theorem groupRows_replicate (g v : ℤ) (n : ℕ) (l : List α) :
    groupRows g (List.replicate n v) l = if v = g then l.take n else [] := by
  induction n generalizing l with
  | zero => simp [groupRows]
  | succ n ih =>
    cases l with
    | nil => simp [groupRows]
    | cons x l =>
      have := ih l
      unfold groupRows at this ⊢
      rw [List.replicate_succ, List.zip_cons_cons, List.filterMap_cons, this]
      by_cases h : v = g
      · simp [h]
      · simp [h]

theorem groupRows_arange (nb b g : ℕ) (l : List α) :
    groupRows g (Block.arangeRepeat nb b) l
      = if g < nb then slice l (b * g) (b * (g + 1)) else [] := by
  induction nb with
  | zero => simp [Block.arangeRepeat, groupRows]
  | succ n ih =>
    rw [Block.arangeRepeat_succ, groupRows_append, ih, groupRows_replicate,
      Block.length_arangeRepeat]
    by_cases h : g < n
    · rw [if_pos h, if_neg (show ¬ (n : ℤ) = g by omega), if_pos (show g < n + 1 by omega),
        List.append_nil]
    · rw [if_neg h]
      by_cases e : n = g
      · subst e
        rw [if_pos rfl, if_pos (by omega), List.nil_append, List.take_drop]
        unfold slice
        rw [Nat.mul_comm n b, Nat.mul_succ]
      · rw [if_neg (show ¬ (n : ℤ) = g by omega), if_neg (show ¬ g < n + 1 by omega),
          List.append_nil]

theorem groupRows_blocks {N b g : ℕ} (hg : g < N / b) (l : List α) :
    groupRows g (Block.arangeRepeat (N / b) b ++ List.replicate (N % b) (-1)) l
      = slice l (b * g) (b * (g + 1)) := by
  rw [groupRows_append, groupRows_arange, if_pos hg, groupRows_replicate, if_neg (by omega),
    List.append_nil]

end Groups

section Methods

variable {K V M ι σ : Type*} [Field K] [LinearOrder K] [IsStrictOrderedRing K]
  {k : Kernel K V M} {law : Lawful k ι} {H : List σ → M → Prop} {wt : List σ → K}
  {scaled : K → σ → σ} {core : Core K M} {obj : Arr K} {vs ms : List ℕ} {L : (ℕ → ℕ) → List σ}

theorem along_nonneg (hw : ∀ i, InBounds vs i → 0 ≤ wt (L i)) {ax : ℕ} {i : ℕ → ℕ}
    (hi : ∀ a < vs.length, a ≠ ax → i a < vs.getD a 0) :
    ∀ A ∈ samplesAlong L ax (vs.getD ax 0) i, 0 ≤ wt A := by
  intro A hA
  obtain ⟨j, hj, rfl⟩ := List.mem_map.1 hA
  refine hw _ fun a ha => ?_
  by_cases e : a = ax
  · subst e; rw [Function.update_self]; exact List.mem_range.1 hj
  · rw [Function.update_of_ne e]; exact hi a ha e

theorem length_samplesAlong (ax n : ℕ) (i : ℕ → ℕ) : (samplesAlong L ax n i).length = n := by
  simp [samplesAlong]

theorem nd_le (hS : Stands core H obj vs ms L) : core.nd ≤ obj.shape.length := by
  rw [hS.object.length, hS.nd]; omega

theorem axisSize_val (hS : Stands core H obj vs ms L) {a : ℕ} (ha : a < vs.length) :
    axisSize obj a = vs.getD a 0 := by
  unfold axisSize; rw [hS.object.shape, List.getD_append _ _ _ _ ha]

theorem wrap_val (hS : Stands core H obj vs ms L) {a : ℕ} (ha : a < vs.length) :
    wrap obj.shape.length (a : ℤ) = a := by
  rw [hS.object.length]; exact wrap_natCast (by omega)

theorem size_same (hS : Stands core H obj vs ms L) {ax : ℕ} (hax : ax < vs.length) (a : ℕ) :
    axisSize obj a = sizesAfter obj ax (vs.getD ax 0) a := by
  unfold sizesAfter
  split_ifs with e
  · rw [e, axisSize_val hS hax]
  · rfl

theorem map_same (vs o : List ℕ) (ax : ℕ) :
    o.map (fun a => if a = ax then vs.getD ax 0 else vs.getD a 0)
      = o.map (fun a => vs.getD a 0) := by
  refine List.map_congr_left fun a _ => ?_
  split_ifs with e
  · rw [e]
  · rfl

theorem names_int {n d ax : ℕ} (h : ax < n) : NamesAxis n d (.int ax) ax :=
  ⟨inRange_natCast h, (wrap_natCast h).symm⟩

theorem Meaning.cumulative_stands (T : Meaning k law H wt scaled) (hc : core.Ok)
    (hS : Stands core H obj vs ms L) (hw : ∀ i, InBounds vs i → 0 ≤ wt (L i)) {axis : AxisArg}
    {ax : ℕ} (ha : NamesAxis obj.shape.length core.nd axis ax) (hax : ax < vs.length)
    (axesToEnd : Bool) :
    ∃ out, ObjectOps.cumulative core k obj axis axesToEnd = .ok out ∧
      ResultStands core H out ((axesOfResult vs.length ax axesToEnd).map (fun a => vs.getD a 0)) ms
        (fun i => ((samplesAlong L ax (vs.getD ax 0)
          (readAs (axesOfResult vs.length ax axesToEnd) i)).take
            (readAs (axesOfResult vs.length ax axesToEnd) i ax + 1)).flatten) := by
  have g := goodAxis_of hS.object hS.nd hax
  obtain ⟨out, ho, hs⟩ := C55_cumulative hc k false g (by simp [axesLast]) axesToEnd
  refine ⟨out, ?_, ?_⟩
  · rw [← ho]
    unfold ObjectOps.cumulative cumulativeNd
    rw [prepareData_names (nd_le hS) ha]
  · have := axis_op_stands hc hS hax (newSize := vs.getD ax 0) (ate := axesToEnd)
      (size := axisSize obj) (G := fun data j => (k.cumulative data).bind (fun rows => rows[j]?))
      (L' := fun Ls j => (Ls.take (j + 1)).flatten) (size_same hS hax)
      (by simpa only [wrap_val hS hax, Bool.false_eq_true, if_false] using hs)
      (fun i hi hi2 data hd => T.cumulative hd (along_nonneg hw hi)
        (by rw [length_samplesAlong]; exact hi2))
    rwa [map_same] at this

theorem Meaning.jackknife_stands (T : Meaning k law H wt scaled) (hc : core.Ok)
    (hS : Stands core H obj vs ms L) (hw : ∀ i, InBounds vs i → 0 ≤ wt (L i)) {axis : AxisArg}
    {ax : ℕ} (ha : NamesAxis obj.shape.length core.nd axis ax) (hax : ax < vs.length)
    (hz : ∀ a < vs.length, a ≠ ax → vs.getD a 0 ≠ 0)
    (hne : ∀ i, InBounds vs i →
      wt ((samplesAlong L ax (vs.getD ax 0) i).eraseIdx (i ax)).flatten ≠ 0)
    (axesToEnd : Bool) :
    ∃ out, ObjectOps.jackknifeAndReduce core k obj (some axis) axesToEnd = .ok out ∧
      ResultStands core H out ((axesOfResult vs.length ax axesToEnd).map (fun a => vs.getD a 0)) ms
        (fun i => ((samplesAlong L ax (vs.getD ax 0)
          (readAs (axesOfResult vs.length ax axesToEnd) i)).eraseIdx
            (readAs (axesOfResult vs.length ax axesToEnd) i ax)).flatten) := by
  have g := goodAxis_of hS.object hS.nd hax
  have hnz : ∀ a ∈ keptAxes obj.shape.length [wrap obj.shape.length (ax : ℤ)],
      axisSize obj a ≠ 0 := by
    intro a ha
    obtain ⟨h1, h2⟩ := List.mem_filter.1 ha
    have h1 := List.mem_range.1 h1
    rw [wrap_val hS hax] at h2
    by_cases hv : a < vs.length
    · rw [axisSize_val hS hv]
      exact hz a hv (by simpa using h2)
    · unfold axisSize
      rw [hS.object.length] at h1
      rw [hS.object.shape, List.getD_append_right _ _ _ _ (by omega)]
      have hj : a - vs.length < ms.length := by omega
      have := hS.object.orders (ms.getD (a - vs.length) 0)
        (by rw [List.getD_eq_getElem _ _ hj]; exact List.getElem_mem hj)
      omega
  obtain ⟨out, ho, hs⟩ := C55_jackknife_data hc k g (by simp [axesLast]) hnz axesToEnd
  refine ⟨out, ?_, ?_⟩
  · rw [← ho]
    show jackknifeDataNd core k obj axis _ axesToEnd = _
    unfold jackknifeDataNd
    rw [prepareData_names (nd_le hS) ha]
    congr 1
    unfold reduceNd
    congr 1
    funext mom
    congr 1
    show normalizeAxes [axis] _ _ _ = normalizeAxes [.int ax] _ _ _
    rw [normalizeAxes_names (nd_le hS) (.cons ha .nil) (by simp),
      normalizeAxes_names (nd_le hS) (.cons (names_int (namesAxis_lt ha)) .nil) (by simp)]
  · have := axis_op_stands hc hS hax (newSize := vs.getD ax 0) (ate := axesToEnd)
      (size := axisSize obj)
      (G := fun data j => (k.jackknifeData data).bind (fun rows => (rows[j]?).join))
      (L' := fun Ls j => (Ls.eraseIdx j).flatten) (size_same hS hax)
      (by simpa only [wrap_val hS hax] using hs)
      (fun i hi hi2 data hd => T.jackknife hd (along_nonneg hw hi)
        (by rw [length_samplesAlong]; exact hi2) (hne i fun a ha => by
          by_cases e : a = ax
          · rw [e]; exact hi2
          · exact hi a ha e))
    rwa [map_same] at this

theorem Meaning.resample_stands (T : Meaning k law H wt scaled) (hc : core.Ok)
    (hS : Stands core H obj vs ms L) (hw : ∀ i, InBounds vs i → 0 ≤ wt (L i)) {axis : AxisArg}
    {ax : ℕ} (ha : NamesAxis obj.shape.length core.nd axis ax) (hax : ax < vs.length)
    {freq : List (List K)} (hf : ∀ fs ∈ freq, ∀ f ∈ fs, 0 ≤ f) (axesToEnd : Bool) :
    ∃ out, ObjectOps.resampleAndReduce core k obj freq (vs.getD ax 0) (some axis) axesToEnd
        = .ok out ∧
      ResultStands core H out ((axesOfResult vs.length ax axesToEnd).map
          (fun a => if a = ax then freq.length else vs.getD a 0)) ms
        (fun i => ((freq.getD (readAs (axesOfResult vs.length ax axesToEnd) i ax) []).zip
            (samplesAlong L ax (vs.getD ax 0)
              (readAs (axesOfResult vs.length ax axesToEnd) i))).flatMap
          (fun p => p.2.map (scaled p.1))) := by
  have g := goodAxis_of hS.object hS.nd hax
  obtain ⟨out, ho, hs⟩ := (C55_resample_data hc k freq (vs.getD ax 0) g (by simp [axesLast])
    axesToEnd).2 (by rw [wrap_val hS hax, axisSize_val hS hax])
  refine ⟨out, ?_, ?_⟩
  · rw [← ho]
    show resampleDataNd core k freq _ obj axis _ axesToEnd = _
    unfold resampleDataNd
    rw [prepareData_names (nd_le hS) ha]
  · exact axis_op_stands hc hS hax (newSize := freq.length) (ate := axesToEnd)
      (size := sizesAfter obj ax freq.length)
      (G := fun data j => ((k.resampleData freq data)[j]?).join)
      (L' := fun Ls j => ((freq.getD j []).zip Ls).flatMap (fun p => p.2.map (scaled p.1)))
      (fun _ => rfl) (by simpa only [wrap_val hS hax] using hs)
      (fun i hi hi2 data hd => T.resample hd (along_nonneg hw hi) hf hi2)

theorem resample_wrong_size (hc : core.Ok) (hS : Stands core H obj vs ms L) {axis : AxisArg}
    {ax : ℕ} (ha : NamesAxis obj.shape.length core.nd axis ax) (hax : ax < vs.length)
    (k : Kernel K V M) (freq : List (List K)) {nsamp : ℕ} (hn : nsamp ≠ vs.getD ax 0)
    (axesToEnd : Bool) :
    ObjectOps.resampleAndReduce core k obj freq nsamp (some axis) axesToEnd
      = .error .valueError := by
  have g := goodAxis_of hS.object hS.nd hax
  rw [← (C55_resample_data hc k freq nsamp g (by simp [axesLast]) axesToEnd).1
    (by rw [wrap_val hS hax, axisSize_val hS hax]; exact hn)]
  show resampleDataNd core k freq _ obj axis _ axesToEnd = _
  unfold resampleDataNd
  rw [prepareData_names (nd_le hS) ha]

theorem grouped_names (hS : Stands core H obj vs ms L) {axis : AxisArg} {ax : ℕ}
    (ha : NamesAxis obj.shape.length core.nd axis ax) (k : Kernel K V M) (by_ : List ℤ)
    (block : Option ℤ) (axesToEnd keepdims : Bool) :
    ObjectOps.reduce core k obj (some (.one axis)) (some by_) block axesToEnd keepdims
      = groupedNd core k by_ obj (.int ax) (axesLast core.nd) axesToEnd := by
  show groupedNd core k by_ obj axis _ axesToEnd = _
  unfold groupedNd
  rw [prepareData_names (nd_le hS) ha]

theorem Meaning.grouped_stands (T : Meaning k law H wt scaled) (hc : core.Ok)
    (hS : Stands core H obj vs ms L) (hw : ∀ i, InBounds vs i → 0 ≤ wt (L i)) {axis : AxisArg}
    {ax : ℕ} (ha : NamesAxis obj.shape.length core.nd axis ax) (hax : ax < vs.length)
    {by_ : List ℤ} {m : ℤ} (hl : by_.length = vs.getD ax 0) (hm : m ∈ by_)
    (hmax : ∀ l ∈ by_, l ≤ m) (h1 : -1 ≤ m) (block : Option ℤ) (axesToEnd keepdims : Bool) :
    ∃ out, ObjectOps.reduce core k obj (some (.one axis)) (some by_) block axesToEnd keepdims
        = .ok out ∧
      ResultStands core H out ((axesOfResult vs.length ax axesToEnd).map
          (fun a => if a = ax then (m + 1).toNat else vs.getD a 0)) ms
        (fun i => (groupRows (readAs (axesOfResult vs.length ax axesToEnd) i ax) by_
            (samplesAlong L ax (vs.getD ax 0)
              (readAs (axesOfResult vs.length ax axesToEnd) i))).flatten) := by
  have g := goodAxis_of hS.object hS.nd hax
  have hmx : by_.max? = some m := List.max?_eq_some_iff.2 ⟨hm, hmax⟩
  obtain ⟨out, ho, hs⟩ := (C55_grouped hc k by_ g (by simp [axesLast]) axesToEnd).1 m
    (by rw [wrap_val hS hax, axisSize_val hS hax, hl]) hmx h1
  refine ⟨out, by rw [grouped_names hS ha, ho], ?_⟩
  refine axis_op_stands hc hS hax (newSize := (m + 1).toNat) (ate := axesToEnd)
      (size := sizesAfter obj ax (m + 1).toNat)
      (G := fun data j => match k.reduceDataGrouped data by_ none with
        | .ok rows => (rows[j]?).join
        | .error _ => none)
      (L' := fun Ls j => (groupRows j by_ Ls).flatten)
      (fun _ => rfl) ⟨by simpa only [wrap_val hS hax] using hs.1, fun i hi => ?_⟩
      (fun i hi hi2 data hd => ?_)
  · rw [hs.2 i (by simpa only [wrap_val hS hax] using hi), wrap_val hS hax]
    beta_reduce
    congr 1
  obtain ⟨r, e, hr⟩ := T.reduce (forall2_groupRows hd (i ax) by_)
    (fun A hA => along_nonneg hw hi A (mem_groupRows hA))
  refine ⟨r, ?_, hr⟩
  rw [C31_grouped_rows_default k data by_ m (by rw [hl, ← hd.length_eq, length_samplesAlong]) hm
    hmax h1]
  simp [hi2, e]

theorem block_labels (hS : Stands core H obj vs ms L) {axis : AxisArg} {ax : ℕ}
    (ha : NamesAxis obj.shape.length core.nd axis ax) (hax : ax < vs.length) (k : Kernel K V M)
    (b : ℤ) (axesToEnd keepdims : Bool) :
    ObjectOps.reduce core k obj (some (.one axis)) none (some b) axesToEnd keepdims
      = (Block.blockBy (vs.getD ax 0) b .dropLast).bind fun by_ =>
        ObjectOps.reduce core k obj (some (.one axis)) (some by_) none axesToEnd keepdims := by
  have e : selectNdat core.nd obj (some (.one axis)) = .ok (vs.getD ax 0) := by
    have h1 : obj.shape.length - core.nd = vs.length := by
      rw [hS.object.length, hS.nd]; omega
    have h2 : obj.shape.getD ax 0 = vs.getD ax 0 := axisSize_val hS hax
    show Except.bind (normalizeAxisIndex axis obj.shape.length (some core.nd)) _ = _
    rw [normalizeAxisIndex_names (nd_le hS) ha]
    show (if obj.shape.length - core.nd ≤ ax then _ else _) = _
    rw [if_neg (by omega), h2]
  unfold ObjectOps.reduce
  show Except.bind (Except.bind (selectNdat core.nd obj (some (.one axis))) fun ndat =>
    (Block.blockBy ndat b .dropLast).map some) _ = _
  rw [e]
  show Except.bind ((Block.blockBy (vs.getD ax 0) b .dropLast).map some) _ = _
  cases Block.blockBy (vs.getD ax 0) b .dropLast <;> rfl

end Methods

section Sums

variable {K V M ι σ : Type*} [Field K] [DecidableEq K]
  {k : Kernel K V M} {law : Lawful k ι} {H : List σ → M → Prop} {wt : List σ → K}
  {scaled : K → σ → σ}

theorem Meaning.raw_flatten (T : Meaning k law H wt scaled) (Ls : List (List σ)) :
    T.raw Ls.flatten = (Ls.map T.raw).sum := by
  induction Ls with
  | nil => simp [T.nil]
  | cons A Ls ih => rw [List.flatten_cons, T.append, ih, List.map_cons, List.sum_cons]

theorem Meaning.raw_drawn (T : Meaning k law H wt scaled) (fs : List ℕ) (Ls : List (List σ)) :
    T.raw (((fs.map (Nat.cast : ℕ → K)).zip Ls).flatMap (fun p => p.2.map (scaled p.1)))
      = T.raw (drawn fs Ls).flatten := by
  induction fs generalizing Ls with
  | nil => simp [drawn]
  | cons f fs ih =>
    cases Ls with
    | nil => simp [drawn]
    | cons A Ls =>
      have e := ih Ls
      unfold drawn at e ⊢
      rw [List.map_cons, List.zip_cons_cons, List.zip_cons_cons, List.flatMap_cons,
        List.flatMap_cons, List.flatten_append, T.append, T.append, T.scale, e, T.raw_flatten
          (List.replicate f A), List.map_replicate, List.sum_replicate, Nat.cast_smul_eq_nsmul]

theorem Meaning.raw_taken (T : Meaning k law H wt scaled) {idx : List ℕ} {Ls : List (List σ)}
    (h : ∀ i ∈ idx, i < Ls.length) :
    T.raw ((((counts Ls.length idx).map (Nat.cast : ℕ → K)).zip Ls).flatMap
        (fun p => p.2.map (scaled p.1))) = T.raw (takeAt Ls idx).flatten := by
  rw [T.raw_drawn, T.raw_flatten, T.raw_flatten]
  exact ((Freq.takeAt_perm_drawn h Ls).map T.raw).symm.sum_eq

theorem Meaning.of_raw (T : Meaning k law H wt scaled) {A B : List σ} {r : M}
    (e : T.raw A = T.raw B) (h : H A r) : H B r := by
  rw [T.iff] at h ⊢
  rw [h, e]

end Sums

section Blocks

variable {K V M ι σ : Type*} [Field K] [LinearOrder K] [IsStrictOrderedRing K]
  {k : Kernel K V M} {law : Lawful k ι} {H : List σ → M → Prop} {wt : List σ → K}
  {scaled : K → σ → σ} {core : Core K M} {obj : Arr K} {vs ms : List ℕ} {L : (ℕ → ℕ) → List σ}

theorem resultStands_congr {out : Arr (Option K)} {L L' : (ℕ → ℕ) → List σ}
    (h : ResultStands core H out vs ms L)
    (e : ∀ i, InBounds vs i → ∀ r, H (L i) r → H (L' i) r) : ResultStands core H out vs ms L' where
  shape := h.shape
  holds := fun i hi => by
    obtain ⟨r, h1, h2⟩ := h.holds i hi
    exact ⟨r, e i hi r h1, h2⟩

theorem readAs_bound {o : List ℕ} {size : ℕ → ℕ} {i : ℕ → ℕ} (hi : InBounds (o.map size) i) {a : ℕ}
    (ha : a ∈ o) : readAs o i a < size a := by
  have h1 := List.idxOf_lt_length_of_mem ha
  have := hi (o.idxOf a) (by rw [List.length_map]; exact h1)
  rwa [List.getD_eq_getElem _ _ (by rw [List.length_map]; exact h1), List.getElem_map,
    List.getElem_idxOf h1] at this

theorem mem_axesOfResult {n ax : ℕ} (h : ax < n) (ate : Bool) : ax ∈ axesOfResult n ax ate :=
  (axesOfResult_perm h ate).mem_iff.2 (List.mem_range.2 h)

theorem Meaning.block_stands (T : Meaning k law H wt scaled) (hc : core.Ok)
    (hS : Stands core H obj vs ms L) (hw : ∀ i, InBounds vs i → 0 ≤ wt (L i)) {axis : AxisArg}
    {ax : ℕ} (ha : NamesAxis obj.shape.length core.nd axis ax) (hax : ax < vs.length)
    {b : ℕ} (h1 : 1 ≤ b) (h2 : b ≤ vs.getD ax 0) (axesToEnd keepdims : Bool) :
    ∃ out, ObjectOps.reduce core k obj (some (.one axis)) none (some (b : ℤ)) axesToEnd keepdims
        = .ok out ∧
      ResultStands core H out ((axesOfResult vs.length ax axesToEnd).map
          (fun a => if a = ax then vs.getD ax 0 / b else vs.getD a 0)) ms
        (fun i => (slice (samplesAlong L ax (vs.getD ax 0)
              (readAs (axesOfResult vs.length ax axesToEnd) i))
            (b * readAs (axesOfResult vs.length ax axesToEnd) i ax)
            (b * (readAs (axesOfResult vs.length ax axesToEnd) i ax + 1))).flatten) := by
  have hq : 0 < vs.getD ax 0 / b := Nat.div_pos h2 (by omega)
  have hm : ((vs.getD ax 0 / b - 1 : ℕ) : ℤ)
      ∈ Block.arangeRepeat (vs.getD ax 0 / b) b ++ List.replicate (vs.getD ax 0 % b) (-1) := by
    refine List.mem_append_left _ (List.count_pos_iff.1 ?_)
    rw [Block.count_arangeRepeat, if_pos (by omega)]
    omega
  have hmax : ∀ l ∈ Block.arangeRepeat (vs.getD ax 0 / b) b
      ++ List.replicate (vs.getD ax 0 % b) (-1), l ≤ ((vs.getD ax 0 / b - 1 : ℕ) : ℤ) := by
    intro l hl
    rcases List.mem_append.1 hl with hl | hl
    · have := List.count_pos_iff.2 hl
      rw [Block.count_arangeRepeat] at this
      split_ifs at this with h
      · omega
      · omega
    · rw [List.eq_of_mem_replicate hl]; omega
  obtain ⟨out, ho, hs⟩ := T.grouped_stands hc hS hw ha hax
    (by_ := Block.arangeRepeat (vs.getD ax 0 / b) b ++ List.replicate (vs.getD ax 0 % b) (-1))
    (by rw [List.length_append, Block.length_arangeRepeat, List.length_replicate]
        exact Nat.div_add_mod' _ _) hm hmax (by omega) none axesToEnd keepdims
  refine ⟨out, ?_, ?_⟩
  · rw [block_labels hS ha hax, Block.blockBy_eq _ _ _ h1 h2 (by decide)]
    exact ho
  · rw [show (((vs.getD ax 0 / b - 1 : ℕ) : ℤ) + 1).toNat = vs.getD ax 0 / b by omega] at hs
    refine resultStands_congr hs fun i hi r hr => ?_
    have hb := readAs_bound hi (mem_axesOfResult hax axesToEnd)
    rw [if_pos rfl] at hb
    rwa [groupRows_blocks hb] at hr

theorem Meaning.one_block_stands (T : Meaning k law H wt scaled) (hc : core.Ok)
    (hS : Stands core H obj vs ms L) (hw : ∀ i, InBounds vs i → 0 ≤ wt (L i)) {axis : AxisArg}
    {ax : ℕ} (ha : NamesAxis obj.shape.length core.nd axis ax) (hax : ax < vs.length)
    {b : ℤ} (hb : b ≤ 0) (h2 : vs.getD ax 0 ≠ 0) (axesToEnd keepdims : Bool) :
    ∃ out, ObjectOps.reduce core k obj (some (.one axis)) none (some b) axesToEnd keepdims
        = .ok out ∧
      ResultStands core H out ((axesOfResult vs.length ax axesToEnd).map
          (fun a => if a = ax then 1 else vs.getD a 0)) ms
        (fun i => (samplesAlong L ax (vs.getD ax 0)
              (readAs (axesOfResult vs.length ax axesToEnd) i)).flatten) := by
  obtain ⟨out, ho, hs⟩ := T.grouped_stands hc hS hw ha hax
    (by_ := List.replicate (vs.getD ax 0) 0) (m := 0) (by simp)
    (List.mem_replicate.2 ⟨h2, rfl⟩) (fun l hl => (List.eq_of_mem_replicate hl).le) (by omega)
    none axesToEnd keepdims
  refine ⟨out, ?_, ?_⟩
  · rw [block_labels hS ha hax, (C33_degenerate _ b .dropLast).1 (.inl hb)]
    exact ho
  · refine resultStands_congr hs fun i hi r hr => ?_
    have hb := readAs_bound hi (mem_axesOfResult hax axesToEnd)
    rw [if_pos rfl] at hb
    rwa [groupRows_replicate, if_pos (by omega), List.take_of_length_le
      (by rw [length_samplesAlong])] at hr

theorem block_too_long (hS : Stands core H obj vs ms L) {axis : AxisArg} {ax : ℕ}
    (ha : NamesAxis obj.shape.length core.nd axis ax) (hax : ax < vs.length) (k : Kernel K V M)
    {b : ℤ} (hb : 0 < b) (h2 : (vs.getD ax 0 : ℤ) < b) (axesToEnd keepdims : Bool) :
    ObjectOps.reduce core k obj (some (.one axis)) none (some b) axesToEnd keepdims
      = .error .valueError := by
  rw [block_labels hS ha hax, (C33_degenerate _ b .dropLast).2.1 hb h2]
  rfl

theorem Meaning.indices_stand (T : Meaning k law H wt scaled) (hc : core.Ok)
    (hS : Stands core H obj vs ms L) (hw : ∀ i, InBounds vs i → 0 ≤ wt (L i)) {axis : AxisArg}
    {ax : ℕ} (ha : NamesAxis obj.shape.length core.nd axis ax) (hax : ax < vs.length)
    {idx : List (List ℕ)} (hi : ∀ row ∈ idx, ∀ j ∈ row, j < vs.getD ax 0) (axesToEnd : Bool) :
    ∃ out, ObjectOps.resampleAndReduce core k obj
        (idx.map (fun row => (counts (vs.getD ax 0) row).map Nat.cast)) (vs.getD ax 0) (some axis)
        axesToEnd = .ok out ∧
      ResultStands core H out ((axesOfResult vs.length ax axesToEnd).map
          (fun a => if a = ax then idx.length else vs.getD a 0)) ms
        (fun i => (takeAt (samplesAlong L ax (vs.getD ax 0)
              (readAs (axesOfResult vs.length ax axesToEnd) i))
            (idx.getD (readAs (axesOfResult vs.length ax axesToEnd) i ax) [])).flatten) := by
  obtain ⟨out, ho, hs⟩ := T.resample_stands hc hS hw ha hax
    (freq := idx.map (fun row => (counts (vs.getD ax 0) row).map Nat.cast)) (by
      intro fs hfs f hf
      obtain ⟨row, _, rfl⟩ := List.mem_map.1 hfs
      obtain ⟨c, _, rfl⟩ := List.mem_map.1 hf
      exact Nat.cast_nonneg c) axesToEnd
  refine ⟨out, ho, ?_⟩
  rw [List.length_map] at hs
  refine resultStands_congr hs fun i hin r hr => ?_
  have hb := readAs_bound hin (mem_axesOfResult hax axesToEnd)
  rw [if_pos rfl] at hb
  beta_reduce at hr ⊢
  refine T.of_raw ?_ hr
  rw [List.getD_eq_getElem _ _ (by rw [List.length_map]; exact hb), List.getElem_map,
    List.getD_eq_getElem _ _ hb]
  have hlen := length_samplesAlong (L := L) ax (vs.getD ax 0)
    (readAs (axesOfResult vs.length ax axesToEnd) i)
  have := T.raw_taken (idx := idx[readAs (axesOfResult vs.length ax axesToEnd) i ax])
    (Ls := samplesAlong L ax (vs.getD ax 0) (readAs (axesOfResult vs.length ax axesToEnd) i))
    (by rw [hlen]; exact hi _ (List.getElem_mem hb))
  rw [hlen] at this
  exact this

end Blocks

section Instances

variable {K : Type*} [Field K] [DecidableEq K] [CharZero K]

def meaning1 (order : ℕ) (ho : 1 ≤ order) :
    Meaning (kernel1 order) (lawful1 (K := K) order ho) (Holds order) weight reweighted where
  raw L n := wsum L (fun x => x ^ (n : ℕ))
  iff L m := by
    rw [holds_iff_raw ho]
    exact ⟨fun h => funext h, fun h n => congrFun h n⟩
  nil := by funext n; simp [wsum]
  append A B := by funext n; exact wsum_append _ _ _
  weight L := by
    show wsum L (fun x => x ^ 0) = _
    simp [wsum, Spec.weight]
  scale f L := by
    funext n
    simp only [wsum, List.map_map, Pi.smul_apply, smul_eq_mul, ← List.sum_map_mul_left]
    congr 1
    refine List.map_congr_left fun s _ => ?_
    simp only [Function.comp_apply, reweighted]
    ring

def meaning2 (o0 o1 : ℕ) (h0 : 1 ≤ o0) (h1 : 1 ≤ o1) :
    Meaning (kernel2 o0 o1) (lawful2 (K := K) o0 o1 h0 h1) (Holds2 o0 o1) weight2
      reweighted2 where
  raw L p := wsum2 L (fun x y => x ^ (p.1 : ℕ) * y ^ (p.2 : ℕ))
  iff L m := by
    rw [holds2_iff_raw h0 h1]
    exact ⟨fun h => funext h, fun h n => congrFun h n⟩
  nil := by funext n; simp [wsum2]
  append A B := by funext n; exact wsum2_append _ _ _
  weight L := by
    show wsum2 L (fun x y => x ^ 0 * y ^ 0) = _
    simp [wsum2, Spec.weight2]
  scale f L := by
    funext n
    simp only [wsum2, List.map_map, Pi.smul_apply, smul_eq_mul, ← List.sum_map_mul_left]
    congr 1
    refine List.map_congr_left fun s _ => ?_
    simp only [Function.comp_apply, reweighted2]
    ring

end Instances

end Cmomy
