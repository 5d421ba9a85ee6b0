import Verif.Lemmas.ValsPrep

/-!
# Value functions on arrays of any shape
-/

set_option linter.unusedSectionVars false

namespace Cmomy.Nd

open Axes Spec

variable {K V M : Type*} [Field K] [DecidableEq K]

theorem frontAxes_perm {n ax : ℕ} (h : ax < n) (ate : Bool) :
    (frontAxes n ax ate).Perm (List.range n) := by
  unfold frontAxes
  split_ifs
  · exact lastOrder_perm h
  · exact .refl _

theorem frontAxes_length {n ax : ℕ} (h : ax < n) (ate : Bool) : (frontAxes n ax ate).length = n := by
  rw [(frontAxes_perm h ate).length_eq, List.length_range]

theorem frontAxes_nodup {n ax : ℕ} (h : ax < n) (ate : Bool) : (frontAxes n ax ate).Nodup :=
  (frontAxes_perm h ate).nodup_iff.2 List.nodup_range

theorem rowsLayout_length {n ax : ℕ} (h : ax < n) (nd : ℕ) (ate : Bool) :
    (rowsLayout n ax nd ate).length = n + nd := by
  rw [rowsLayout_eq, List.length_append, frontAxes_length h, List.length_map, List.length_range]

theorem rowsLayout_front {n ax p : ℕ} (h : ax < n) (nd : ℕ) (ate : Bool) (hp : p < n) :
    (rowsLayout n ax nd ate).getD p 0 = (frontAxes n ax ate).getD p 0 := by
  rw [rowsLayout_eq, List.getD_append _ _ _ _ (by rwa [frontAxes_length h])]

theorem rowsLayout_mom {n ax j : ℕ} (h : ax < n) {nd : ℕ} (ate : Bool) (hj : j < nd) :
    (rowsLayout n ax nd ate).getD (n + j) 0 = n + j := by
  rw [rowsLayout_eq, List.getD_append_right _ _ _ _ (by rw [frontAxes_length h]; omega),
    frontAxes_length h, List.getD_eq_getElem _ _ (by simp; omega)]
  simp

theorem frontAxes_lt {n ax p : ℕ} (h : ax < n) (ate : Bool) (hp : p < n) :
    (frontAxes n ax ate).getD p 0 < n := by
  have hl : p < (frontAxes n ax ate).length := by rwa [frontAxes_length h]
  rw [List.getD_eq_getElem _ _ hl]
  exact List.mem_range.1 ((frontAxes_perm h ate).mem_iff.1 (List.getElem_mem hl))

theorem rowsLayout_nodup {n ax : ℕ} (h : ax < n) (nd : ℕ) (ate : Bool) :
    (rowsLayout n ax nd ate).Nodup := by
  rw [rowsLayout_eq, List.nodup_append]
  refine ⟨frontAxes_nodup h ate, List.Nodup.map (fun a b h => by simpa using h) List.nodup_range, ?_⟩
  intro a ha b hb e
  have h1 := List.mem_range.1 ((frontAxes_perm h ate).mem_iff.1 ha)
  obtain ⟨j, _, rfl⟩ := List.mem_map.1 hb
  omega

theorem mem_rowsLayout {n ax a nd : ℕ} (h : ax < n) (ate : Bool) (ha : a < n + nd) :
    a ∈ rowsLayout n ax nd ate := by
  rw [rowsLayout_eq, List.mem_append]
  by_cases h' : a < n
  · exact .inl ((frontAxes_perm h ate).mem_iff.2 (List.mem_range.2 h'))
  · exact .inr (List.mem_map.2 ⟨a - n, List.mem_range.2 (by omega), by omega⟩)

variable {x : Arr K} {others : List (Arr K)} {z : ℤ} {full full' : List ℕ} {ate : Bool}
  {h : Arr K → Arr K} {d' : ℕ}

theorem Prep.ax_lt (P : Prep x others z full ate h full' d') (g : GoodValues x others z full) :
    full.length - fromEnd x z < full.length := by
  obtain ⟨h1, _, h2⟩ := g.d_le
  omega

theorem Prep.ax'_lt (P : Prep x others z full ate h full' d') :
    full.length - d' < full.length := by
  have := P.ready.ax_lt
  rwa [P.len] at this

/-- An index of the handed-on arrays, from an index of the result. -/
theorem Prep.front (P : Prep x others z full ate h full' d') (g : GoodValues x others z full)
    (nd : ℕ) (i : ℕ → ℕ) : ∀ p < full.length,
      along (rowsLayout full.length (full.length - fromEnd x z) nd ate) i p
        = i ((frontAxes full.length (full.length - fromEnd x z) ate).getD p 0) := by
  intro p hp
  have hax := P.ax_lt g
  rw [along_lt _ (by rw [rowsLayout_length hax]; omega), rowsLayout_front hax _ _ hp]

theorem Prep.rows_ax (P : Prep x others z full ate h full' d') (g : GoodValues x others z full)
    (nd : ℕ) (i : ℕ → ℕ) :
    along (rowsLayout full.length (full.length - fromEnd x z) nd ate) i (full.length - d')
      = i (full.length - fromEnd x z) := by
  rw [P.front g nd i _ P.ax'_lt, P.ax]

theorem Prep.rows_mom (P : Prep x others z full ate h full' d') (g : GoodValues x others z full)
    (nd : ℕ) (i : ℕ → ℕ) :
    momCoords full.length nd
        (along (rowsLayout full.length (full.length - fromEnd x z) nd ate) i)
      = momCoords full.length nd i := by
  unfold momCoords
  refine List.map_congr_left fun j hj => ?_
  have hj' := List.mem_range.1 hj
  have hax := P.ax_lt g
  rw [along_lt _ (by rw [rowsLayout_length hax]; omega), rowsLayout_mom hax _ hj']

theorem Prep.samples {w : Arr K} {ys : List (Arr K)}
    (P : Prep x (w :: ys) z full ate h full' d') (val : List K → V) (n : ℕ) {i' i : ℕ → ℕ}
    (hi : ∀ p < full.length,
      i' p = i ((frontAxes full.length (full.length - fromEnd x z) ate).getD p 0)) :
    samplesOver val (h x) (h w) (ys.map h) full.length (full.length - d') n i'
      = samplesOver val x w ys full.length (full.length - fromEnd x z) n i := by
  unfold samplesOver
  refine List.map_congr_left fun s _ => ?_
  rw [P.op w (by simp) i' i hi s, ← List.map_cons (f := h), List.map_map]
  congr 2
  refine List.map_congr_left fun a ha => ?_
  refine P.op a ?_ i' i hi s
  rcases List.mem_cons.1 ha with rfl | ha
  · simp
  · simp [ha]

/-- What the kernel sees, in terms of the original arrays. -/
theorem Prep.seen {w : Arr K} {ys : List (Arr K)}
    (P : Prep x (w :: ys) z full ate h full' d') (g : GoodValues x (w :: ys) z full)
    (val : List K → V) (nd : ℕ) (i : ℕ → ℕ) :
    samplesAt val ((h x :: (w :: ys).map h).map (opOf d')) (sampleCount x z) (full.length - 1)
        (along (keptAxes full.length [full.length - d'])
          (along (rowsLayout full.length (full.length - fromEnd x z) nd ate) i))
      = samplesOver val x w ys full.length (full.length - fromEnd x z) (sampleCount x z) i := by
  have hs := P.ready.samples val
      (along (rowsLayout full.length (full.length - fromEnd x z) nd ate) i)
  rw [P.len] at hs
  simp only [List.map_cons] at hs ⊢
  rw [hs, P.samples val (sampleCount x z) (P.front g nd i)]

theorem Prep.size (P : Prep x others z full ate h full' d') (g : GoodValues x others z full)
    (rr : ℕ) (mom : List ℕ) :
    (List.range (full.length + mom.length)).map (valuesSize full' (full.length - d') rr mom)
      = (rowsLayout full.length (full.length - fromEnd x z) mom.length ate).map
        (valuesSize full (full.length - fromEnd x z) rr mom) := by
  have hax := P.ax_lt g
  have hl := rowsLayout_length hax mom.length ate
  refine List.ext_getElem (by simp [hl]) fun p h1 h2 => ?_
  have hp : p < full.length + mom.length := by simpa using h1
  rw [List.getElem_map, List.getElem_map, List.getElem_range, ← List.getD_eq_getElem _ 0]
  by_cases hf : p < full.length
  · rw [rowsLayout_front hax _ _ hf]
    have hiff : p = full.length - d' ↔ (frontAxes full.length (full.length - fromEnd x z) ate).getD p 0
        = full.length - fromEnd x z := by
      constructor
      · intro e
        have := P.ax
        rwa [← e] at this
      · intro e
        have e' := e.trans P.ax.symm
        have h1 := idxOf_getD (frontAxes_nodup hax ate) (p := p) (by rwa [frontAxes_length hax])
        have h2 := idxOf_getD (frontAxes_nodup hax ate) (p := full.length - d')
          (by rw [frontAxes_length hax]; exact P.ax'_lt)
        rw [← h1, e', h2]
    unfold valuesSize
    by_cases e : p = full.length - d'
    · rw [if_pos e, if_pos (hiff.1 e)]
    · rw [if_neg e, if_neg (fun h => e (hiff.2 h)), if_pos (by rwa [P.len]),
        if_pos (frontAxes_lt hax ate hf), P.sizes p hf]
  · obtain ⟨j, rfl⟩ : ∃ j, p = full.length + j := ⟨p - full.length, by omega⟩
    rw [rowsLayout_mom hax _ (by omega)]
    unfold valuesSize
    have := P.ax'_lt
    rw [if_neg (by omega), if_neg (by rw [P.len]; omega), if_neg (by omega), if_neg (by omega), P.len]

/-- From the handed-on arrays back to the original ones. -/
theorem Prep.shows {L : Type*} (P : Prep x others z full ate h full' d')
    (g : GoodValues x others z full) {rr : ℕ} {mom : List ℕ} {out : Arr L} {F' F : (ℕ → ℕ) → L}
    (ho : HasLayout out (List.range (full'.length + mom.length))
      (valuesSize full' (full'.length - d') rr mom) F')
    (hF : ∀ i, (∀ a ∈ rowsLayout full.length (full.length - fromEnd x z) mom.length ate,
        i a < valuesSize full (full.length - fromEnd x z) rr mom a) →
      F' (along (rowsLayout full.length (full.length - fromEnd x z) mom.length ate) i) = F i) :
    Shows out (rowsLayout full.length (full.length - fromEnd x z) mom.length ate)
      (valuesSize full (full.length - fromEnd x z) rr mom) F := by
  rw [P.len] at ho
  have hax := P.ax_lt g
  refine ⟨ho.1.trans (P.size g rr mom), fun i hi => ?_⟩
  rw [← hF i hi, ← ho.2]
  congr 1
  rw [along_along _ (by
    intro p hp; rw [rowsLayout_length hax]; exact List.mem_range.1 hp)]
  congr 1
  refine List.ext_getElem (by simp [rowsLayout_length hax]) fun p h1 h2 => ?_
  rw [List.getElem_map, List.getElem_range, List.getD_eq_getElem _ _ h1]

theorem Prep.kept (P : Prep x others z full ate h full' d') (g : GoodValues x others z full) :
    (keptAxes full.length [full.length - d']).map
        (fun p => (frontAxes full.length (full.length - fromEnd x z) ate).getD p 0)
      = keptAxes full.length [full.length - fromEnd x z] := by
  have hax := P.ax_lt g
  have hax' := P.ax'_lt
  have e := P.ax
  unfold frontAxes at e ⊢
  cases ate
  · simp only [Bool.false_eq_true, if_false] at e ⊢
    rw [List.getD_eq_getElem _ _ (by simpa using hax'), List.getElem_range] at e
    rw [← e]
    conv_rhs => rw [← List.map_id (keptAxes full.length [full.length - d'])]
    refine List.map_congr_left fun p hp => ?_
    rw [List.getD_eq_getElem _ _ (by simpa using (mem_keptAxes.1 hp).1)]
    simp
  · simp only [if_true] at e ⊢
    have hl : full.length - d' = full.length - 1 := by
      have h1 := idxOf_getD (lastOrder_nodup hax) (p := full.length - d')
        (by rw [lastOrder_length hax]; exact hax')
      rw [e, lastOrder_idxOf hax hax, if_pos rfl] at h1
      exact h1.symm
    rw [hl]
    have hlt : full.length - 1 < full.length := by omega
    refine List.ext_getElem (by simp [keptAxes_single_length hax, keptAxes_single_length hlt])
      fun p h1 h2 => ?_
    rw [keptAxes_single_length hax] at h2
    rw [List.getElem_map, ← List.getD_eq_getElem _ 0, ← List.getD_eq_getElem _ 0,
      keptAxes_single_getD hlt h2, keptAxes_single_getD hax h2, if_pos (by omega),
      lastOrder_getD hax (by omega), if_neg (by omega)]

theorem Prep.keptAlong (P : Prep x others z full ate h full' d') (g : GoodValues x others z full)
    (nd : ℕ) (i : ℕ → ℕ) :
    along (keptAxes full.length [full.length - d'])
        (along (rowsLayout full.length (full.length - fromEnd x z) nd ate) i)
      = along (keptAxes full.length [full.length - fromEnd x z]) i := by
  have hax := P.ax_lt g
  rw [along_along _ (by
    intro p hp; rw [rowsLayout_length hax]; have := (mem_keptAxes.1 hp).1; omega), ← P.kept g]
  congr 1
  refine List.map_congr_left fun p hp => ?_
  exact rowsLayout_front hax _ _ (mem_keptAxes.1 hp).1

theorem Prep.plain (P : Prep x others z full false h full' d') (g : GoodValues x others z full) :
    full' = full ∧ full.length - d' = full.length - fromEnd x z := by
  constructor
  · refine List.ext_getElem P.len fun p h1 h2 => ?_
    have := P.sizes p h2
    rw [frontAxes, if_neg (by simp), List.getD_eq_getElem (List.range _) _ (by simpa using h2),
      List.getElem_range] at this
    rwa [List.getD_eq_getElem _ _ h1, List.getD_eq_getElem _ _ h2] at this
  · have := P.ax
    rwa [frontAxes, if_neg (by simp), List.getD_eq_getElem (List.range _) _
      (by simpa using P.ax'_lt), List.getElem_range] at this

/-- The sample axis of the common shape has one entry per sample. -/
theorem _root_.Cmomy.Spec.GoodValues.full_ax (g : GoodValues x others z full) :
    full.getD (full.length - fromEnd x z) 0 = sampleCount x z := by
  obtain ⟨h1, h2, h3⟩ := g.d_le
  obtain ⟨_, _, hw⟩ := fromEnd_facts g.range
  obtain ⟨s, hs, hle, he⟩ := g.common.attained (full.length - fromEnd x z) (by omega)
  rw [← he]
  rcases List.mem_cons.1 hs with rfl | hs
  · rw [sampleCount, axisSize, hw]; congr 1; omega
  · obtain ⟨a, ha, rfl⟩ := List.mem_map.1 hs
    obtain ⟨ha, hl⟩ := List.mem_filter.1 ha
    have hl' : 1 < a.shape.length := by simpa using hl
    rcases (g.usable a ha).2 with h | ⟨h, _⟩ | ⟨_, h, he⟩
    · omega
    · omega
    · rw [← he, axisSize]; congr 1; omega

/-- `reduce_vals`. -/
theorem reduceValsNd_spec (val : List K → V) {core : Core K M} {fam : List ℕ → Kernel K V M}
    {mom : List ℕ} (hm : mom.length = core.nd) {w : Arr K} {ys : List (Arr K)}
    (hy : ys.length + 1 = core.nd) (g : GoodValues x (w :: ys) z full) :
    ∃ out, reduceValsNd val core fam mom (axesLast core.nd) x (w :: ys) (.int z) = .ok out ∧
      HasLayout out (reducedLayout full.length (full.length - fromEnd x z) core.nd)
        (valuesSize full (full.length - fromEnd x z) 0 mom) (fun i =>
          ((fam (mom.map (· + 1))).reduceValsFromZero
            (samplesOver val x w ys full.length (full.length - fromEnd x z) (sampleCount x z) i)).map
            (fun r => core.ent r (momCoords full.length core.nd i))) ∧ out.Proper := by
  obtain ⟨h, full', d', P⟩ := g.prep false
  obtain ⟨rfl, he⟩ := P.plain g
  have r := P.ready
  obtain ⟨out, h1, h2, h3⟩ := r.fill_reduced (mom := mom) (fun sizes L l ops c =>
    ((fam sizes).reduceValsFromZero (samplesAt val ops (sampleCount x z) L l)).map
      (fun r => core.ent r c))
  refine ⟨out, ?_, ?_, h3⟩
  · unfold reduceValsNd reduceValsFrom
    rw [P.eq _ (by simp [hy])]
    simp only [Except.bind]
    rw [r.out_reduced, r.count]
    simp only
    rw [r.operands]
    simp only
    rw [← hm]
    exact h1
  · rw [he, hm] at h2
    refine ⟨h2.1, fun i => ?_⟩
    rw [h2.2 i]
    beta_reduce
    rw [← he]
    have hs := r.samples val i
    simp only [List.map_cons] at hs ⊢
    rw [hs, P.samples val (sampleCount x z) (i := i) (by
      intro p hp
      rw [frontAxes, if_neg (by simp), List.getD_eq_getElem (List.range _) _ (by simpa using hp),
        List.getElem_range]), he]

/-- `resample_vals`. -/
theorem resampleValsNd_spec (val : List K → V) {core : Core K M} {fam : List ℕ → Kernel K V M}
    {mom : List ℕ} (hm : mom.length = core.nd) (freq : List (List K)) {w : Arr K}
    {ys : List (Arr K)} (hy : ys.length + 1 = core.nd) (g : GoodValues x (w :: ys) z full)
    (orderCF ate : Bool) :
    ∃ out, resampleValsNd val core fam mom (axesLast core.nd) freq (sampleCount x z) x (w :: ys)
        (.int z) orderCF ate = .ok out ∧
      Shows out (rowsLayout full.length (full.length - fromEnd x z) core.nd ate)
        (valuesSize full (full.length - fromEnd x z) freq.length mom) (fun i =>
          (((fam (mom.map (· + 1))).resampleVals freq
            (samplesOver val x w ys full.length (full.length - fromEnd x z) (sampleCount x z) i))[
              i (full.length - fromEnd x z)]?).join.map
            (fun r => core.ent r (momCoords full.length core.nd i))) := by
  obtain ⟨h, full', d', P⟩ := g.prep ate
  have r := P.ready
  obtain ⟨out, h1, h2⟩ := r.fill_rows (mom := mom) (rr := freq.length) (extra := []) (by simp)
    (fun sizes L l ops c =>
      (((fam sizes.tail).resampleVals freq (samplesAt val ops (sampleCount x z) L l))[
        c.headD 0]?).join.map (fun r => core.ent r c.tail))
  refine ⟨out, ?_, ?_⟩
  · unfold resampleValsNd resampleValsFrom
    rw [P.eq _ (by simp [hy])]
    simp only [Except.bind]
    rw [r.out_rows]
    simp only
    rw [r.operands]
    simp only
    rw [← hm]
    exact h1
  · rw [← hm]
    refine P.shows g h2 fun i _ => ?_
    beta_reduce
    simp only [List.tail_cons, List.headD_cons]
    rw [P.len, P.rows_ax g, P.rows_mom g, P.seen g]

theorem resampleValsNd_mismatch (val : List K → V) {core : Core K M} {fam : List ℕ → Kernel K V M}
    {mom : List ℕ} {momAxes : List ℤ} (freq : List (List K)) {w : Arr K} {nsamp : ℕ}
    {ys : List (Arr K)} (hy : ys.length + 1 = core.nd) (g : GoodValues x (w :: ys) z full)
    (orderCF ate : Bool) (hne : nsamp ≠ sampleCount x z) :
    resampleValsNd val core fam mom momAxes freq nsamp x (w :: ys)
        (.int z) orderCF ate = .error .valueError := by
  obtain ⟨h, full', d', P⟩ := g.prep ate
  have r := P.ready
  unfold resampleValsNd resampleValsFrom
  rw [P.eq _ (by simp [hy])]
  simp only [Except.bind]
  rw [r.out_rows]
  simp only
  have : sampleOperands (valueOperands (h x) ((w :: ys).map h) (-(d' : ℤ))) nsamp
      = .error .valueError := by
    unfold sampleOperands valueOperands
    rw [mapM_ok_of_forall _ (fun o => opOf d' o.1)]
    · simp only [Except.bind]
      rw [if_neg]
      rw [List.all_eq_true]
      intro hall
      have := hall (opOf d' (h x)) (by simp)
      have h2 : sampleSize (opOf d' (h x)) = sampleCount x z := (r.isOp (a := h x) (by simp)).size
      rw [h2] at this
      exact hne (of_decide_eq_true this).symm
    · intro o ho
      obtain ⟨a, ha, rfl⟩ := List.mem_map.1 ho
      exact r.operand ha
  rw [this]

theorem rows_core {n d nd : ℕ} (h1 : 1 ≤ d) (hd : d ≤ n) :
    coreAxes (n + nd) ((-(d : ℤ) - nd) :: axesLast nd)
      = .ok ((n - d) :: (List.range nd).map (fun j => n + j)) := by
  have hw : wrap (n + nd) (-(d : ℤ) - nd) = n - d := by
    have := wrap_neg (n := n + nd) (z := -(d : ℤ) - nd) (by unfold InRange; omega) (by omega)
    omega
  have hal : (axesLast nd).map (wrap (n + nd)) = (List.range nd).map (fun j => n + j) := by
    rw [axesLast_wrap' (by omega)]
    refine List.map_congr_left fun j _ => by omega
  rw [← hal]
  have := coreAxes_ok (n := n + nd) (zs := (-(d : ℤ) - nd) :: axesLast nd)
    (by
      intro z hz
      rcases List.mem_cons.1 hz with rfl | hz
      · unfold InRange; omega
      · exact axesLast_range' (by omega) z hz)
    (by
      rw [List.map_cons, hw, hal, List.nodup_cons]
      refine ⟨?_, ?_⟩
      · simp only [List.mem_map, List.mem_range, not_exists, not_and]
        intro j _; omega
      · exact List.Nodup.map (fun a b h => by simpa using h) List.nodup_range)
  rw [this, List.map_cons, hw]

theorem idxOf_rows {n ax nd j : ℕ} (h : ax < n) (hj : j < nd) :
    (ax :: (List.range nd).map (fun j => n + j)).idxOf (n + j) = j + 1 := by
  rw [List.idxOf_cons_ne _ (by omega)]
  congr 1
  have hnd : ((List.range nd).map (fun j => n + j)).Nodup :=
    List.Nodup.map (fun a b h => by simpa using h) List.nodup_range
  have := hnd.idxOf_getElem j (by simpa using hj)
  simpa using this

theorem place_rows {L : Type*} {full : List ℕ} {ax rr : ℕ} (hax : ax < full.length) {mom : List ℕ}
    (f : (ℕ → ℕ) → List ℕ → L) :
    HasLayout (place ((keptAxes full.length [ax]).map (fun p => full.getD p 0))
        (ax :: (List.range mom.length).map (fun j => full.length + j)) (rr :: mom.map (· + 1)) f)
      (List.range (full.length + mom.length)) (valuesSize full ax rr mom)
      (fun i => f (along (keptAxes full.length [ax]) i)
        (i ax :: momCoords full.length mom.length i)) := by
  have hkl := keptAxes_single_length hax
  have hl : ((keptAxes full.length [ax]).map (fun p => full.getD p 0)).length
      + (ax :: (List.range mom.length).map (fun j => full.length + j)).length
      = full.length + mom.length := by
    simp [hkl]; omega
  unfold place
  rw [hl, loopAxes_eq, keptAxes_front hax]
  refine ⟨?_, fun i => ?_⟩
  · refine List.map_congr_left fun p hp => ?_
    have hp' := List.mem_range.1 hp
    unfold valuesSize
    by_cases e : p = ax
    · subst e
      simp
    · by_cases hf : p < full.length
      · rw [if_neg (by
          simp only [List.mem_cons, List.mem_map, List.mem_range, not_or, not_exists, not_and]
          exact ⟨e, fun j _ => by omega⟩), if_neg e, if_pos hf]
        have hmem : p ∈ keptAxes full.length [ax] := mem_keptAxes.2 ⟨hf, by simpa using e⟩
        have hlt := List.idxOf_lt_length_iff.2 hmem
        rw [List.getD_eq_getElem _ _ (by simpa using hlt), List.getElem_map, List.getElem_idxOf]
      · obtain ⟨j, rfl⟩ : ∃ j, p = full.length + j := ⟨p - full.length, by omega⟩
        rw [if_pos (by simp; exact .inr (by omega)), if_neg e, if_neg hf, idxOf_rows hax (by omega)]
        simp
  · show f (along (keptAxes full.length [ax]) _) (List.map _ _) = _
    have hin : ∀ p, p < full.length + mom.length →
        along (List.range (full.length + mom.length)) i p = i p := fun p hp => along_range i hp
    congr 1
    · rw [along_along _ (by
        intro p hp; have := (mem_keptAxes.1 hp).1; rw [List.length_range]; omega)]
      congr 1
      conv_rhs => rw [← List.map_id (keptAxes full.length [ax])]
      refine List.map_congr_left fun p hp => ?_
      have := (mem_keptAxes.1 hp).1
      rw [List.getD_eq_getElem _ _ (by simp; omega)]
      simp
    · rw [List.map_cons, hin _ (by omega)]
      congr 1
      unfold momCoords
      rw [List.map_map]
      refine List.map_congr_left fun j hj => ?_
      have hj' := List.mem_range.1 hj
      exact hin (full.length + j) (by omega)

theorem Prep.keptSizes (P : Prep x others z full ate h full' d') (g : GoodValues x others z full) :
    (keptAxes full.length [full.length - d']).map (fun p => full'.getD p 0)
      = (keptAxes full.length [full.length - fromEnd x z]).map (fun p => full.getD p 0) := by
  rw [← P.kept g, List.map_map]
  refine List.map_congr_left fun p hp => ?_
  exact P.sizes p (mem_keptAxes.1 hp).1

/-- `jackknife_vals`. -/
theorem jackknifeValsNd_spec (val : List K → V) {core : Core K M} (hc : core.Ok)
    {fam : List ℕ → Kernel K V M} {mom : List ℕ} (hm : mom.length = core.nd) {w : Arr K}
    {ys : List (Arr K)} (hy : ys.length + 1 = core.nd) (g : GoodValues x (w :: ys) z full)
    (orderCF ate : Bool) :
    ∃ out, jackknifeValsNd val core fam mom (axesLast core.nd) x (w :: ys) (.int z) orderCF ate
        = .ok out ∧
      Shows out (rowsLayout full.length (full.length - fromEnd x z) core.nd ate)
        (valuesSize full (full.length - fromEnd x z) (sampleCount x z) mom) (fun i =>
          (((fam (mom.map (· + 1))).jackknifeVals
            (samplesOver val x w ys full.length (full.length - fromEnd x z) (sampleCount x z) i)).bind
              (fun rows => (rows[i (full.length - fromEnd x z)]?).join)).map
            (fun r => core.ent r (momCoords full.length core.nd i))) := by
  obtain ⟨red, r1, r2, r3⟩ := reduceValsNd_spec val (fam := fam) hm hy g
  obtain ⟨h, full', d', P⟩ := g.prep ate
  have r := P.ready
  have hax := P.ax_lt g
  have hax' := P.ax'_lt
  have hkl := keptAxes_single_length hax
  have hrl : red.shape.length = full.length - 1 + core.nd := by
    rw [r2.1, List.length_map, reducedLayout_length hax]
  have hred : red.shape = (keptAxes full.length [full.length - fromEnd x z]).map
      (fun p => full.getD p 0) ++ mom.map (· + 1) := by
    rw [r2.1, reducedLayout, List.map_append]
    congr 1
    · refine List.map_congr_left fun p hp => ?_
      have hp' := mem_keptAxes.1 hp
      unfold valuesSize
      rw [if_neg (by simpa using hp'.2), if_pos hp'.1]
    · rw [← hm, List.map_map]
      refine List.ext_getElem (by simp) fun q h1 h2 => ?_
      have hq : q < mom.length := by simpa using h1
      simp only [List.getElem_map, List.getElem_range, Function.comp, valuesSize]
      rw [if_neg (by omega), if_neg (by omega), show full.length + q - full.length = q by omega,
        List.getD_eq_getElem _ _ (by simpa using hq), List.getElem_map]
  have hrs : coreAxes red.shape.length (axesLast core.nd)
      = .ok ((List.range core.nd).map (fun j => red.shape.length - core.nd + j)) :=
    coreAxes_last (by omega)
  set rs := (List.range core.nd).map (fun j => red.shape.length - core.nd + j) with hrsd
  have hloop : red.loopShape rs = (keptAxes full.length [full.length - d']).map
      (fun p => full'.getD p 0) := by
    rw [P.keptSizes g]
    unfold Arr.loopShape
    rw [loopAxes_eq, hrsd, keptAxes_tail (by omega), hrl, Nat.add_sub_cancel, ← hkl]
    refine List.ext_getElem (by simp) fun p h1 h2 => ?_
    rw [List.getElem_map, List.getElem_range, hred, List.getD_append _ _ _ _ h2,
      List.getD_eq_getElem _ _ h2]
  have hdrop : red.shape.drop (red.shape.length - core.nd) = mom.map (· + 1) := by
    rw [hrl, Nat.add_sub_cancel, hred, List.drop_left' (by simp [hkl])]
  -- the content
  have hread : ∀ i, (∀ a ∈ rowsLayout full.length (full.length - fromEnd x z) core.nd ate,
        i a < valuesSize full (full.length - fromEnd x z) (sampleCount x z) mom a) →
      recordOpt core (red.read rs (full.length - 1)
        (along (keptAxes full.length [full.length - fromEnd x z]) i))
      = (fam (mom.map (· + 1))).reduceValsFromZero
          (samplesOver val x w ys full.length (full.length - fromEnd x z) (sampleCount x z) i) := by
    intro i hi
    have hmn : ((List.range core.nd).map (full.length + ·)).Nodup :=
      List.Nodup.map (fun a b h => by simpa using h) List.nodup_range
    have hrd : ∀ ms, ms.length = core.nd → red.read rs (full.length - 1)
        (along (keptAxes full.length [full.length - fromEnd x z]) i) ms
        = ((fam (mom.map (· + 1))).reduceValsFromZero (samplesOver val x w ys full.length
            (full.length - fromEnd x z) (sampleCount x z) i)).map (fun r => core.ent r ms) := by
      intro ms hms
      have := read_last r2 r3 hmn (i := i) (by
          intro b hb
          have hb' := mem_keptAxes.1 hb
          have := hi b (mem_rowsLayout hax ate (by omega))
          unfold valuesSize at this ⊢
          rw [if_neg (by simpa using hb'.2)] at this ⊢
          exact this)
        (by
          intro b hb hb2
          have hb' := (mem_keptAxes.1 hb).1
          obtain ⟨j, _, rfl⟩ := List.mem_map.1 hb2
          omega) ms
      rw [List.length_map, List.length_range, hkl] at this
      rw [this]
      beta_reduce
      have hsam : ∀ j : ℕ → ℕ, (∀ p < full.length, j p = i p) →
          samplesOver val x w ys full.length (full.length - fromEnd x z) (sampleCount x z) j
          = samplesOver val x w ys full.length (full.length - fromEnd x z) (sampleCount x z) i := by
        intro j hj
        have hra : ∀ a ∈ x :: w :: ys, a.Proper ∧ a.shape.length ≤ full.length := by
          intro a ha
          refine ⟨?_, ?_⟩
          · rcases List.mem_cons.1 ha with rfl | ha
            · exact g.proper
            · exact (g.usable a ha).1
          · by_cases h2 : 2 ≤ a.shape.length
            · exact g.common.rank _ (mem_wideShapes ha h2)
            · omega
        unfold samplesOver
        refine List.map_congr_left fun s _ => ?_
        rw [operandAt_congr (hra w (by simp)).1 (hra w (by simp)).2 hj s]
        congr 2
        refine List.map_congr_left fun a ha => ?_
        have ha' : a ∈ x :: w :: ys := by
          rcases List.mem_cons.1 ha with rfl | ha
          · simp
          · simp [ha]
        exact operandAt_congr (hra a ha').1 (hra a ha').2 hj s
      rw [hsam _ (by
        intro p hp
        unfold setAxes
        rw [if_neg]
        intro hmem
        obtain ⟨j, _, e⟩ := List.mem_map.1 hmem
        omega)]
      congr 1
      funext r
      congr 1
      show (List.range core.nd).map (fun j => setAxes _ ms i (full.length + j)) = ms
      have := map_setAxes (mom := (List.range core.nd).map (full.length + ·)) (ms := ms) hmn
        (by simpa using hms) i
      rwa [List.map_map] at this
    unfold recordOpt
    rw [hrd _ (by simp)]
    cases hr : (fam (mom.map (· + 1))).reduceValsFromZero (samplesOver val x w ys full.length
            (full.length - fromEnd x z) (sampleCount x z) i) with
    | none => rfl
    | some r =>
      simp only [Option.map_some]
      congr 1
      conv_rhs => rw [← hc.recd_ent r]
      refine hc.recd_congr _ _ fun ms hl => ?_
      rw [hrd ms hl, hr]
      rfl
  have hfin : ∀ out, HasLayout out (List.range (full'.length + mom.length))
      (valuesSize full' (full'.length - d') (sampleCount x z) mom)
      (fun i => (recordOpt core (red.read rs (full'.length - 1)
        (along (keptAxes full'.length [full'.length - d']) i))).bind fun red =>
        (((fam (mom.map (· + 1))).jackknifeValsKernel red (samplesAt val
          ((h x :: (w :: ys).map h).map (opOf d')) (sampleCount x z) (full'.length - 1)
          (along (keptAxes full'.length [full'.length - d']) i)))[i (full'.length - d')]?).join.map
          (fun r => core.ent r (momCoords full'.length mom.length i))) →
      Shows out (rowsLayout full.length (full.length - fromEnd x z) core.nd ate)
        (valuesSize full (full.length - fromEnd x z) (sampleCount x z) mom) (fun i =>
          (((fam (mom.map (· + 1))).jackknifeVals
            (samplesOver val x w ys full.length (full.length - fromEnd x z) (sampleCount x z) i)).bind
              (fun rows => (rows[i (full.length - fromEnd x z)]?).join)).map
            (fun r => core.ent r (momCoords full.length core.nd i))) := by
    intro out ho
    rw [← hm]
    refine P.shows g ho fun i hi => ?_
    beta_reduce
    rw [P.len, P.rows_ax g, P.rows_mom g, P.seen g, P.keptAlong g, hread i (by rw [← hm]; exact hi)]
    unfold Kernel.jackknifeVals
    cases (fam (mom.map (· + 1))).reduceValsFromZero (samplesOver val x w ys full.length
            (full.length - fromEnd x z) (sampleCount x z) i) <;> rfl
  have hstart : ∀ out, jackknifeValsFrom val core fam mom (axesLast core.nd) red (-(d' : ℤ)) (h x)
      ((w :: ys).map h) orderCF = .ok out →
      jackknifeValsNd val core fam mom (axesLast core.nd) x (w :: ys) (.int z) orderCF ate
        = .ok out := by
    intro out ho
    unfold jackknifeValsNd
    rw [r1]
    simp only [Except.bind]
    rw [P.eq _ (by simp [hy])]
    exact ho
  have hfits : ∀ t ∈ [red.loopShape rs], FitsEnd t
      ((keptAxes full'.length [full'.length - d']).map (fun p => full'.getD p 0)) := by
    intro t ht
    rw [List.mem_singleton.1 ht, hloop, P.len]
    exact ⟨le_rfl, fun p _ => .inr (by simp)⟩
  cases orderCF with
  | true =>
    obtain ⟨out, h1, h2⟩ := r.fill_rows (mom := mom) (rr := sampleCount x z)
      (extra := [red.loopShape rs]) hfits
      (fun sizes L l ops c => (recordOpt core (red.read rs L l)).bind fun red =>
        (((fam sizes.tail).jackknifeValsKernel red (samplesAt val ops (sampleCount x z) L l))[
          c.headD 0]?).join.map (fun r => core.ent r c.tail))
    refine ⟨out, hstart out ?_, hfin out h2⟩
    unfold jackknifeValsFrom
    rw [if_neg (not_not.2 hdrop), hrs]
    simp only [Except.bind]
    rw [r.count, r.operands]
    simp only [if_true]
    rw [r.out_rows]
    simp only
    rw [← hm]
    exact h1
  | false =>
    have h2 := place_rows (full := full') (ax := full'.length - d') (rr := sampleCount x z)
      r.ax_lt (mom := mom) (fun l c => (recordOpt core (red.read rs (full'.length - 1) l)).bind
        fun red => (((fam (mom.map (· + 1))).jackknifeValsKernel red (samplesAt val
          ((h x :: (w :: ys).map h).map (opOf d')) (sampleCount x z) (full'.length - 1) l))[
          c.headD 0]?).join.map (fun r => core.ent r c.tail))
    refine ⟨_, hstart _ ?_, hfin _ h2⟩
    unfold jackknifeValsFrom
    rw [if_neg (not_not.2 hdrop), hrs]
    simp only [Except.bind, Bool.false_eq_true, if_false]
    rw [r.count, r.operands]
    simp only
    have hb : broadcastShapes (red.loopShape rs :: ((h x :: (w :: ys).map h).map (opOf d')).map
        (fun o => o.1.loopShape [o.2]))
        = .ok ((keptAxes full'.length [full'.length - d']).map (fun p => full'.getD p 0)) := by
      rw [hloop, ← P.len]
      refine broadcastShapes_cons fun t ht => ?_
      obtain ⟨o, ho, rfl⟩ := List.mem_map.1 ht
      obtain ⟨a, ha, rfl⟩ := List.mem_map.1 ho
      exact r.fits ha
    rw [hb]
    simp only
    have hlen : ((keptAxes full'.length [full'.length - d']).map (fun p => full'.getD p 0)).length
        = full'.length - 1 := by rw [List.length_map, keptAxes_single_length r.ax_lt]
    have h1 := r.ax_lt
    have hcore := rows_core (n := full'.length) (nd := core.nd) r.one r.rank
    rw [hlen, show full'.length - 1 + (core.nd + 1) = full'.length + core.nd by omega, hcore]
    simp only [List.tail_cons]
    rw [← hm]

end Cmomy.Nd
