import Verif.Lemmas.ValsMain

/-!
# Rolling value functions on arrays of any shape
-/

set_option linter.unusedSectionVars false

namespace Cmomy.Nd

open Axes Spec

section Pad

variable {K V : Type*} [Field K] [DecidableEq K]
variable {x : Arr K} {os : List (Arr K)} {full : List ℕ} {d n : ℕ}

/-- A value array padded with zeros along the samples. -/
def padVals (d pad : ℕ) (a : Arr K) : Arr K := padAxis a (opOf d a).2 pad

theorem padVals_shape (d pad : ℕ) (a : Arr K) :
    (padVals d pad a).shape.length = a.shape.length := by
  simp [padVals, padAxis]

theorem padVals_size {d pad : ℕ} {a : Arr K} {p : ℕ} (hc : (opOf d a).2 < a.shape.length) :
    axisSize (padVals d pad a) p
      = if p = (opOf d a).2 then axisSize a p + pad else axisSize a p := by
  unfold axisSize padVals padAxis
  simp only
  by_cases e : p = (opOf d a).2
  · rw [if_pos e, e, List.getD_eq_getElem _ _ (by simpa using hc), List.getElem_set_self]
  · rw [if_neg e]
    simp only [List.getD]
    rw [List.getElem?_set_ne (by omega)]

theorem IsOp.c_lt {o : Arr K × ℕ} {N ax n : ℕ} (h : IsOp o N ax n) : o.2 < o.1.shape.length := by
  rcases h.pos with ⟨h1, h2⟩ | ⟨_, _, h3, _⟩
  · omega
  · exact h3

theorem padAxis_proper {a : Arr K} (hp : a.Proper) {c pad : ℕ} (hc : c < a.shape.length) :
    (padAxis a c pad).Proper := by
  intro i j hij
  have hl : (padAxis a c pad).shape.length = a.shape.length := by simp [padAxis]
  have hij' : ∀ p < a.shape.length, i p = j p := fun p hp' => hij p (by omega)
  simp only [padAxis]
  rw [hij' c hc, hp i j hij']

theorem Ready.full_ax (r : Ready x os full d n) : full.getD (full.length - d) 0 = n := by
  have h1 := r.one
  have h2 := r.rank
  obtain ⟨s, hs, hle, he⟩ := r.common.attained (full.length - d) (by omega)
  rw [← he]
  have key : ∀ a ∈ x :: os, s = a.shape → s.getD (full.length - d + s.length - full.length) 0 = n := by
    rintro a ha rfl
    rcases (r.ok a ha).2 with ⟨h, hn⟩ | ⟨_, h, hn⟩
    · have : full.length - d + a.shape.length - full.length = 0 := by omega
      rw [this]; exact hn
    · rw [← hn, axisSize]; congr 1; omega
  rcases List.mem_cons.1 hs with rfl | hs
  · exact key x (by simp) rfl
  · obtain ⟨a, ha, rfl⟩ := List.mem_map.1 hs
    exact key a (by simp [(List.mem_filter.1 ha).1]) rfl

theorem Ready.pad (r : Ready x os full d n) (pad : ℕ) :
    Ready (padVals d pad x) (os.map (padVals d pad)) (full.set (full.length - d) (n + pad)) d
      (n + pad) := by
  have h1 := r.one
  have hrank := r.rank
  refine ⟨r.one, by rw [padVals_shape]; exact r.le, ?_, ?_⟩
  · intro a ha
    rw [← List.map_cons (f := padVals d pad)] at ha
    obtain ⟨b, hb, rfl⟩ := List.mem_map.1 ha
    have ho := r.isOp hb
    have hc : (opOf d b).2 < b.shape.length := ho.c_lt
    refine ⟨padAxis_proper (r.ok b hb).1 hc, ?_⟩
    rw [padVals_shape]
    rcases (r.ok b hb).2 with ⟨h, hn⟩ | ⟨h2, h, hn⟩
    · refine .inl ⟨h, ?_⟩
      rw [padVals_size hc, if_pos (by simp [opOf, h]), hn]
    · refine .inr ⟨h2, h, ?_⟩
      rw [padVals_size hc, if_pos (by simp [opOf, show ¬ b.shape.length = 1 by omega]), hn]
  · have hws : ∀ s ∈ wideShapes (padVals d pad x) (os.map (padVals d pad)),
        ∃ a ∈ x :: os, s = (padVals d pad a).shape ∧ a.shape ∈ wideShapes x os := by
      intro s hs
      rcases List.mem_cons.1 hs with rfl | hs
      · exact ⟨x, by simp, rfl, by simp [wideShapes]⟩
      · obtain ⟨a, ha, rfl⟩ := List.mem_map.1 hs
        obtain ⟨ha, hl⟩ := List.mem_filter.1 ha
        obtain ⟨b, hb, rfl⟩ := List.mem_map.1 ha
        have hl' : 1 < (padVals d pad b).shape.length := by simpa using hl
        rw [padVals_shape] at hl'
        exact ⟨b, by simp [hb], rfl, mem_wideShapes (by simp [hb]) (by omega)⟩
    have hfs : ∀ q, (full.set (full.length - d) (n + pad)).getD q 0
        = if q = full.length - d then n + pad else full.getD q 0 := by
      intro q
      by_cases e : q = full.length - d
      · rw [if_pos e, e, List.getD_eq_getElem _ _ (by simp; omega), List.getElem_set_self]
      · rw [if_neg e]
        simp only [List.getD]
        rw [List.getElem?_set_ne (by omega)]
    have hpos : ∀ a ∈ x :: os, a.shape ∈ wideShapes x os → d ≤ a.shape.length ∧
        (opOf d a).2 = a.shape.length - d := by
      intro a ha hw
      rcases (r.ok a ha).2 with ⟨h, hn⟩ | ⟨h2, h, hn⟩
      · -- one-dimensional: only `x` itself takes part
        rcases List.mem_cons.1 hw with e | hw
        · have hl := r.le
          rw [← e] at hl
          refine ⟨hl, ?_⟩
          simp only [opOf, if_pos h]; omega
        · obtain ⟨b, hb, e⟩ := List.mem_map.1 hw
          have := (List.mem_filter.1 hb).2
          have : 1 < b.shape.length := by simpa using this
          rw [e] at this
          omega
      · exact ⟨h, by simp [opOf, show ¬ a.shape.length = 1 by omega]⟩
    refine ⟨?_, ?_, ?_⟩
    · intro s hs
      obtain ⟨a, ha, rfl, hw⟩ := hws s hs
      rw [padVals_shape, List.length_set]
      exact r.common.rank _ hw
    · intro s hs p hp
      obtain ⟨a, ha, rfl, hw⟩ := hws s hs
      rw [padVals_shape] at hp
      obtain ⟨hd, hop⟩ := hpos a ha hw
      have hc : (opOf d a).2 < a.shape.length := by rw [hop]; omega
      have hra := r.common.rank _ hw
      rw [padVals_shape, List.length_set, hfs]
      change axisSize (padVals d pad a) p = 1 ∨ axisSize (padVals d pad a) p = _
      rw [padVals_size hc]
      by_cases e : p = (opOf d a).2
      · rw [if_pos e, if_pos (by omega)]
        right
        have : axisSize a p = n := by rw [e]; exact (r.isOp ha).size
        rw [this]
      · rw [if_neg e, if_neg (by omega)]
        exact r.common.fits _ hw p hp
    · intro q hq
      rw [List.length_set] at hq
      obtain ⟨s, hs, hle, he⟩ := r.common.attained q hq
      obtain ⟨a, ha, rfl⟩ : ∃ a ∈ x :: os, s = a.shape := by
        rcases List.mem_cons.1 hs with rfl | hs
        · exact ⟨x, by simp, rfl⟩
        · obtain ⟨a, ha, rfl⟩ := List.mem_map.1 hs
          exact ⟨a, by simp [(List.mem_filter.1 ha).1], rfl⟩
      obtain ⟨hd, hop⟩ := hpos a ha hs
      have hc : (opOf d a).2 < a.shape.length := by rw [hop]; omega
      refine ⟨(padVals d pad a).shape, ?_, by rw [List.length_set, padVals_shape]; exact hle, ?_⟩
      · rcases List.mem_cons.1 ha with rfl | ha'
        · simp [wideShapes]
        · rcases List.mem_cons.1 hs with e | hs'
          · by_cases h2 : 2 ≤ a.shape.length
            · exact mem_wideShapes (List.mem_cons_of_mem _ (List.mem_map_of_mem ha'))
                (by rw [padVals_shape]; exact h2)
            · have hxl : x.shape.length = a.shape.length := by rw [e]
              have : (padVals d pad a).shape = (padVals d pad x).shape := by
                simp only [padVals, padAxis, opOf]
                rw [e]
              rw [this]
              simp [wideShapes]
          · obtain ⟨b, hb, e⟩ := List.mem_map.1 hs'
            have := (List.mem_filter.1 hb).2
            have : 1 < b.shape.length := by simpa using this
            rw [e] at this
            exact mem_wideShapes (List.mem_cons_of_mem _ (List.mem_map_of_mem ha'))
              (by rw [padVals_shape]; omega)
      · rw [List.length_set, padVals_shape, hfs]
        change axisSize (padVals d pad a) _ = _
        have hra := r.common.rank _ hs
        rw [padVals_size hc]
        by_cases e : q = full.length - d
        · rw [if_pos (by omega), if_pos e]
          have : axisSize a (q + a.shape.length - full.length) = n := by
            rw [show q + a.shape.length - full.length = (opOf d a).2 by omega]
            exact (r.isOp ha).size
          rw [this]
        · rw [if_neg (by omega), if_neg e]
          exact he

theorem operandAt_pad {a : Arr K} (r : Ready x os full d n) (ha : a ∈ x :: os) (pad : ℕ)
    (i : ℕ → ℕ) (s : ℕ) :
    operandAt (padVals d pad a) full.length (full.length - d) i s
      = if s < n then operandAt a full.length (full.length - d) i s else 0 := by
  have h1 := r.one
  have hrank := r.rank
  have ho := r.isOp ha
  have hc : (opOf d a).2 < a.shape.length := ho.c_lt
  have hsz : axisSize a (opOf d a).2 = n := ho.size
  have hp := (r.ok a ha).1
  unfold operandAt
  rw [padVals_shape]
  rcases (r.ok a ha).2 with ⟨h, hn⟩ | ⟨h2, hd, hn⟩
  · rw [if_neg (show ¬ a.shape.length = 0 by omega), if_pos h,
      if_neg (show ¬ a.shape.length = 0 by omega), if_pos h]
    show (if s < a.shape.getD (opOf d a).2 0 then _ else _) = _
    rw [show a.shape.getD (opOf d a).2 0 = n from hsz]
  · have hop : (opOf d a).2 = a.shape.length - d := by
      simp [opOf, show ¬ a.shape.length = 1 by omega]
    have hra := r.common.rank _ (mem_wideShapes ha h2)
    rw [if_neg (show ¬ a.shape.length = 0 by omega), if_neg (show ¬ a.shape.length = 1 by omega),
      if_neg (show ¬ a.shape.length = 0 by omega), if_neg (show ¬ a.shape.length = 1 by omega)]
    show (if (if (opOf d a).2 + (full.length - a.shape.length) = full.length - d then s else _)
      < a.shape.getD (opOf d a).2 0 then _ else _) = _
    rw [if_pos (show (opOf d a).2 + (full.length - a.shape.length) = full.length - d by omega),
      show a.shape.getD (opOf d a).2 0 = n from hsz]
    by_cases hs : s < n
    · rw [if_pos hs, if_pos hs]
      refine hp _ _ fun p hp' => ?_
      by_cases e : p + (full.length - a.shape.length) = full.length - d
      · rw [if_pos e, if_pos e]
      · rw [if_neg e, if_neg e, padVals_size hc, if_neg (show ¬ p = (opOf d a).2 by omega)]
    · rw [if_neg hs, if_neg hs]

theorem samplesOver_pad {w : Arr K} {ys : List (Arr K)} (r : Ready x (w :: ys) full d n)
    (val : List K → V) (pad : ℕ) (i : ℕ → ℕ) :
    samplesOver val (padVals d pad x) (padVals d pad w) (ys.map (padVals d pad)) full.length
        (full.length - d) (n + pad) i
      = samplesOver val x w ys full.length (full.length - d) n i
        ++ List.replicate pad (val (List.replicate (ys.length + 1) 0), 0) := by
  have hx := operandAt_pad r (a := x) (by simp) pad i
  have hw := operandAt_pad r (a := w) (by simp) pad i
  have hys : ∀ a ∈ ys, ∀ s, operandAt (padVals d pad a) full.length (full.length - d) i s
      = if s < n then operandAt a full.length (full.length - d) i s else 0 := fun a ha s =>
    operandAt_pad r (by simp [ha]) pad i s
  unfold samplesOver
  rw [List.range_add, List.map_append]
  congr 1
  · refine List.map_congr_left fun s hs => ?_
    have hs' := List.mem_range.1 hs
    rw [hw, if_pos hs']
    congr 2
    simp only [List.map_cons, List.map_map]
    rw [hx, if_pos hs']
    congr 1
    refine List.map_congr_left fun a ha => ?_
    show operandAt (padVals d pad a) _ _ _ _ = _
    rw [hys a ha, if_pos hs']
  · refine List.ext_getElem (by simp) fun q h1 h2 => ?_
    simp only [List.getElem_map, List.getElem_range, List.getElem_replicate]
    rw [hw, if_neg (by omega)]
    congr 2
    simp only [List.map_cons, List.map_map, List.replicate_succ]
    rw [hx, if_neg (by omega)]
    congr 1
    refine List.eq_replicate_iff.2 ⟨by simp, fun b hb => ?_⟩
    obtain ⟨a, ha, rfl⟩ := List.mem_map.1 hb
    show operandAt (padVals d pad a) _ _ _ _ = _
    rw [hys a ha, if_neg (by omega)]

theorem operandAt_update (a : Arr K) (N ax : ℕ) (i : ℕ → ℕ) (c s : ℕ) :
    operandAt a N ax (Function.update i ax c) s = operandAt a N ax i s := by
  unfold operandAt
  split_ifs
  · rfl
  · rfl
  · congr 1
    funext p
    split_ifs with h1 h2
    · rfl
    · rfl
    · rw [Function.update_of_ne h1]

theorem samplesOver_update (val : List K → V) (x w : Arr K) (ys : List (Arr K)) (N ax n c : ℕ)
    (i : ℕ → ℕ) :
    samplesOver val x w ys N ax n (Function.update i ax c) = samplesOver val x w ys N ax n i := by
  unfold samplesOver
  simp only [operandAt_update]

theorem momCoords_update {N nd ax c : ℕ} (h : ax < N) (i : ℕ → ℕ) :
    momCoords N nd (Function.update i ax c) = momCoords N nd i := by
  unfold momCoords
  refine List.map_congr_left fun j _ => ?_
  rw [Function.update_of_ne (by omega)]

end Pad

section Rolling

variable {K V M : Type*} [Field K] [LinearOrder K] [IsStrictOrderedRing K]
variable {x : Arr K} {others : List (Arr K)} {z : ℤ} {full full' : List ℕ} {ate : Bool}
  {h : Arr K → Arr K} {d' : ℕ}

/-- Weight entries that are not available are set to zero on request. -/
def zeroWeight (zm : Bool) (coords : List ℕ) (v : Option K) : Option K :=
  if zm = true ∧ (∀ m ∈ coords, m = 0) ∧ v = none then some 0 else v

theorem Prep.idx (P : Prep x others z full ate h full' d') (g : GoodValues x others z full)
    (nd : ℕ) : (rowsLayout full.length (full.length - fromEnd x z) nd ate).idxOf
      (full.length - fromEnd x z) = full.length - d' := by
  have hax := P.ax_lt g
  have h1 := idxOf_getD (rowsLayout_nodup hax nd ate) (p := full.length - d')
    (by rw [rowsLayout_length hax]; have := P.ax'_lt; omega)
  rwa [rowsLayout_front hax _ _ P.ax'_lt, P.ax] at h1

theorem Prep.idxMom (P : Prep x others z full ate h full' d') (g : GoodValues x others z full)
    (nd : ℕ) : ((List.range nd).map (full.length + ·)).map
      (rowsLayout full.length (full.length - fromEnd x z) nd ate).idxOf
      = (List.range nd).map (full.length + ·) := by
  have hax := P.ax_lt g
  rw [List.map_map]
  refine List.map_congr_left fun j hj => ?_
  have hj' := List.mem_range.1 hj
  have h1 := idxOf_getD (rowsLayout_nodup hax nd ate) (p := full.length + j)
    (by rw [rowsLayout_length hax]; omega)
  rwa [rowsLayout_mom hax _ hj'] at h1

theorem mapPyIdx_last {n nd : ℕ} :
    (axesLast nd).map (pyIdx (n + nd)) = (List.range nd).map (n + ·) := by
  have hr : ∀ a ∈ axesLast nd, InRange (n + nd) a := axesLast_range' (by omega)
  have : (axesLast nd).map (pyIdx (n + nd)) = (axesLast nd).map (wrap (n + nd)) :=
    List.map_congr_left fun a ha => pyIdx_eq (hr a ha)
  rw [this, axesLast_wrap' (by omega)]
  refine List.map_congr_left fun j _ => by omega

theorem Prep.zeroed (P : Prep x others z full ate h full' d') (g : GoodValues x others z full)
    {out : Arr (Option K)} {mom : List ℕ} {rr : ℕ} {F : (ℕ → ℕ) → Option K} (zm : Bool)
    (ho : Shows out (rowsLayout full.length (full.length - fromEnd x z) mom.length ate)
      (valuesSize full (full.length - fromEnd x z) rr mom) F) (N' : ℕ)
    (hN : N' = full.length + mom.length) :
    Shows (zeroMissingWeight ((axesLast mom.length).map (pyIdx N')) zm out)
      (rowsLayout full.length (full.length - fromEnd x z) mom.length ate)
      (valuesSize full (full.length - fromEnd x z) rr mom)
      (fun i => zeroWeight zm (momCoords full.length mom.length i) (F i)) := by
  have hax := P.ax_lt g
  rw [hN, mapPyIdx_last, ← P.idxMom g mom.length]
  have := zeroMissing_shows ho (mom := (List.range mom.length).map (full.length + ·)) (by
    intro a ha
    obtain ⟨j, hj, rfl⟩ := List.mem_map.1 ha
    have := List.mem_range.1 hj
    exact mem_rowsLayout hax ate (by omega)) zm
  refine ⟨this.1, fun i hi => ?_⟩
  rw [this.2 i hi]
  unfold zeroWeight momCoords
  congr 1
  simp

theorem rows_drop {α : Type*} (rows : List (Option α)) (p r : ℕ) :
    ((rows.drop p)[r]?).join = (rows[p + r]?).join := by
  rw [List.getElem?_drop]

/-- `rolling_vals`. -/
theorem rollingValsNd_spec (val : List K → V) {core : Core K M} {fam : List ℕ → Kernel K V M}
    {mom : List ℕ} (hm : mom.length = core.nd) (window : ℕ) (minPeriods : Option ℤ)
    (center zm : Bool) {w : Arr K} {ys : List (Arr K)} (hy : ys.length + 1 = core.nd)
    (g : GoodValues x (w :: ys) z full) (orderCF ate : Bool) :
    ∃ out, rollingValsNd val core fam mom (axesLast core.nd) window minPeriods center zm x (w :: ys)
        (.int z) orderCF ate = .ok out ∧
      Shows out (rowsLayout full.length (full.length - fromEnd x z) core.nd ate)
        (valuesSize full (full.length - fromEnd x z) (sampleCount x z) mom) (fun i =>
          zeroWeight zm (momCoords full.length core.nd i)
          ((((fam (mom.map (· + 1))).rollingVals (val (List.replicate core.nd 0)) window minPeriods
            center
            (samplesOver val x w ys full.length (full.length - fromEnd x z) (sampleCount x z) i)).bind
              (fun rows => (rows[i (full.length - fromEnd x z)]?).join)).map
            (fun r => core.ent r (momCoords full.length core.nd i)))) := by
  obtain ⟨h, full', d', P⟩ := g.prep ate
  have r := P.ready
  have hax := P.ax_lt g
  cases center with
  | false =>
    obtain ⟨out, h1, h2⟩ := r.fill_rows (mom := mom) (rr := sampleCount x z) (extra := []) (by simp)
      (fun sizes L l ops c =>
        (((fam sizes.tail).rollingValsKernel window (max (minPeriods.getD window) 1)
          (samplesAt val ops (sampleCount x z) L l)).bind
          (fun rows => (rows[c.headD 0]?).join)).map (fun r => core.ent r c.tail))
    have hlen : out.shape.length = full.length + mom.length := by
      rw [h2.1, List.length_map, List.length_range, P.len]
    refine ⟨zeroMissingWeight ((axesLast mom.length).map (pyIdx out.shape.length)) zm out, ?_, ?_⟩
    rotate_left
    · rw [← hm]
      refine P.zeroed g zm (P.shows g h2
        (F := fun i => (((fam (mom.map (· + 1))).rollingVals (val (List.replicate mom.length 0))
          window minPeriods false (samplesOver val x w ys full.length (full.length - fromEnd x z)
            (sampleCount x z) i)).bind
              (fun rows => (rows[i (full.length - fromEnd x z)]?).join)).map
            (fun r => core.ent r (momCoords full.length mom.length i))) fun i _ => ?_) _ hlen
      beta_reduce
      rw [P.len, P.rows_ax g, P.rows_mom g, P.seen g]
      rfl
    · unfold rollingValsNd rollingValsFrom
      rw [P.eq _ (by simp [hy])]
      simp only [Except.bind, Bool.false_eq_true, if_false, List.map_id']
      rw [r.count, r.out_rows]
      simp only
      rw [r.operands]
      simp only
      rw [← hm, h1]
      rfl
  | true =>
    set pad := (-Kernel.centerShift window).toNat with hpad
    have rp := r.pad pad
    have hpx : ∀ a ∈ h x :: (w :: ys).map h,
        padAxis a (pyIdx a.shape.length (axisOfValue a (-(d' : ℤ)))) pad = padVals d' pad a := by
      intro a ha
      unfold padVals
      congr 1
      have h1 := r.one
      unfold axisOfValue opOf
      rcases (r.ok a ha).2 with ⟨h, _⟩ | ⟨h2, hd, _⟩
      · simp only [if_pos h]
        have hr : InRange a.shape.length (-1) := by unfold InRange; omega
        have := wrap_neg hr (by omega)
        rw [pyIdx_eq hr]; omega
      · simp only [if_neg (show ¬ a.shape.length = 1 by omega)]
        have hr : InRange a.shape.length (-(d' : ℤ)) := by unfold InRange; omega
        have := wrap_neg hr (by omega)
        rw [pyIdx_eq hr]; omega
    have hp1 := hpx (h x) (by simp)
    have hp2 : ((w :: ys).map h).map (fun a => padAxis a
        (pyIdx a.shape.length (axisOfValue a (-(d' : ℤ)))) pad)
        = ((w :: ys).map h).map (padVals d' pad) :=
      List.map_congr_left fun a ha => hpx a (List.mem_cons_of_mem _ ha)
    obtain ⟨out, h1, h2⟩ := rp.fill_rows (mom := mom) (rr := sampleCount x z + pad) (extra := [])
      (by simp) (fun sizes L l ops c =>
        (((fam sizes.tail).rollingValsKernel window (max (minPeriods.getD window) 1)
          (samplesAt val ops (sampleCount x z + pad) L l)).bind
          (fun rows => (rows[c.headD 0]?).join)).map (fun r => core.ent r c.tail))
    have hvs : valuesSize (full'.set (full'.length - d') (sampleCount x z + pad))
        (full'.length - d') (sampleCount x z + pad) mom
        = valuesSize full' (full'.length - d') (sampleCount x z + pad) mom := by
      funext p
      unfold valuesSize
      by_cases e : p = full'.length - d'
      · rw [if_pos e, if_pos e]
      · rw [if_neg e, if_neg e, List.length_set]
        congr 1
        simp only [List.getD]
        rw [List.getElem?_set_ne (by omega)]
    have h2' := h2
    rw [List.length_set, hvs] at h2
    have hlen : out.shape.length = full.length + mom.length := by
      rw [h2.1, List.length_map, List.length_range, P.len]
    have hkern : ∀ i, samplesAt val ((padVals d' pad (h x) :: ((w :: ys).map h).map
          (padVals d' pad)).map (opOf d')) (sampleCount x z + pad) (full'.length - 1)
        (along (keptAxes full'.length [full'.length - d']) i)
        = samplesOver val (h x) (h w) (ys.map h) full'.length (full'.length - d') (sampleCount x z) i
          ++ List.replicate pad (val (List.replicate core.nd 0), 0) := by
      intro i
      have hs := rp.samples val i
      rw [List.length_set] at hs
      have hs2 := samplesOver_pad r val pad i
      rw [List.length_map, hy] at hs2
      rw [← hs2, ← hs]
      rfl
    have hF := P.shows g h2 (F := fun i =>
        (((fam (mom.map (· + 1))).rollingValsKernel window (max (minPeriods.getD window) 1)
          (samplesOver val x w ys full.length (full.length - fromEnd x z) (sampleCount x z) i
            ++ List.replicate pad (val (List.replicate core.nd 0), 0))).bind
          (fun rows => (rows[i (full.length - fromEnd x z)]?).join)).map
          (fun r => core.ent r (momCoords full.length mom.length i))) fun i _ => by
      simp only [List.tail_cons, List.headD_cons]
      rw [hkern, P.len, P.rows_ax g, P.rows_mom g,
        P.samples val (sampleCount x z) (P.front g mom.length i)]
    have hD := dropAxis_shows hF (rowsLayout_nodup hax _ ate)
      (mem_rowsLayout (a := full.length - fromEnd x z) (nd := mom.length) hax ate (by omega)) pad
    rw [P.idx g] at hD
    have hsz : (fun a => if a = full.length - fromEnd x z then
        valuesSize full (full.length - fromEnd x z) (sampleCount x z + pad) mom a - pad
        else valuesSize full (full.length - fromEnd x z) (sampleCount x z + pad) mom a)
        = valuesSize full (full.length - fromEnd x z) (sampleCount x z) mom := by
      funext a
      unfold valuesSize
      by_cases e : a = full.length - fromEnd x z
      · rw [if_pos e, if_pos e, if_pos e]; omega
      · rw [if_neg e, if_neg e, if_neg e]
    rw [hsz] at hD
    have hidx : pyIdx out.shape.length (-(d' : ℤ) - mom.length) = full.length - d' := by
      have h1 := r.one
      have h2 := r.rank
      rw [P.len] at h2
      have hr : InRange (full.length + mom.length) (-(d' : ℤ) - mom.length) := by
        unfold InRange; omega
      have := wrap_neg hr (by omega)
      rw [hlen, pyIdx_eq hr]; omega
    refine ⟨zeroMissingWeight ((axesLast mom.length).map (pyIdx out.shape.length)) zm
      (dropAxis out (full.length - d') pad), ?_, ?_⟩
    rotate_left
    · rw [← hm]
      have hZ := P.zeroed g zm hD _ hlen
      refine ⟨hZ.1, fun i hi => ?_⟩
      rw [hZ.2 i hi]
      beta_reduce
      rw [samplesOver_update, momCoords_update hax, Function.update_self]
      unfold Kernel.rollingVals
      simp only [if_true]
      rw [hm]
      congr 2
      cases (fam (mom.map (· + 1))).rollingValsKernel window (max (minPeriods.getD window) 1)
          (samplesOver val x w ys full.length (full.length - fromEnd x z) (sampleCount x z) i
            ++ List.replicate pad (val (List.replicate core.nd 0), 0)) with
      | none => rfl
      | some rows =>
        show (rows[_]?).join = ((rows.drop pad)[_]?).join
        rw [rows_drop, Nat.add_comm]
    · unfold rollingValsNd rollingValsFrom
      rw [P.eq _ (by simp [hy])]
      simp only [Except.bind, if_true]
      rw [hp1, hp2, rp.count, rp.out_rows]
      simp only
      rw [rp.operands]
      simp only
      rw [← hm, h1]
      simp only [Except.map]
      rw [hidx]

/-- `rolling_exp_vals`, `alpha` not changing the common shape. -/
theorem rollingExpValsNd_spec (val : List K → V) {core : Core K M} {fam : List ℕ → Kernel K V M}
    {mom : List ℕ} (hm : mom.length = core.nd) (adjust : Bool) (minPeriods : Option ℤ)
    (zm : Bool) {w alpha : Arr K} {ys : List (Arr K)} (hy : ys.length + 1 = core.nd)
    (g : GoodValues x (w :: ys) z full) (ga : GoodValues x (w :: alpha :: ys) z full)
    (orderCF ate : Bool) :
    ∃ out, rollingExpValsNd val core fam mom (axesLast core.nd) adjust minPeriods zm x w alpha ys
        (.int z) orderCF ate = .ok out ∧
      Shows out (rowsLayout full.length (full.length - fromEnd x z) core.nd ate)
        (valuesSize full (full.length - fromEnd x z) (sampleCount x z) mom) (fun i =>
          zeroWeight zm (momCoords full.length core.nd i)
          ((((fam (mom.map (· + 1))).rollingExpVals adjust minPeriods
            ((List.range (sampleCount x z)).map
              (operandAt alpha full.length (full.length - fromEnd x z) i))
            (samplesOver val x w ys full.length (full.length - fromEnd x z) (sampleCount x z) i)).bind
              (fun rows => (rows[i (full.length - fromEnd x z)]?).join)).map
            (fun r => core.ent r (momCoords full.length core.nd i)))) := by
  have P := g.prepares ate
  have PA := ga.prepares ate
  set h := prepOne (prepMove x z ate) (fromEnd x z) (sampleCount x z)
  set full' := if prepMove x z ate then movedShape (fromEnd x z) full else full
  set d' := if prepMove x z ate then 1 else fromEnd x z
  have r := P.ready
  have ra := PA.ready
  have hax := P.ax_lt g
  have hal : h alpha ∈ h x :: (w :: alpha :: ys).map h := by simp
  obtain ⟨out, h1, h2⟩ := r.fill_rows (mom := mom) (rr := sampleCount x z)
    (extra := [opOf d' (h alpha)].map (fun o => o.1.loopShape [o.2]))
    (by
      intro t ht
      rw [List.map_cons, List.map_nil, List.mem_singleton] at ht
      rw [ht]
      exact ra.fits hal)
    (fun sizes L l ops c =>
      (((fam sizes.tail).rollingExpVals adjust minPeriods
        ((List.range (sampleCount x z)).map (fun s =>
          ([opOf d' (h alpha)].map (fun o => o.1.read [o.2] L l [s])).headD 0))
        (samplesAt val ops (sampleCount x z) L l)).bind
        (fun rows => (rows[c.headD 0]?).join)).map (fun r => core.ent r c.tail))
  have hlen : out.shape.length = full.length + mom.length := by
    rw [h2.1, List.length_map, List.length_range, P.len]
  refine ⟨zeroMissingWeight ((axesLast mom.length).map (pyIdx out.shape.length)) zm out, ?_, ?_⟩
  · unfold rollingExpValsNd rollingExpValsFrom
    rw [PA.eq _ (by simp [hy])]
    simp only [Except.bind, List.map_cons]
    rw [r.count]
    have ho := r.out_rows mom (sampleCount x z) orderCF
    rw [List.map_cons] at ho
    rw [ho]
    simp only
    have hao : sampleOperands [(h alpha, axisOfValue (h alpha) (-(d' : ℤ)))] (sampleCount x z)
        = .ok [opOf d' (h alpha)] :=
      sampleOperands_of (as := [h alpha]) (fun a ha => by
        rw [List.mem_singleton.1 ha]; exact ra.operand hal)
        (fun a ha => by rw [List.mem_singleton.1 ha]; exact (ra.isOp hal).size)
    rw [hao]
    simp only
    have hop := r.operands
    rw [List.map_cons (f := h)] at hop
    rw [hop]
    simp only
    rw [← hm]
    have h1' := h1
    rw [List.map_cons (f := h)] at h1'
    rw [h1']
    rfl
  · rw [← hm]
    refine P.zeroed g zm (P.shows g h2 (F := fun i =>
          ((fam (mom.map (· + 1))).rollingExpVals adjust minPeriods
            ((List.range (sampleCount x z)).map
              (operandAt alpha full.length (full.length - fromEnd x z) i))
            (samplesOver val x w ys full.length (full.length - fromEnd x z) (sampleCount x z) i)).bind
              (fun rows => (rows[i (full.length - fromEnd x z)]?).join) |>.map
            (fun r => core.ent r (momCoords full.length mom.length i))) fun i _ => ?_) _ hlen
    beta_reduce
    simp only [List.tail_cons, List.headD_cons, List.map_cons (f := fun o : Arr K × ℕ => _)]
    have hrd : ∀ s, (opOf d' (h alpha)).1.read [(opOf d' (h alpha)).2] (full'.length - 1)
        (along (keptAxes full'.length [full'.length - d'])
          (along (rowsLayout full.length (full.length - fromEnd x z) mom.length ate) i)) [s]
        = operandAt alpha full.length (full.length - fromEnd x z) i s := by
      intro s
      rw [(ra.isOp hal).read ra.ax_lt]
      show operandAt (h alpha) _ _ _ _ = _
      rw [P.len]
      exact PA.op alpha (by simp) _ _ (P.front g mom.length i) s
    simp only [hrd]
    rw [P.len, P.rows_ax g, P.rows_mom g]
    have := P.seen g val mom.length i
    simp only [List.map_cons] at this ⊢
    rw [this]

theorem loop_fits_inv {a : Arr K} {N d : ℕ} (h1 : 1 ≤ d) (hd : d ≤ a.shape.length) (hN : d ≤ N)
    {f : ℕ → ℕ}
    (hf : FitsEnd (a.loopShape [a.shape.length - d]) ((keptAxes N [N - d]).map f)) :
    a.shape.length ≤ N ∧ ∀ p < a.shape.length, p ≠ a.shape.length - d →
      axisSize a p = 1 ∨ axisSize a p = f (p + (N - a.shape.length)) := by
  have hc : a.shape.length - d < a.shape.length := by omega
  have hax : N - d < N := by omega
  obtain ⟨hl, hf⟩ := hf
  rw [loopShape_single] at hl hf
  simp only [List.length_map, keptAxes_single_length hc, keptAxes_single_length hax] at hl hf
  refine ⟨by omega, fun p hp hpc => ?_⟩
  have := hf (if p < a.shape.length - d then p else p - 1) (by split_ifs <;> omega)
  rw [getD_map_kept hc (by split_ifs <;> omega), getD_map_kept hax (by split_ifs <;> omega)] at this
  have e1 : (if (if p < a.shape.length - d then p else p - 1) < a.shape.length - d
      then (if p < a.shape.length - d then p else p - 1)
      else (if p < a.shape.length - d then p else p - 1) + 1) = p := by
    split_ifs <;> omega
  have e2 : (if (if p < a.shape.length - d then p else p - 1) + (N - 1 - (a.shape.length - 1)) < N - d
      then (if p < a.shape.length - d then p else p - 1) + (N - 1 - (a.shape.length - 1))
      else (if p < a.shape.length - d then p else p - 1) + (N - 1 - (a.shape.length - 1)) + 1)
      = p + (N - a.shape.length) := by
    split_ifs <;> omega
  rwa [e1, e2] at this

end Rolling

end Cmomy.Nd
