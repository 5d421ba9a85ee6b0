import Verif.Spec.LabelledMake
import Verif.Props.ObjectMake
import Verif.Props.LabelledVals
import Verif.Lemmas.LabelledCollect
import Verif.Lemmas.LabelledStats

/-!
# Labelled objects made from values
-/

set_option linter.unusedSectionVars false

namespace Cmomy

open Spec Labelled Axes Validate

variable {δ : Type} [DecidableEq δ]

section Samples

variable {K V M ι : Type} {σ : Type*} [Field K] [LinearOrder K] [IsStrictOrderedRing K]
  {x : DataArray δ K} {others : List (Operand δ K)} {dim : δ} {size : δ → ℕ} {reserved : List δ}

theorem numberNamed_nonneg (g : GoodLabelled x others dim size reserved) {w : Operand δ K}
    (hw : w ∈ others) (hn : NonNegOperand w) {c : δ → ℕ}
    (hc : ∀ d ∈ otherDims (.named x :: others) dim, c d < size d) {s : ℕ} (hs : s < size dim) :
    0 ≤ numberNamed (otherDims (.named x :: others) dim) dim (nameFromEnd x dim) w c s := by
  have hg := g.good w (List.mem_cons_of_mem _ hw)
  cases w with
  | named y =>
    refine hn _ fun d hd => ?_
    rw [(hg.2.2 d hd).1]
    by_cases e : d = dim
    · subst e
      rwa [Function.update_self]
    · rw [Function.update_of_ne e]
      exact hc d (mem_otherDims.2 ⟨⟨_, List.mem_cons_of_mem _ hw, hd⟩, e⟩)
  | plain a =>
    obtain ⟨⟨hp, hu⟩, hwide⟩ := hg
    have hfe := g.fe
    set loop := otherDims (.named x :: others) dim
    show 0 ≤ operandAt a _ _ _ _
    unfold operandAt
    rcases hu with h | ⟨h, h'⟩ | ⟨h, hd, h'⟩
    · rw [if_pos h]
      exact hn _ fun ax hax => by omega
    · rw [if_neg (by omega), if_pos h]
      refine hn _ fun ax hax => ?_
      obtain rfl : ax = 0 := by omega
      unfold axisSize at h'
      rw [h']
      exact hs
    · rw [if_neg (by omega), if_neg (by omega)]
      refine hn _ fun q hq => ?_
      obtain ⟨hl, hf⟩ := hwide h
      show (if q + (loop.length + 1 - a.shape.length) = loop.length + 1 - nameFromEnd x dim then s else
        if axisSize a q = 1 then 0 else coordsAlong (assumedDims loop dim (nameFromEnd x dim)) c
          (q + (loop.length + 1 - a.shape.length))) < axisSize a q
      by_cases e : q + (loop.length + 1 - a.shape.length) = loop.length + 1 - nameFromEnd x dim
      · rw [if_pos e]
        obtain rfl : q = a.shape.length - nameFromEnd x dim := by omega
        rw [h']
        exact hs
      · rw [if_neg e]
        by_cases e1 : axisSize a q = 1
        · rw [if_pos e1]; omega
        · rw [if_neg e1]
          have hlen : (assumedDims loop dim (nameFromEnd x dim)).length = loop.length + 1 :=
            assumedDims_length
          have hlt : q + (loop.length + 1 - a.shape.length)
              < (assumedDims loop dim (nameFromEnd x dim)).length := by omega
          have hd := List.getElem?_eq_getElem hlt
          have hsz := (hf q hq _ hd).resolve_left e1
          unfold coordsAlong
          rw [hd, hsz]
          simp only [Option.map_some, Option.getD_some]
          refine hc _ ?_
          have ht : (loop.take (loop.length + 1 - nameFromEnd x dim)).length
              = loop.length + 1 - nameFromEnd x dim := by rw [List.length_take]; omega
          generalize (assumedDims loop dim (nameFromEnd x dim))[q + (loop.length + 1 - a.shape.length)]
            = d0 at hd
          unfold assumedDims at hd
          rcases Nat.lt_or_gt_of_ne e with h | h
          · rw [List.getElem?_append_left (by omega)] at hd
            exact List.mem_of_mem_take (List.mem_of_getElem? hd)
          · rw [List.getElem?_append_right (by omega), ht,
              show q + (loop.length + 1 - a.shape.length) - (loop.length + 1 - nameFromEnd x dim)
                = q + (loop.length + 1 - a.shape.length) - (loop.length + 1 - nameFromEnd x dim) - 1 + 1
                by omega,
              List.getElem?_cons_succ] at hd
            exact List.mem_of_mem_drop (List.mem_of_getElem? hd)

theorem samplesNamed_congr (g : GoodLabelled x others dim size reserved) (val : List K → V)
    {w : Operand δ K} {ys : List (Operand δ K)} (hw : w ∈ others) (hys : ∀ y ∈ ys, y ∈ others)
    {c c' : δ → ℕ} (hc : ∀ d ∈ otherDims (.named x :: others) dim, c d = c' d) (count : ℕ) :
    samplesNamed val (otherDims (.named x :: others) dim) dim (nameFromEnd x dim) count (.named x) w ys c
      = samplesNamed val (otherDims (.named x :: others) dim) dim (nameFromEnd x dim) count (.named x) w
          ys c' := by
  unfold samplesNamed
  refine List.map_congr_left fun s _ => ?_
  rw [g.number_congr (List.mem_cons_of_mem _ hw) hc]
  congr 2
  refine List.map_congr_left fun o ho => g.number_congr ?_ hc s
  rcases List.mem_cons.1 ho with rfl | ho
  · exact List.mem_cons_self ..
  · exact List.mem_cons_of_mem _ (hys o ho)

theorem samplesNamed_nonneg (g : GoodLabelled x others dim size reserved) (val : List K → V)
    {w : Operand δ K} {ys : List (Operand δ K)} (hw : w ∈ others) (hn : NonNegOperand w) {c : δ → ℕ}
    (hc : ∀ d ∈ otherDims (.named x :: others) dim, c d < size d) :
    ∀ q ∈ samplesNamed val (otherDims (.named x :: others) dim) dim (nameFromEnd x dim) (size dim)
      (.named x) w ys c, 0 ≤ q.2 := by
  intro q hq
  obtain ⟨s, hs, rfl⟩ := List.mem_map.1 hq
  exact numberNamed_nonneg g hw hn hc (List.mem_range.1 hs)

variable {core : Nd.Core K M} {fam : List ℕ → Kernel K V M} {mom : List ℕ} {H : List σ → M → Prop}
  {wt : List σ → K} {scaled : K → σ → σ} {smp : V → K → σ}
  {k : Kernel K V M} {law : Lawful k ι} {moms : List δ} {w : Operand δ K} {ys : List (Operand δ K)}

theorem reduceValsX_result (T : Meaning k law H wt scaled)
    (h1 : ∀ v c, T.raw [smp v c] = c • law.vraw v) (val : List K → V)
    (hk : fam (mom.map (· + 1)) = k) (hm : mom.length = core.nd)
    (hml : moms.length = core.nd) (hy : ys.length + 1 = core.nd)
    (g : GoodLabelled x (w :: ys) dim size moms) (hn : NonNegOperand w)
    {axis : Option (Option AxisArg)} {dimArg : Option (Option δ)}
    (hsel : Chosen x.dims [] axis dimArg dim) :
    ∃ y, reduceValsX val core fam mom moms x (w :: ys) axis dimArg = .ok y ∧
      ResultNamed core H y moms (otherDims (.named x :: w :: ys) dim ++ moms)
        (sizesOfVals size dim 0 moms mom)
        (fun c => (samplesNamed val (otherDims (.named x :: w :: ys) dim) dim (nameFromEnd x dim)
          (size dim) (.named x) w ys c).map (fun p => smp p.1 p.2)) := by
  subst hk
  obtain ⟨y, e, hs⟩ := C58_reduce_vals val (fam := fam) hm hml hy g hsel
  refine ⟨y, e, resultNamed_of_shows hs g.distinct (fun c => rfl) (fun c ms => ?_) (fun c hc => ?_)⟩
  · rw [samplesNamed_congr g val (by simp) (fun y hy => by simp [hy]) (fun d hd => ?_)]
    unfold withNames
    rw [if_neg (g.free hd)]
  · refine T.reduce_values h1 (samplesNamed_nonneg g val (by simp) hn fun d hd => ?_)
    have := hc d (List.mem_append_left _ hd) (g.free hd)
    unfold sizesOfVals at this
    rwa [if_neg (mem_otherDims.1 hd).2, if_neg (g.free hd)] at this

theorem resampleValsX_result (T : Meaning k law H wt scaled)
    (h1 : ∀ v c, T.raw [smp v c] = c • law.vraw v)
    (h2 : ∀ f v c, smp v (c * f) = scaled f (smp v c)) (val : List K → V)
    (hk : fam (mom.map (· + 1)) = k) (hm : mom.length = core.nd)
    (hml : moms.length = core.nd) (hy : ys.length + 1 = core.nd) {rep : δ}
    (g : GoodLabelled x (w :: ys) dim size (rep :: moms)) (hn : NonNegOperand w) {freq : List (List K)}
    (hf : ∀ fs ∈ freq, ∀ f ∈ fs, 0 ≤ f)
    {axis : Option (Option AxisArg)} {dimArg : Option (Option δ)}
    (hsel : Chosen x.dims [] axis dimArg dim) (orderCF axesToEnd : Bool) :
    ∃ y, resampleValsX val core fam mom moms freq (size dim) x (w :: ys) axis dimArg rep orderCF
        axesToEnd = .ok y ∧
      ResultNamed core H y moms
        (dimsOfVals x (otherDims (.named x :: w :: ys) dim) dim rep moms axesToEnd)
        (sizesOfVals size rep freq.length moms mom)
        (fun c => ((freq.getD (c rep) []).zip (samplesNamed val (otherDims (.named x :: w :: ys) dim) dim
          (nameFromEnd x dim) (size dim) (.named x) w ys c)).map
            (fun p => scaled p.1 (smp p.2.1 p.2.2))) := by
  subst hk
  obtain ⟨y, e, hs⟩ := C58_resample_vals val (fam := fam) hm hml hy g freq hsel orderCF axesToEnd
  have hrm : rep ∉ moms := (List.nodup_cons.1 g.distinct).1
  refine ⟨y, e, resultNamed_of_shows hs g.distinct.of_cons (fun c => rfl) (fun c ms => ?_)
    (fun c hc => ?_)⟩
  · have hcr : withNames moms ms c rep = c rep := by
      unfold withNames
      rw [if_neg hrm]
    rw [hcr, samplesNamed_congr g val (by simp) (fun y hy => by simp [hy]) (fun d hd => ?_)]
    unfold withNames
    rw [if_neg fun h => g.free hd (List.mem_cons_of_mem _ h)]
  · have hrep : c rep < freq.length := by
      have := hc rep (by
        unfold dimsOfVals renamed
        split_ifs
        · simp
        · refine List.mem_append_left _ (List.mem_append_right _ (List.mem_map.2
            ⟨dim, g.first.2.1, by simp⟩))) hrm
      unfold sizesOfVals at this
      rwa [if_pos rfl] at this
    refine T.resample_values h1 h2 (samplesNamed_nonneg g val (by simp) hn fun d hd => ?_) hf hrep
    have hdr : d ≠ rep := fun h => g.free hd (h ▸ List.mem_cons_self ..)
    have hdm : d ∉ moms := fun h => g.free hd (List.mem_cons_of_mem _ h)
    have hdd := (mem_otherDims.1 hd).2
    have := hc d (by
      unfold dimsOfVals renamed
      split_ifs
      · simp [hd]
      · by_cases hx : d ∈ x.dims
        · refine List.mem_append_left _ (List.mem_append_right _ (List.mem_map.2 ⟨d, hx, ?_⟩))
          rw [if_neg hdd]
        · refine List.mem_append_left _ (List.mem_append_left _ (List.mem_filter.2 ⟨hd, ?_⟩))
          simpa using hx) hdm
    unfold sizesOfVals at this
    rwa [if_neg hdr, if_neg hdm] at this

end Samples

section Data

variable {K M : Type} [Field K] [DecidableEq K] {σ : Type*}

/-- From an array to the labelled array with the same cells. -/
theorem standsNamed_of_nd {core : Nd.Core K M} (hc : core.Ok) {H : List σ → M → Prop}
    {loop moms : List δ} (hn : (loop ++ moms).Nodup) (hm : moms.length = core.nd) {size : δ → ℕ}
    {out : Nd.Arr K} {ms : List ℕ} {L' : (ℕ → ℕ) → List σ} (h : Stands core H out (loop.map size) ms L')
    {L : (δ → ℕ) → List σ}
    (e : ∀ c, (∀ d ∈ loop, c d < size d) → L' (coordsAlong loop c) = L c) :
    StandsNamed core H (.ofNd (loop ++ moms) out) moms L where
  object := ⟨hn, hn.of_append_right, fun d hd => List.mem_append_right _ hd, hm⟩
  holds := by
    intro c hcb
    have hlen : ms.length = moms.length := by rw [h.nd, hm]
    have hval : ∀ d ∈ loop, c d < size d := by
      intro d hd
      have hdm : d ∉ moms := fun h' => (List.nodup_append.1 hn).2.2 d hd d h' rfl
      have := hcb d (mem_valDims.2 ⟨List.mem_append_left _ hd, hdm⟩)
      have hi := List.idxOf_lt_length_iff.2 hd
      have hsz : (DataArray.ofNd (loop ++ moms) out).size d = size d := by
        show out.shape.getD ((loop ++ moms).idxOf d) 0 = _
        rw [h.object.shape, List.idxOf_append_of_mem hd,
          List.getD_append _ _ _ _ (by rw [List.length_map]; exact hi),
          List.getD_eq_getElem _ _ (by rw [List.length_map]; exact hi), List.getElem_map,
          List.getElem_idxOf hi]
      rwa [hsz] at this
    have hb : InBounds (loop.map size) (coordsAlong loop c) := by
      intro k hk
      rw [List.length_map] at hk
      rw [List.getD_eq_getElem _ _ (by rw [List.length_map]; exact hk), List.getElem_map]
      unfold coordsAlong
      rw [List.getElem?_eq_getElem hk]
      exact hval _ (List.getElem_mem hk)
    have := h.holds _ hb
    rw [e c hval, List.length_map] at this
    refine cast ?_ this
    congr 1
    unfold recordNamed
    refine hc.recd_congr _ _ fun m hml => ?_
    rw [ofNd_names hn h.object.proper (by rw [h.object.shape]; simp [hlen]) (by rw [hml, hm])]

variable {ops : List (Operand δ K)} {size : δ → ℕ} {reserved : List δ}

theorem mem_allDims {d : δ} : d ∈ allDims ops ↔ ∃ o ∈ ops, d ∈ operandDims o := by
  unfold allDims
  rw [mem_inOrder, List.mem_flatMap]

theorem allDims_named {y : DataArray δ K} (hy : .named y ∈ ops) {d : δ} (hd : d ∈ y.dims) :
    d ∈ allDims ops := mem_allDims.2 ⟨_, hy, hd⟩

theorem flatMap_frames (ops : List (Operand δ K)) :
    (ops.filterMap Operand.frame?).flatMap Prod.fst = ops.flatMap operandDims := by
  induction ops with
  | nil => rfl
  | cons o ops ih =>
    cases o with
    | named y => simp [Operand.frame?, operandDims, DataArray.frame, ih]
    | plain a =>
      rw [List.filterMap_cons_none rfl, ih]
      rfl

theorem frames_named {ops : List (Operand δ K)} {f : Frame δ}
    (hf : f ∈ ops.filterMap Operand.frame?) : ∃ y, .named y ∈ ops ∧ f = y.frame := by
  obtain ⟨o, ho, he⟩ := List.mem_filterMap.1 hf
  cases o with
  | named y => exact ⟨y, ho, by simpa [Operand.frame?] using he.symm⟩
  | plain a => simp [Operand.frame?] at he

theorem fills_loop (hf : ∀ o ∈ ops, Fills (allDims ops) size reserved o) :
    loopDims (ops.filterMap Operand.frame?) [] reserved = .ok (allDims ops) := by
  have hall : ∀ f ∈ ops.filterMap Operand.frame?, f.1.Nodup ∧ ∀ d ∈ f.1, f.2 d = size d := by
    intro f hfm
    obtain ⟨y, hy, rfl⟩ := frames_named hfm
    exact ⟨(hf _ hy).1, fun d hd => ((hf _ hy).2 d hd).1⟩
  unfold loopDims unifiedDims
  rw [if_neg (not_not.2 fun f hf => (hall f hf).1), if_neg (not_not.2 fun f hf h hh d hdf hdh _ =>
    ((hall f hf).2 d hdf).trans ((hall h hh).2 d hdh).symm)]
  simp only [Except.map, List.not_mem_nil, not_false_eq_true, decide_true, List.filter_true]
  rw [firstNames_eq, flatMap_frames]
  congr 1
  refine List.filter_eq_self.2 ?_
  intro d hd
  obtain ⟨o, ho, hdo⟩ := mem_allDims.1 (show d ∈ allDims ops from hd)
  cases o with
  | named y => simpa using ((hf _ ho).2 d hdo).2
  | plain a => exact absurd hdo List.not_mem_nil

theorem broadcasts_of_fits {s full : List ℕ} (h : FitsInto s full) : Broadcasts s full := by
  intro k a hk
  have hkl : k < s.length := by
    by_contra hlt
    rw [List.getElem?_eq_none (by rw [List.length_reverse]; omega)] at hk
    cases hk
  have hr := h.1
  rw [List.getElem?_reverse hkl, List.getElem?_eq_getElem (by omega)] at hk
  have hk' := Option.some.inj hk
  rcases h.2 (s.length - 1 - k) (by omega) with h1 | h1
  · rw [List.getD_eq_getElem _ _ (by omega), hk'] at h1
    exact .inl h1
  · rw [List.getD_eq_getElem _ _ (by omega), hk'] at h1
    right
    rw [List.getElem?_reverse (by omega), List.getElem?_eq_getElem (by omega), h1,
      List.getD_eq_getElem _ _ (by omega)]
    congr 2
    omega

/-- The array that is handed on for an operand. -/
theorem fills_array (hf : ∀ o ∈ ops, Fills (allDims ops) size reserved o) {o : Operand δ K}
    (ho : o ∈ ops) :
    ∃ a, o.arrangeAs (allDims ops) [] = .ok a ∧ a.Proper ∧ FitsInto a.shape ((allDims ops).map size) ∧
      (∀ q < (allDims ops).length, ∀ d, (allDims ops)[q]? = some d → d ∈ operandDims o →
        (allDims ops).length ≤ q + a.shape.length ∧
        a.shape.getD (q + a.shape.length - (allDims ops).length) 0 = size d) ∧
      ∀ c : δ → ℕ, (∀ d ∈ allDims ops, c d < size d) →
        stretch a (allDims ops).length (coordsAlong (allDims ops) c) = shownAt (allDims ops) c o := by
  have hg := hf o ho
  cases o with
  | plain a =>
    exact ⟨a, rfl, hg.1, hg.2, fun _ _ _ _ h => absurd h List.not_mem_nil, fun _ _ => rfl⟩
  | named y =>
    obtain ⟨h1, h2⟩ := hg
    have hln : (allDims ops ++ []).Nodup := by rw [List.append_nil]; exact inOrder_nodup _
    have hs : ∀ d ∈ y.dims, d ∈ allDims ops ++ [] := fun d hd => by
      rw [List.append_nil]; exact allDims_named ho hd
    obtain ⟨a, e1, e2, e3⟩ := compatData_ok y h1 (core := []) hln (by simp) hs
    obtain ⟨a', e1', p1, -, p3⟩ := value_arranged y (cs := []) hln h1 (by simp) hs (size := size)
      (fun d hd _ => (h2 d hd).1)
    obtain rfl : a = a' := Except.ok.inj (e1.symm.trans e1')
    set loop := allDims ops with hloop
    rw [List.append_nil] at e2 e3
    set T := loop.dropWhile (fun d => decide (d ∉ y.dims)) with hT
    set P := loop.takeWhile (fun d => decide (d ∉ y.dims)) with hP
    have hPT : loop = P ++ T := (List.takeWhile_append_dropWhile).symm
    have hlen : a.shape.length = T.length := by rw [e2, List.length_map]
    have hsum : loop.length = P.length + T.length := by
      conv_lhs => rw [hPT]
      rw [List.length_append]
    have hget : ∀ j (hj : j < T.length), loop[j + P.length]'(by omega) = T[j] := by
      intro j hj
      have : (P ++ T)[j + P.length]'(by rw [List.length_append]; omega) = T[j] := by
        rw [List.getElem_append_right (by omega)]
        simp
      simpa only [← hPT] using this
    refine ⟨a, e1, p1, ⟨by rw [List.length_map, hlen]; omega, fun p hp => ?_⟩, fun q hq d hd hdy => ?_,
      fun c hc => ?_⟩
    · rw [hlen] at hp
      rw [List.length_map, hlen, show p + (loop.length - T.length) = p + P.length by omega]
      rw [e2, List.getD_eq_getElem _ _ (by rw [List.length_map]; exact hp), List.getElem_map,
        List.getD_eq_getElem _ _ (by rw [List.length_map]; omega), List.getElem_map, hget p hp]
      by_cases hm : T[p] ∈ y.dims
      · rw [if_pos hm]
        exact .inr (h2 _ hm).1
      · rw [if_neg hm]
        exact .inl rfl
    · have hqP : P.length ≤ q := by
        by_contra hlt
        push Not at hlt
        have hd' : P[q]? = some d := by
          rw [hPT, List.getElem?_append_left hlt] at hd
          exact hd
        have := List.mem_takeWhile_imp (List.mem_of_getElem? hd')
        simp only [decide_eq_true_eq] at this
        exact this hdy
      have hj : q - P.length < T.length := by omega
      refine ⟨by rw [hlen]; omega, ?_⟩
      rw [hlen, show q + T.length - loop.length = q - P.length by omega, e2,
        List.getD_eq_getElem _ _ (by rw [List.length_map]; exact hj), List.getElem_map]
      have hTd : T[q - P.length] = d := by
        rw [← hget _ hj]
        have hq' : loop[q] = d := by
          rw [List.getElem?_eq_getElem hq] at hd
          exact Option.some.inj hd
        simp only [show q - P.length + P.length = q by omega]
        exact hq'
      have hdy' : d ∈ y.dims := hdy
      rw [hTd, if_pos hdy']
      exact (h2 d hdy).1
    · have := p3 c hc [] (by simp [Within])
      simp only [List.length_nil, Nat.add_zero] at this
      have hwn : withNames ([] : List δ) [] c = c := by funext d; simp [withNames]
      rw [hwn] at this
      refine Eq.trans ?_ this
      unfold stretch
      refine p1 _ _ fun ax hax => ?_
      by_cases h1' : a.shape.getD ax 0 = 1
      · rw [if_pos h1', if_pos h1']
      · rw [if_neg h1', if_neg h1', atMom, if_pos (by omega)]

theorem fills_common (hf : ∀ o ∈ ops, Fills (allDims ops) size reserved o) :
    ops.mapM (fun o : Operand δ K => o.arrangeAs (allDims ops) [])
      = .ok (ops.map (fun o => arrayAs (allDims ops) (o, []))) ∧
    IsBroadcast (ops.map (fun o => (arrayAs (allDims ops) (o, [])).shape)) ((allDims ops).map size) := by
  have key : ∀ o ∈ ops, o.arrangeAs (allDims ops) [] = .ok (arrayAs (allDims ops) (o, [])) := by
    intro o ho
    obtain ⟨a, e, -⟩ := fills_array hf ho
    unfold arrayAs
    simp only [e]
  have hfit : ∀ o ∈ ops, FitsInto (arrayAs (allDims ops) (o, [])).shape ((allDims ops).map size) := by
    intro o ho
    obtain ⟨a, e, -, h, -⟩ := fills_array hf ho
    rw [key o ho] at e
    rwa [Except.ok.inj e]
  refine ⟨?_, ⟨fun s hs => ?_, fun s hs p hp => ?_, fun q hq => ?_⟩⟩
  · exact Nd.mapM_ok_of_forall _ _ ops key
  · obtain ⟨o, ho, rfl⟩ := List.mem_map.1 hs
    exact (hfit o ho).1
  · obtain ⟨o, ho, rfl⟩ := List.mem_map.1 hs
    exact (hfit o ho).2 p hp
  · rw [List.length_map] at hq
    have hd := List.getElem?_eq_getElem hq
    obtain ⟨o, ho, hdo⟩ := mem_allDims.1 (List.getElem_mem hq)
    obtain ⟨a, e, -, -, h, -⟩ := fills_array hf ho
    rw [key o ho] at e
    obtain ⟨h1, h2⟩ := h q hq _ hd hdo
    refine ⟨_, List.mem_map.2 ⟨o, ho, rfl⟩, ?_⟩
    rw [Except.ok.inj e, List.length_map]
    refine ⟨h1, h2.trans ?_⟩
    rw [List.getD_eq_getElem _ _ (by rw [List.length_map]; exact hq), List.getElem_map]

theorem isBroadcast_perm {s t : List (List ℕ)} {full : List ℕ} (h : IsBroadcast s full)
    (e : ∀ a, a ∈ s ↔ a ∈ t) : IsBroadcast t full := by
  refine ⟨fun a ha => h.rank a ((e a).2 ha), fun a ha => h.fits a ((e a).2 ha), fun q hq => ?_⟩
  obtain ⟨a, ha, h'⟩ := h.attained q hq
  exact ⟨a, (e a).1 ha, h'⟩

theorem map_getD_idxOf {dims : List δ} (hd : dims.Nodup) {shape : List ℕ}
    (hl : shape.length = dims.length) : dims.map (fun d => shape.getD (dims.idxOf d) 0) = shape := by
  refine List.ext_getElem (by rw [List.length_map, hl]) fun k h1 h2 => ?_
  rw [List.getElem_map, hd.idxOf_getElem, List.getD_eq_getElem _ _ h2]

/-- The array that is put together from the arranged operands gets the dimensions of the operands and the
moment dimensions. -/
theorem valsToDataX_ok {mom0 mom1 : δ} {mom : IntArg} {m : List ℤ} (hm : validateMom mom = .ok m)
    {mp : Input (PX δ) (DimsArg δ)} {dims : Option (DimsArg δ)} {p : PX δ}
    (hp : factoryX mom0 mom1 mp (some m.length) dims none none none = .ok p) (hpn : p.dims.Nodup)
    {x : DataArray δ K} {weight : Option (Operand δ K)} {ys : List (Operand δ K)}
    (hy : ys.length = m.length - 1)
    (hf : ∀ o ∈ .named x :: weightArgX weight :: ys,
      Fills (allDims (.named x :: weightArgX weight :: ys)) size p.dims o)
    {out : Nd.Arr K} {ms : List ℕ} (hms : ms.length = p.dims.length)
    (hs : out.shape = (allDims (.named x :: weightArgX weight :: ys)).map size ++ ms)
    (he : ObjectMake.valsToData mom
      (arrayAs (allDims (.named x :: weightArgX weight :: ys)) (.named x, []))
      (some (arrayAs (allDims (.named x :: weightArgX weight :: ys)) (weightArgX weight, [])))
      (ys.map (fun o => arrayAs (allDims (.named x :: weightArgX weight :: ys)) (o, []))) = .ok out) :
    valsToDataX mom0 mom1 mom mp dims x weight ys
      = .ok (.ofNd (allDims (.named x :: weightArgX weight :: ys) ++ p.dims) out) ∧
    (allDims (.named x :: weightArgX weight :: ys) ++ p.dims).Nodup ∧
    (∀ d ∈ allDims (.named x :: weightArgX weight :: ys),
      (DataArray.ofNd (allDims (.named x :: weightArgX weight :: ys) ++ p.dims) out).size d = size d) ∧
    p.dims.map (DataArray.ofNd (allDims (.named x :: weightArgX weight :: ys) ++ p.dims) out).size = ms := by
  generalize hops : Operand.named x :: weightArgX weight :: ys = ops at *
  have hnd : (allDims ops ++ p.dims).Nodup := by
    refine List.nodup_append.2 ⟨inOrder_nodup _, hpn, ?_⟩
    rintro a ha b hb rfl
    obtain ⟨o, ho, hd⟩ := mem_allDims.1 ha
    cases o with
    | named y => exact ((hf _ ho).2 a hd).2 hb
    | plain w => cases hd
  have hlen : out.shape.length = (allDims ops ++ p.dims).length := by
    rw [hs, List.length_append, List.length_append, List.length_map, hms]
  have hsz : ∀ d ∈ allDims ops, out.shape.getD ((allDims ops ++ p.dims).idxOf d) 0 = size d := by
    intro d hd
    have hi := List.idxOf_lt_length_iff.2 hd
    rw [List.idxOf_append_of_mem hd, hs, List.getD_append _ _ _ _ (by rwa [List.length_map]),
      List.getD_eq_getElem _ _ (by rwa [List.length_map]), List.getElem_map, List.getElem_idxOf]
  refine ⟨?_, hnd, hsz, ?_⟩
  · unfold valsToDataX
    rw [hm]
    simp only [Except.bind]
    rw [hp]
    simp only []
    rw [if_neg (not_not.2 hy), hops, fills_loop hf]
    simp only []
    rw [(fills_common hf).1]
    rw [← hops] at he ⊢
    simp only [List.map_cons]
    rw [he]
    refine wrapResult_ok (size := fun d => out.shape.getD ((allDims ops ++ p.dims).idxOf d) 0) ?_ ?_ ?_
    · rw [hops]; exact hnd
    · rw [hops]; exact (map_getD_idxOf hnd hlen.symm.symm).symm
    · intro f hfm d _ hdf _
      rw [hops] at hfm
      obtain ⟨y, hy', rfl⟩ := frames_named hfm
      rw [hsz d (allDims_named hy' hdf)]
      exact ((hf _ hy').2 d hdf).1.symm
  · have h2 := (map_getD_idxOf hnd hlen).trans hs
    rw [List.map_append] at h2
    exact List.append_inj_right h2 (by simp)

end Data

end Cmomy
