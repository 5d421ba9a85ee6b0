import Verif.Lemmas.LabelledPush
import Verif.Lemmas.PushHistory

/-!
# Histories of pushes onto a labelled object
-/

namespace Cmomy.Labelled

open Axes Spec Lawful

section Pushed

variable {δ K V M : Type} [DecidableEq δ] [Field K] [DecidableEq K]

set_option linter.unusedSectionVars false

/-- `P` are the scaled records a call pushes. -/
def PushedX (val : List K → V) (core : Nd.Core K M) (k : Kernel K V M) (moms : List δ)
    (obj : DataArray δ (Option K)) : PushX δ K → ((δ → ℕ) → List (K × M)) → Prop
  | .val x w ys, P => P = fun c => [(1, k.ofVal
      (val ((x :: ys).map (numberFrom (valDims obj moms) c))) (numberFrom (valDims obj moms) c w))]
  | .vals x w ys axis dim, P => ∃ dm, Chosen x.dims [] axis dim dm ∧ P = fun c =>
      (samplesNamed val (valDims obj moms) dm (nameFromEnd x dm) (x.size dm) (.named x) w ys c).map
        (fun p => (1, k.ofVal p.1 p.2))
  | .valsPlain x w ys z, P => P = fun c =>
      (valsSamples val x w.asArray (ys.map Operand.asArray) z (valDims obj moms).length
        (coordsAlong (valDims obj moms) c)).map (fun p => (1, k.ofVal p.1 p.2))
  | .data d none, P => P = fun c => [(1, recordFrom core moms (valDims obj moms) c d)]
  | .data d (some s), P => P = fun c => [(numberAt s (valDims obj moms).length
      (coordsAlong (valDims obj moms) c), recordFrom core moms (valDims obj moms) c d)]
  | .datas d axis dim, P => ∃ dm, Chosen d.dims moms axis dim dm ∧ P = fun c =>
      (recordsAlong core d moms dm c).map (fun r => (1, r))
  | .datasPlain d z mom, P => P = fun c => ((List.range (sampleCount d z)).map
      (datasRecord core d z mom (valDims obj moms).length
        (coordsAlong (valDims obj moms) c))).map (fun r => (1, r))

theorem runPushX_updated {ι : Type*} {val : List K → V} {core : Nd.Core K M} (hc : core.Ok)
    {fam : List ℕ → Kernel K V M} {moms : List δ} {obj : DataArray δ (Option K)}
    (g : LabelledObject obj moms core.nd) (law : Lawful (fam (moms.map obj.size)) ι)
    {cmd : PushX δ K} (hg : GoodPushX core moms obj cmd) :
    ∃ obj' P, runPushX val core fam moms obj cmd = .ok obj' ∧
      PushedX val core (fam (moms.map obj.size)) moms obj cmd P ∧
      UpdatedNamed core moms obj obj' (fun c => foldScale (fam (moms.map obj.size)) (P c)) := by
  cases cmd with
  | val x w ys =>
    obtain ⟨o, e1, e2⟩ := pushValX_updated val hc fam g hg.1 hg.2
    exact ⟨o, _, e1, rfl, e2.congr fun c _ r => by
      rw [law.pushVal_eq]; exact (Nd.foldScale_one _ _ _ _).symm⟩
  | vals x w ys axis dim =>
    obtain ⟨hy, dm, h1, h2⟩ := hg
    obtain ⟨o, e1, e2⟩ := pushValsX_updated val hc fam g hy h1 h2
    exact ⟨o, _, e1, ⟨dm, h1, rfl⟩, e2.congr fun c _ r => by rw [law.reduceVals_eq]⟩
  | valsPlain x w ys z =>
    obtain ⟨o, e1, e2⟩ := pushValsPlainX_updated val hc fam g hg.1 hg.2
    exact ⟨o, _, e1, rfl, e2.congr fun c _ r => by rw [law.reduceVals_eq]⟩
  | data d scale =>
    cases scale with
    | none =>
      obtain ⟨o, e1, e2⟩ := pushDataX_updated hc fam g hg
      exact ⟨o, _, e1, rfl, e2.congr fun c _ r => by
        rw [law.data_eq]; exact (Nd.foldScale_one _ _ _ _).symm⟩
    | some s =>
      obtain ⟨o, e1, e2⟩ := pushDataX_scale_updated hc fam g hg.1 hg.2
      exact ⟨o, _, e1, rfl, e2.congr fun c _ r => (Nd.foldScale_one _ _ _ _).symm⟩
  | datas d axis dim =>
    obtain ⟨dm, h1, h2⟩ := hg
    obtain ⟨o, e1, e2⟩ := pushDatasX_updated hc fam g h1 h2
    exact ⟨o, _, e1, ⟨dm, h1, rfl⟩, e2.congr fun c _ r => by rw [law.reduceData_eq]⟩
  | datasPlain d z mom =>
    obtain ⟨o, e1, e2⟩ := pushDatasPlainX_updated hc fam g hg.1 hg.2.1 hg.2.2
    exact ⟨o, _, e1, rfl, e2.congr fun c _ r => by rw [law.reduceData_eq]⟩

/-- Two objects with the same dimensions, up to the place of the moment dimensions. -/
structure SameDims (moms : List δ) (obj obj' : DataArray δ (Option K)) : Prop where
  vals : valDims obj' moms = valDims obj moms
  perm : obj'.dims.Perm obj.dims
  size : ∀ d ∈ obj.dims, obj'.size d = obj.size d

theorem SameDims.refl (moms : List δ) (obj : DataArray δ (Option K)) : SameDims moms obj obj :=
  ⟨rfl, .refl _, fun _ _ => rfl⟩

theorem SameDims.trans {moms : List δ} {a b c : DataArray δ (Option K)} (h : SameDims moms a b)
    (h' : SameDims moms b c) : SameDims moms a c :=
  ⟨h'.vals.trans h.vals, h'.perm.trans h.perm, fun d hd =>
    (h'.size d (h.perm.mem_iff.2 hd)).trans (h.size d hd)⟩

theorem _root_.Cmomy.Spec.UpdatedNamed.same {core : Nd.Core K M} {moms : List δ}
    {obj obj' : DataArray δ (Option K)} {f : (δ → ℕ) → M → Option M}
    (g : LabelledObject obj moms core.nd) (h : UpdatedNamed core moms obj obj' f) :
    SameDims moms obj obj' := by
  refine ⟨?_, ?_, h.size⟩
  · unfold valDims
    rw [h.dims, List.filter_append]
    unfold valDims
    rw [List.filter_filter]
    simp only [Bool.and_self]
    rw [List.filter_eq_nil_iff (l := moms).2 (by simp), List.append_nil]
  · rw [h.dims]
    exact valDims_perm g

variable {core : Nd.Core K M} {moms : List δ} {obj obj' : DataArray δ (Option K)}

theorem SameDims.object (h : SameDims moms obj obj') (g : LabelledObject obj moms core.nd) :
    LabelledObject obj' moms core.nd :=
  ⟨h.perm.nodup_iff.2 g.distinct, g.momDistinct, fun d hd => h.perm.mem_iff.2 (g.momPresent d hd),
    g.momCount⟩

theorem SameDims.valSizes (h : SameDims moms obj obj') :
    (valDims obj moms).map obj'.size = (valDims obj moms).map obj.size :=
  List.map_congr_left fun d hd => h.size d (mem_valDims.1 hd).1

theorem SameDims.momSizes (h : SameDims moms obj obj') (g : LabelledObject obj moms core.nd) :
    moms.map obj'.size = moms.map obj.size :=
  List.map_congr_left fun d hd => h.size d (g.momPresent d hd)

theorem SameDims.within (h : SameDims moms obj obj') (c : δ → ℕ) :
    InLabelled obj' moms c ↔ InLabelled obj moms c := by
  unfold InLabelled
  rw [h.vals]
  refine forall₂_congr fun d hd => ?_
  rw [h.size d (mem_valDims.1 hd).1]

theorem SameDims.number (h : SameDims moms obj obj') {o : Operand δ K}
    (ho : GoodNumber (valDims obj moms) obj.size o) :
    GoodNumber (valDims obj' moms) obj'.size o := by
  rw [h.vals]
  cases o with
  | named y => exact ⟨ho.1, fun d hd => ⟨(ho.2 d hd).1,
      (ho.2 d hd).2.trans (h.size d (mem_valDims.1 (ho.2 d hd).1).1).symm⟩⟩
  | plain a =>
    show FitsInto _ _
    rw [h.valSizes]
    exact ho

theorem SameDims.record (h : SameDims moms obj obj') (g : LabelledObject obj moms core.nd)
    {o : Operand δ K} (ho : GoodRecord core moms (valDims obj moms) obj.size o) :
    GoodRecord core moms (valDims obj' moms) obj'.size o := by
  rw [h.vals]
  cases o with
  | named y => exact ⟨ho.1, ho.2.1, fun d hd => ⟨(ho.2.2 d hd).1,
      (ho.2.2 d hd).2.trans (h.size d ((valDims_perm g).mem_iff.1 (ho.2.2 d hd).1)).symm⟩⟩
  | plain a =>
    refine ⟨ho.1, ?_, ?_⟩
    · rw [h.momSizes g]; exact ho.2.1
    · rw [h.valSizes]; exact ho.2.2

theorem SameDims.goodVals (h : SameDims moms obj obj') {x : DataArray δ K}
    {others : List (Operand δ K)} {dm : δ} (hg : GoodVals obj moms x others dm) :
    GoodVals obj' moms x others dm := by
  refine ⟨fun hd => hg.fresh (h.perm.mem_iff.1 hd), by rw [h.vals]; exact hg.within,
    fun o ho => ?_⟩
  have hgo := hg.good o ho
  have hwi := hg.within o ho
  have hup : ∀ e, e = dm ∨ e ∈ valDims obj moms → Function.update obj'.size dm (x.size dm) e
      = Function.update obj.size dm (x.size dm) e := by
    intro e he
    by_cases hed : e = dm
    · rw [hed, Function.update_self, Function.update_self]
    · rw [Function.update_of_ne hed, Function.update_of_ne hed,
        h.size e (mem_valDims.1 (he.resolve_left hed)).1]
  rw [h.vals]
  cases o with
  | named y =>
    refine ⟨hgo.1, hgo.2.1, fun d hd => ?_⟩
    rw [hup d (hwi d hd)]
    exact hgo.2.2 d hd
  | plain a =>
    refine ⟨?_, fun h2 => ⟨(hgo.2 h2).1, fun p hp d hd => ?_⟩⟩
    · rw [hup dm (.inl rfl)]
      exact hgo.1
    · rw [hup d]
      · exact (hgo.2 h2).2 p hp d hd
      · have := List.mem_of_getElem? hd
        unfold assumedDims at this
        simp only [List.mem_append, List.mem_cons] at this
        rcases this with h | h | h
        · exact .inr (List.mem_of_mem_take h)
        · exact .inl h
        · exact .inr (List.mem_of_mem_drop h)

theorem SameDims.good (h : SameDims moms obj obj') (g : LabelledObject obj moms core.nd)
    {cmd : PushX δ K} (hg : GoodPushX core moms obj cmd) : GoodPushX core moms obj' cmd := by
  cases cmd with
  | val x w ys => exact ⟨hg.1, fun o ho => h.number (hg.2 o ho)⟩
  | vals x w ys axis dim =>
    obtain ⟨hy, dm, h1, h2⟩ := hg
    exact ⟨hy, dm, h1, h.goodVals h2⟩
  | valsPlain x w ys z =>
    refine ⟨hg.1, ?_⟩
    rw [h.vals, h.valSizes]
    exact hg.2
  | data d scale =>
    cases scale with
    | none => exact h.record g hg
    | some s =>
      refine ⟨h.record g hg.1, ?_⟩
      rw [h.vals, h.valSizes]
      exact hg.2
  | datas d axis dim =>
    obtain ⟨dm, h1, h2⟩ := hg
    refine ⟨dm, h1, fun hd => h2.fresh (h.perm.mem_iff.1 hd), h2.distinct, h2.present,
      h2.momPresent, fun e he => (h2.within e he).imp id fun hh => ⟨by rw [h.vals]; exact hh.1, ?_⟩⟩
    rw [h.size e ((valDims_perm g).mem_iff.1 hh.1)]
    exact hh.2
  | datasPlain d z mom =>
    refine ⟨hg.1, ?_, ?_⟩
    · rw [h.momSizes g]; exact hg.2.1
    · rw [h.vals, h.valSizes]; exact hg.2.2

theorem SameDims.contributes {S : Type} {H : List S → M → Prop} {smp : V → K → S} {scl : K → S → S}
    {val : List K → V} (h : SameDims moms obj obj') {cmd : PushX δ K} {T : (δ → ℕ) → List S}
    (hT : ContributesX H smp scl val core moms obj cmd T) :
    ContributesX H smp scl val core moms obj' cmd T := by
  cases cmd with
  | val x w ys =>
    intro c hc
    rw [h.vals]
    exact hT c ((h.within c).1 hc)
  | vals x w ys axis dim =>
    intro dm h1 c hc
    rw [h.vals]
    exact hT dm h1 c ((h.within c).1 hc)
  | valsPlain x w ys z =>
    intro c hc
    rw [h.vals]
    exact hT c ((h.within c).1 hc)
  | data d scale =>
    cases scale with
    | none =>
      intro c hc
      rw [h.vals]
      exact hT c ((h.within c).1 hc)
    | some s =>
      obtain ⟨U, hU⟩ := hT
      refine ⟨U, fun c hc => ?_⟩
      rw [h.vals]
      exact hU c ((h.within c).1 hc)
  | datas d axis dim =>
    intro dm h1
    obtain ⟨U, hU⟩ := hT dm h1
    exact ⟨U, fun c hc => hU c ((h.within c).1 hc)⟩
  | datasPlain d z mom =>
    obtain ⟨U, hU⟩ := hT
    refine ⟨U, fun c hc => ?_⟩
    rw [h.vals]
    exact hU c ((h.within c).1 hc)

theorem _root_.Cmomy.Spec.UpdatedNamed.whole {f : (δ → ℕ) → M → Option M}
    (g : LabelledObject obj moms core.nd) (h : UpdatedNamed core moms obj obj' f) :
    WholeNamed core obj' moms := by
  intro c hc
  have hc' := ((h.same g).within c).1 hc
  rw [h.entry c hc', h.cell c hc']

theorem runPushesX_whole {ι : Type*} {val : List K → V} (hc : core.Ok)
    {fam : List ℕ → Kernel K V M} (g : LabelledObject obj moms core.nd)
    (law : Lawful (fam (moms.map obj.size)) ι) {cmds : List (PushX δ K)}
    (hg : ∀ cmd ∈ cmds, GoodPushX core moms obj cmd) (hw : WholeNamed core obj moms)
    (h : runPushesX val core fam moms cmds obj = .ok obj') : WholeNamed core obj' moms := by
  induction cmds generalizing obj with
  | nil =>
    obtain rfl := Except.ok.inj h
    exact hw
  | cons cmd cmds ih =>
    obtain ⟨o, P, e1, -, e3⟩ := runPushX_updated (val := val) hc g law (hg cmd (by simp))
    have hs := e3.same g
    have h' : (runPushX val core fam moms obj cmd).bind (runPushesX val core fam moms cmds)
      = .ok obj' := h
    rw [e1] at h'
    exact ih (hs.object g) (by rw [hs.momSizes g]; exact law)
      (fun cmd' h' => hs.good g (hg cmd' (by simp [h']))) (e3.whole g) h'

end Pushed

section Means

variable {δ K V M S : Type} {ι : Type*} [DecidableEq δ] [Field K] [DecidableEq K]
variable {k : Kernel K V M} {law : Lawful k ι} {H : List S → M → Prop} {smp : V → K → S}
  {scl : K → S → S} {one : S → ι → K}

/-- What is pushed is what is contributed. -/
theorem pushedX_total (mn : Nd.Meaning law H smp scl one) {val : List K → V} {core : Nd.Core K M}
    {moms : List δ} {obj : DataArray δ (Option K)} {cmd : PushX δ K} {T : (δ → ℕ) → List S}
    {P : (δ → ℕ) → List (K × M)} (hP : PushedX val core k moms obj cmd P)
    (hT : ContributesX H smp scl val core moms obj cmd T) {c : δ → ℕ} (hc : InLabelled obj moms c) :
    law.rtot (P c) = ((T c).map one).sum := by
  cases cmd with
  | val x w ys =>
    obtain rfl := hP
    rw [hT c hc]
    simp [Lawful.rtot, mn.one_smp, law.raw_ofVal]
  | vals x w ys axis dim =>
    obtain ⟨dm, h1, rfl⟩ := hP
    rw [hT dm h1 c hc]
    simp only [Lawful.rtot, List.map_map]
    congr 1
    refine List.map_congr_left fun p _ => ?_
    simp [mn.one_smp, law.raw_ofVal]
  | valsPlain x w ys z =>
    obtain rfl := hP
    rw [hT c hc]
    simp only [Lawful.rtot, List.map_map]
    congr 1
    refine List.map_congr_left fun p _ => ?_
    simp [mn.one_smp, law.raw_ofVal]
  | data d scale =>
    cases scale with
    | none =>
      obtain rfl := hP
      have := (mn.iff _ _).1 (hT c hc)
      simp [Lawful.rtot, this]
    | some s =>
      obtain rfl := hP
      obtain ⟨U, hU⟩ := hT
      obtain ⟨e1, e2⟩ := hU c hc
      have := (mn.iff _ _).1 e1
      rw [e2, List.map_map]
      simp only [Lawful.rtot, List.map_cons, List.map_nil, List.sum_cons, List.sum_nil,
        add_zero, this]
      rw [← Nd.smul_sum_map]
      congr 1
      refine List.map_congr_left fun s _ => ?_
      simp [mn.one_scl]
  | datas d axis dim =>
    obtain ⟨dm, h1, rfl⟩ := hP
    obtain ⟨U, hU⟩ := hT dm h1
    obtain ⟨e1, e2⟩ := hU c hc
    rw [e2, Nd.sum_flatMap_map]
    simp only [recordsAlong, Lawful.rtot, List.map_map]
    congr 1
    refine List.map_congr_left fun s hs => ?_
    have := (mn.iff _ _).1 (e1 s (List.mem_range.1 hs))
    simp [this]
  | datasPlain d z mom =>
    obtain rfl := hP
    obtain ⟨U, hU⟩ := hT
    obtain ⟨e1, e2⟩ := hU c hc
    rw [e2, Nd.sum_flatMap_map]
    simp only [Lawful.rtot, List.map_map]
    congr 1
    refine List.map_congr_left fun s hs => ?_
    have := (mn.iff _ _).1 (e1 s (List.mem_range.1 hs))
    simp [this]

/-- A history, seen through the meaning of its records. -/
theorem historyX (mn : Nd.Meaning law H smp scl one) {val : List K → V} {core : Nd.Core K M}
    (hc : core.Ok) {fam : List ℕ → Kernel K V M} {moms : List δ} {cmds : List (PushX δ K)}
    {obj : DataArray δ (Option K)} (g : LabelledObject obj moms core.nd)
    (hk : fam (moms.map obj.size) = k) (hg : ∀ cmd ∈ cmds, GoodPushX core moms obj cmd)
    {Ts : List ((δ → ℕ) → List S)}
    (hT : List.Forall₂ (ContributesX H smp scl val core moms obj) cmds Ts)
    (S0 : (δ → ℕ) → List S)
    (h0 : ∀ c, InLabelled obj moms c → ∀ m, cellNamed core obj moms c = some m → H (S0 c) m) :
    ∃ obj', runPushesX val core fam moms cmds obj = .ok obj' ∧ SameDims moms obj obj' ∧
      ∀ c, InLabelled obj moms c → ∀ m, cellNamed core obj' moms c = some m →
        H (S0 c ++ Ts.flatMap (fun T => T c)) m := by
  induction cmds generalizing obj S0 Ts with
  | nil =>
    cases hT
    exact ⟨obj, rfl, .refl _ _, fun c hcc m hm => by simpa using h0 c hcc m hm⟩
  | cons cmd cmds ih =>
    obtain _ | @⟨_, T, _, Ts, hcT, hTs⟩ := hT
    subst hk
    obtain ⟨o, P, e1, e2, e3⟩ := runPushX_updated (val := val) hc g law (hg cmd (by simp))
    have hs := e3.same g
    obtain ⟨obj', f1, f2, f3⟩ := ih (hs.object g) (by rw [hs.momSizes g])
      (fun cmd' h' => hs.good g (hg cmd' (by simp [h'])))
      (hTs.imp fun _ _ h => hs.contributes h) (fun c => S0 c ++ T c) (by
        intro c hcc m hm
        have hcc' := (hs.within c).1 hcc
        rw [e3.cell c hcc'] at hm
        obtain ⟨m0, g1, g2⟩ := Option.bind_eq_some_iff.1 hm
        rw [mn.iff, law.foldScale_raw g2, (mn.iff _ _).1 (h0 c hcc' m0 g1),
          pushedX_total mn e2 hcT hcc', List.map_append, List.sum_append])
    refine ⟨obj', ?_, hs.trans f2, fun c hcc m hm => ?_⟩
    · show (runPushX val core fam moms obj cmd).bind _ = _
      rw [e1]
      exact f1
    · have := f3 c ((hs.within c).2 hcc) m hm
      rw [List.flatMap_cons]
      rwa [List.append_assoc] at this

end Means

section Ordered

variable {δ K V M S : Type} {ι : Type*} [DecidableEq δ] [Field K] [LinearOrder K]
  [IsStrictOrderedRing K]
variable {k : Kernel K V M} {law : Lawful k ι} {H : List S → M → Prop} {smp : V → K → S}
  {scl : K → S → S} {one : S → ι → K}

theorem pushedX_nonneg (mn : Nd.Meaning law H smp scl one) {val : List K → V} {core : Nd.Core K M}
    {moms : List δ} {obj : DataArray δ (Option K)} {cmd : PushX δ K} {T : (δ → ℕ) → List S}
    {P : (δ → ℕ) → List (K × M)} (hP : PushedX val core k moms obj cmd P)
    (hT : ContributesX H smp scl val core moms obj cmd T) {c : δ → ℕ} (hc : InLabelled obj moms c)
    (h0 : ∀ s ∈ T c, 0 ≤ one s law.i0) : ∀ p ∈ P c, 0 ≤ k.weight p.2 * p.1 := by
  have etot := pushedX_total mn hP hT hc
  cases cmd with
  | val x w ys =>
    obtain rfl := hP
    rw [hT c hc] at h0
    intro p hp
    obtain rfl := List.mem_singleton.1 hp
    have := h0 _ (List.mem_singleton.2 rfl)
    rw [mn.one_smp] at this
    simpa [law.weight_ofVal, Lawful.vraw, law.vnrm_i0] using this
  | vals x w ys axis dim =>
    obtain ⟨dm, h1, rfl⟩ := hP
    rw [hT dm h1 c hc] at h0
    intro p hp
    obtain ⟨q, hq, rfl⟩ := List.mem_map.1 hp
    have := h0 _ (List.mem_map.2 ⟨q, hq, rfl⟩)
    rw [mn.one_smp] at this
    simpa [law.weight_ofVal, Lawful.vraw, law.vnrm_i0] using this
  | valsPlain x w ys z =>
    obtain rfl := hP
    rw [hT c hc] at h0
    intro p hp
    obtain ⟨q, hq, rfl⟩ := List.mem_map.1 hp
    have := h0 _ (List.mem_map.2 ⟨q, hq, rfl⟩)
    rw [mn.one_smp] at this
    simpa [law.weight_ofVal, Lawful.vraw, law.vnrm_i0] using this
  | data d scale =>
    have hsum := Nd.sum_nonneg_at (law := law) h0
    rw [← etot] at hsum
    cases scale with
    | none =>
      obtain rfl := hP
      intro p hp
      obtain rfl := List.mem_singleton.1 hp
      simp only [Lawful.rtot, List.map_cons, List.map_nil, List.sum_cons, List.sum_nil,
        add_zero, Pi.smul_apply, law.raw_i0, smul_eq_mul] at hsum
      rwa [mul_comm] at hsum
    | some s =>
      obtain rfl := hP
      intro p hp
      obtain rfl := List.mem_singleton.1 hp
      simp only [Lawful.rtot, List.map_cons, List.map_nil, List.sum_cons, List.sum_nil,
        add_zero, Pi.smul_apply, law.raw_i0, smul_eq_mul] at hsum
      rwa [mul_comm] at hsum
  | datas d axis dim =>
    obtain ⟨dm, h1, rfl⟩ := hP
    obtain ⟨U, hU⟩ := hT dm h1
    obtain ⟨e1, e2⟩ := hU c hc
    intro p hp
    simp only [recordsAlong, List.map_map] at hp
    obtain ⟨s, hs, rfl⟩ := List.mem_map.1 hp
    have e := (mn.iff _ _).1 (e1 s (List.mem_range.1 hs))
    have := Nd.sum_nonneg_at (law := law) (one := one) (L := U s c) (fun t ht => h0 t (by
      rw [e2]; exact List.mem_flatMap.2 ⟨s, hs, ht⟩))
    rw [← e, law.raw_i0] at this
    simpa using this
  | datasPlain d z mom =>
    obtain rfl := hP
    obtain ⟨U, hU⟩ := hT
    obtain ⟨e1, e2⟩ := hU c hc
    intro p hp
    simp only [List.map_map] at hp
    obtain ⟨s, hs, rfl⟩ := List.mem_map.1 hp
    have e := (mn.iff _ _).1 (e1 s (List.mem_range.1 hs))
    have := Nd.sum_nonneg_at (law := law) (one := one) (L := U s c) (fun t ht => h0 t (by
      rw [e2]; exact List.mem_flatMap.2 ⟨s, hs, ht⟩))
    rw [← e, law.raw_i0] at this
    simpa using this

/-- Without negative weights, nothing goes missing. -/
theorem historyX_defined (mn : Nd.Meaning law H smp scl one) {val : List K → V}
    {core : Nd.Core K M} (hc : core.Ok) {fam : List ℕ → Kernel K V M} {moms : List δ}
    {cmds : List (PushX δ K)} {obj obj' : DataArray δ (Option K)}
    (g : LabelledObject obj moms core.nd) (hk : fam (moms.map obj.size) = k)
    (hg : ∀ cmd ∈ cmds, GoodPushX core moms obj cmd) {Ts : List ((δ → ℕ) → List S)}
    (hT : List.Forall₂ (ContributesX H smp scl val core moms obj) cmds Ts)
    (h : runPushesX val core fam moms cmds obj = .ok obj') (S0 : List S) {c : δ → ℕ}
    (hcc : InLabelled obj moms c) {m0 : M} (hm0 : cellNamed core obj moms c = some m0) (h0 : H S0 m0)
    (hS : ∀ s ∈ S0, 0 ≤ one s law.i0) (hTs : ∀ T ∈ Ts, ∀ s ∈ T c, 0 ≤ one s law.i0) :
    ∃ m, cellNamed core obj' moms c = some m ∧ H (S0 ++ Ts.flatMap (fun T => T c)) m := by
  induction cmds generalizing obj S0 Ts m0 with
  | nil =>
    cases hT
    obtain rfl := Except.ok.inj h
    exact ⟨m0, hm0, by simpa using h0⟩
  | cons cmd cmds ih =>
    obtain _ | @⟨_, T, _, Ts, hcT, hTs'⟩ := hT
    subst hk
    obtain ⟨o, P, e1, e2, e3⟩ := runPushX_updated (val := val) hc g law (hg cmd (by simp))
    have hs := e3.same g
    have h' : runPushesX val core fam moms cmds o = .ok obj' := by
      have : (runPushX val core fam moms obj cmd).bind (runPushesX val core fam moms cmds)
        = .ok obj' := h
      rw [e1] at this
      exact this
    have hw : 0 ≤ (fam (moms.map obj.size)).weight m0 := by
      rw [← law.raw_i0, (mn.iff _ _).1 h0]
      exact Nd.sum_nonneg_at hS
    obtain ⟨m, hm⟩ := law.foldScale_exists_of_nonneg hw
      (pushedX_nonneg mn e2 hcT hcc (hTs T (by simp)))
    have hm1 : cellNamed core o moms c = some m := by rw [e3.cell c hcc, hm0]; exact hm
    have := ih (hs.object g) (by rw [hs.momSizes g])
      (fun cmd' h' => hs.good g (hg cmd' (by simp [h'])))
      (hTs'.imp fun _ _ h => hs.contributes h) h' (S0 ++ T c) ((hs.within c).2 hcc) hm1
      (by
        rw [mn.iff, law.foldScale_raw hm, (mn.iff _ _).1 h0,
          pushedX_total mn e2 hcT hcc, List.map_append, List.sum_append])
      (by
        intro s hs'
        rcases List.mem_append.1 hs' with h | h
        · exact hS s h
        · exact hTs T (by simp) s h)
      (fun T' hT' => hTs T' (by simp [hT']))
    obtain ⟨m', f1, f2⟩ := this
    refine ⟨m', f1, ?_⟩
    rw [List.flatMap_cons]
    rwa [List.append_assoc] at f2

end Ordered

end Cmomy.Labelled
