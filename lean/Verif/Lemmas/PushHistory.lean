import Verif.Lemmas.PushNd
import Verif.Lemmas.Reduce

/-!
# Histories of pushes onto an array object
-/

namespace Cmomy.Nd

open Axes Spec Lawful

section Pushed

variable {K V M : Type*} [Field K] [DecidableEq K]

set_option linter.unusedSectionVars false

/-- The scaled records a call pushes at index `i`. -/
def pushed (val : List K → V) (core : Core K M) (k : Kernel K V M) (obj : Arr (Option K)) :
    PushCmd K → (ℕ → ℕ) → List (K × M)
  | .val x w ys, i => [(1, k.ofVal (val ((x :: ys).map (fun a => numberAt a (valRank core obj) i)))
        (numberAt w (valRank core obj) i))]
  | .vals x w ys z, i => (valsSamples val x w ys z (valRank core obj) i).map
      (fun p => (1, k.ofVal p.1 p.2))
  | .data d none, i => [(1, dataRecord core d (valRank core obj) i)]
  | .data d (some c), i => [(numberAt c (valRank core obj) i, dataRecord core d (valRank core obj) i)]
  | .datas d z mom, i => ((List.range (sampleCount d z)).map
      (datasRecord core d z mom (valRank core obj) i)).map (fun r => (1, r))

theorem _root_.Cmomy.Spec.Updated.congr {core : Core K M} {obj obj' : Arr (Option K)}
    {f g : (ℕ → ℕ) → M → Option M} (h : Updated core obj obj' f) (e : ∀ i r, f i r = g i r) :
    Updated core obj obj' g := by
  have : f = g := by funext i r; exact e i r
  rwa [← this]

theorem foldScale_one (k : Kernel K V M) (s : K) (d o : M) :
    foldScale k [(s, d)] o = k.pushScale d s o := by
  unfold foldScale
  simp

theorem runPush_updated {ι : Type*} {val : List K → V} {core : Core K M} (hc : core.Ok)
    (h1 : 1 ≤ core.nd) {fam : List ℕ → Kernel K V M} {obj obj' : Arr (Option K)}
    (hp : obj.Proper) (law : Lawful (fam (momShape core obj)) ι) {c : PushCmd K}
    (hcmd : ∀ a ∈ argArrays c, a.Proper) (h : runPush val core fam obj c = .ok obj') :
    Updated core obj obj' (fun i => foldScale (fam (momShape core obj))
      (pushed val core (fam (momShape core obj)) obj c i)) := by
  cases c with
  | val x w ys =>
    obtain ⟨e1, e2, e3⟩ := pushValNd_inv h1 h
    obtain ⟨o, f1, f2⟩ := pushValNd_ok val hc fam hp e1 e2 e3
    rw [show runPush val core fam obj (.val x w ys) = pushValNd val core fam obj x w ys from rfl,
      f1] at h
    obtain rfl := Except.ok.inj h
    exact f2.congr fun i r => by
      rw [law.pushVal_eq]; exact (foldScale_one _ _ _ _).symm
  | vals x w ys z =>
    obtain ⟨e1, e2, e3⟩ := pushValsNd_inv (hcmd x (by simp [argArrays]))
      (fun a ha => hcmd a (List.mem_cons_of_mem _ ha)) h
    obtain ⟨o, f1, f2⟩ := pushValsNd_ok val hc fam hp e1 e2 e3
    rw [show runPush val core fam obj (.vals x w ys z)
      = pushValsNd val core fam obj x w ys (.int z) from rfl, f1] at h
    obtain rfl := Except.ok.inj h
    exact f2.congr fun i r => by rw [law.reduceVals_eq]; rfl
  | data d scale =>
    obtain ⟨e1, e2, e3, e4, e5⟩ := pushDataNd_inv h
    cases scale with
    | none =>
      obtain ⟨o, f1, f2⟩ := pushDataNd_ok hc fam hp e1 e2 e3 e4
      rw [show runPush val core fam obj (.data d none) = pushDataNd core fam obj d none from rfl,
        f1] at h
      obtain rfl := Except.ok.inj h
      exact f2.congr fun i r => by
        rw [law.data_eq]; exact (foldScale_one _ _ _ _).symm
    | some c =>
      obtain ⟨o, f1, f2⟩ := pushDataNd_scale_ok hc fam hp e1 e2 e3 e4 (e5 c rfl)
      rw [show runPush val core fam obj (.data d (some c)) = pushDataNd core fam obj d (some c)
        from rfl, f1] at h
      obtain rfl := Except.ok.inj h
      exact f2.congr fun i r => (foldScale_one _ _ _ _).symm
  | datas d z mom =>
    obtain ⟨e1, e2, e3, e4⟩ := pushDatasNd_inv hc (hcmd d (by simp [argArrays])) h
    obtain ⟨o, f1, f2⟩ := pushDatasNd_ok hc fam hp e1 e2 e3 e4
    rw [show runPush val core fam obj (.datas d z mom)
      = pushDatasNd core fam obj d (.int z) mom from rfl, f1] at h
    obtain rfl := Except.ok.inj h
    exact f2.congr fun i r => by rw [law.reduceData_eq]; rfl

theorem valRank_congr {core : Core K M} {obj obj' : Arr (Option K)} (h : obj'.shape = obj.shape) :
    valRank core obj' = valRank core obj := by
  unfold valRank; rw [h]

theorem within_congr {core : Core K M} {obj obj' : Arr (Option K)} (h : obj'.shape = obj.shape)
    (i : ℕ → ℕ) : InObject core obj' i ↔ InObject core obj i := by
  unfold InObject axisSize; rw [h, valRank_congr h]

theorem pushed_congr (val : List K → V) {core : Core K M} (k : Kernel K V M)
    {obj obj' : Arr (Option K)} (h : obj'.shape = obj.shape) (c : PushCmd K) (i : ℕ → ℕ) :
    pushed val core k obj' c i = pushed val core k obj c i := by
  have := valRank_congr (core := core) h
  cases c with
  | val => simp only [pushed, this]
  | vals => simp only [pushed, this]
  | data d s => cases s <;> simp only [pushed, this]
  | datas => simp only [pushed, this]

/-- The whole history, cell by cell. -/
theorem runPushes_cells {ι : Type*} {val : List K → V} {core : Core K M} (hc : core.Ok)
    (h1 : 1 ≤ core.nd) {fam : List ℕ → Kernel K V M} {obj obj' : Arr (Option K)}
    (hp : obj.Proper) (law : Lawful (fam (momShape core obj)) ι) {cs : List (PushCmd K)}
    (hcmd : ∀ c ∈ cs, ∀ a ∈ argArrays c, a.Proper) (h : runPushes val core fam cs obj = .ok obj') :
    obj'.Proper ∧ obj'.shape = obj.shape ∧ ∀ i, InObject core obj i →
      cellAt core obj' i = (cellAt core obj i).bind (foldScale (fam (momShape core obj))
        (cs.flatMap (fun c => pushed val core (fam (momShape core obj)) obj c i))) := by
  induction cs generalizing obj with
  | nil =>
    obtain rfl := Except.ok.inj h
    refine ⟨hp, rfl, fun i _ => ?_⟩
    cases cellAt core obj i <;> rfl
  | cons c cs ih =>
    obtain ⟨o, e1, e2⟩ := Except_bind_ok h
    have U := runPush_updated hc h1 hp law (hcmd c (by simp)) e1
    have hm : momShape core o = momShape core obj := by
      unfold momShape valRank; rw [U.shape]
    obtain ⟨f1, f2, f3⟩ := ih U.proper (by rw [hm]; exact law)
      (fun c' hc' => hcmd c' (by simp [hc'])) e2
    refine ⟨f1, f2.trans U.shape, fun i hi => ?_⟩
    rw [f3 i ((within_congr U.shape i).2 hi), U.cell i hi, hm, List.flatMap_cons]
    simp only [pushed_congr val _ U.shape]
    cases cellAt core obj i with
    | none => rfl
    | some m =>
      simp only [Option.bind_some]
      rw [foldScale_append]

theorem _root_.Cmomy.Spec.Updated.whole {core : Core K M} {obj obj' : Arr (Option K)}
    {f : (ℕ → ℕ) → M → Option M} (h : Updated core obj obj' f) : Whole core obj' := by
  intro i hi
  have hi' := (within_congr h.shape i).1 hi
  rw [h.entry i hi', h.cell i hi', valRank_congr h.shape]

theorem runPushes_whole {ι : Type*} {val : List K → V} {core : Core K M} (hc : core.Ok)
    (h1 : 1 ≤ core.nd) {fam : List ℕ → Kernel K V M} {obj obj' : Arr (Option K)}
    (hp : obj.Proper) (law : Lawful (fam (momShape core obj)) ι) {cs : List (PushCmd K)}
    (hcmd : ∀ c ∈ cs, ∀ a ∈ argArrays c, a.Proper) (hw : Whole core obj)
    (h : runPushes val core fam cs obj = .ok obj') : Whole core obj' := by
  induction cs generalizing obj with
  | nil =>
    obtain rfl := Except.ok.inj h
    exact hw
  | cons c cs ih =>
    obtain ⟨o, e1, e2⟩ := Except_bind_ok h
    have U := runPush_updated hc h1 hp law (hcmd c (by simp)) e1
    have hm : momShape core o = momShape core obj := by
      unfold momShape valRank; rw [U.shape]
    exact ih U.proper (by rw [hm]; exact law)
      (fun c' hc' => hcmd c' (by simp [hc'])) U.whole e2

theorem cellAt_objOf {core : Core K M} (hc : core.Ok) {a : Arr K} (hp : a.Proper) (i : ℕ → ℕ) :
    cellAt core (objOf a) i = some (core.recd (fun ms => a.get (fun p =>
      if p < valRank core a then i p else ms.getD (p - valRank core a) 0))) := by
  unfold cellAt objOf
  simp

theorem objOf_whole {core : Core K M} (hc : core.Ok) {a : Arr K} (hp : a.Proper)
    (hn : core.nd ≤ a.shape.length) : Whole core (objOf a) := by
  intro i hi
  rw [cellAt_objOf hc hp, Option.map_some, hc.ent_recd _ _ (by simp [momCoords])]
  show some (a.get i) = _
  congr 1
  refine hp _ _ fun p hp' => ?_
  have hN : valRank core (objOf a) = a.shape.length - core.nd := rfl
  have hN' : valRank core a = a.shape.length - core.nd := rfl
  split_ifs with h
  · rfl
  · rw [List.getD_eq_getElem _ _ (by simp [momCoords]; omega)]
    simp only [momCoords, List.getElem_map, List.getElem_range]
    congr 1; omega

/-- Whether a call succeeds depends on the shape of the object alone. -/
theorem runPush_shape {val : List K → V} {core : Core K M} (hc : core.Ok)
    (h1 : 1 ≤ core.nd) {fam : List ℕ → Kernel K V M} {obj obj2 o : Arr (Option K)}
    (hp2 : obj2.Proper) (hs : obj2.shape = obj.shape) {c : PushCmd K}
    (hcmd : ∀ a ∈ argArrays c, a.Proper) (h : runPush val core fam obj c = .ok o) :
    ∃ o2, runPush val core fam obj2 c = .ok o2 := by
  have hv : valShape core obj2 = valShape core obj := by unfold valShape valRank; rw [hs]
  have hm : momShape core obj2 = momShape core obj := by unfold momShape valRank; rw [hs]
  cases c with
  | val x w ys =>
    obtain ⟨e1, e2, e3⟩ := pushValNd_inv h1 h
    obtain ⟨o, f1, f2⟩ := pushValNd_ok val hc fam hp2 (by rwa [hs]) e2 (by rwa [hv])
    exact ⟨o, f1⟩
  | vals x w ys z =>
    obtain ⟨e1, e2, e3⟩ := pushValsNd_inv (hcmd x (by simp [argArrays]))
      (fun a ha => hcmd a (List.mem_cons_of_mem _ ha)) h
    obtain ⟨o, f1, f2⟩ := pushValsNd_ok val hc fam hp2 (by rwa [hs]) e2 (by rwa [hv])
    exact ⟨o, f1⟩
  | data d scale =>
    obtain ⟨e1, e2, e3, e4, e5⟩ := pushDataNd_inv h
    cases scale with
    | none =>
      obtain ⟨o, f1, f2⟩ := pushDataNd_ok hc fam hp2 (by rwa [hs]) e2 (by rwa [hm]) (by rwa [hv])
      exact ⟨o, f1⟩
    | some c =>
      obtain ⟨o, f1, f2⟩ := pushDataNd_scale_ok hc fam hp2 (by rwa [hs]) e2 (by rwa [hm])
        (by rwa [hv]) (c := c) (by rw [hv]; exact e5 c rfl)
      exact ⟨o, f1⟩
  | datas d z mom =>
    obtain ⟨e1, e2, e3, e4⟩ := pushDatasNd_inv hc (hcmd d (by simp [argArrays])) h
    obtain ⟨o, f1, f2⟩ := pushDatasNd_ok hc fam hp2 (by rwa [hs]) e2 (by rwa [hm]) (by rwa [hv])
    exact ⟨o, f1⟩

theorem runPush_facts {val : List K → V} {core : Core K M} (hc : core.Ok)
    (h1 : 1 ≤ core.nd) {fam : List ℕ → Kernel K V M} {obj o : Arr (Option K)}
    (hp : obj.Proper) {c : PushCmd K} (hcmd : ∀ a ∈ argArrays c, a.Proper)
    (h : runPush val core fam obj c = .ok o) : o.Proper ∧ o.shape = obj.shape := by
  cases c with
  | val x w ys =>
    obtain ⟨e1, e2, e3⟩ := pushValNd_inv h1 h
    obtain ⟨o', f1, f2⟩ := pushValNd_ok val hc fam hp e1 e2 e3
    obtain rfl := Except.ok.inj (f1.symm.trans h)
    exact ⟨f2.proper, f2.shape⟩
  | vals x w ys z =>
    obtain ⟨e1, e2, e3⟩ := pushValsNd_inv (hcmd x (by simp [argArrays]))
      (fun a ha => hcmd a (List.mem_cons_of_mem _ ha)) h
    obtain ⟨o', f1, f2⟩ := pushValsNd_ok val hc fam hp e1 e2 e3
    obtain rfl := Except.ok.inj (f1.symm.trans h)
    exact ⟨f2.proper, f2.shape⟩
  | data d scale =>
    obtain ⟨e1, e2, e3, e4, e5⟩ := pushDataNd_inv h
    cases scale with
    | none =>
      obtain ⟨o', f1, f2⟩ := pushDataNd_ok hc fam hp e1 e2 e3 e4
      obtain rfl := Except.ok.inj (f1.symm.trans h)
      exact ⟨f2.proper, f2.shape⟩
    | some c =>
      obtain ⟨o', f1, f2⟩ := pushDataNd_scale_ok hc fam hp e1 e2 e3 e4 (e5 c rfl)
      obtain rfl := Except.ok.inj (f1.symm.trans h)
      exact ⟨f2.proper, f2.shape⟩
  | datas d z mom =>
    obtain ⟨e1, e2, e3, e4⟩ := pushDatasNd_inv hc (hcmd d (by simp [argArrays])) h
    obtain ⟨o', f1, f2⟩ := pushDatasNd_ok hc fam hp e1 e2 e3 e4
    obtain rfl := Except.ok.inj (f1.symm.trans h)
    exact ⟨f2.proper, f2.shape⟩

/-- A history goes through exactly when every call would by itself. -/
theorem runPushes_ok_iff {val : List K → V} {core : Core K M} (hc : core.Ok)
    (h1 : 1 ≤ core.nd) {fam : List ℕ → Kernel K V M} {obj : Arr (Option K)}
    (hp : obj.Proper) {cs : List (PushCmd K)} (hcmd : ∀ c ∈ cs, ∀ a ∈ argArrays c, a.Proper) :
    (∃ o, runPushes val core fam cs obj = .ok o) ↔
      ∀ c ∈ cs, ∃ o, runPush val core fam obj c = .ok o := by
  induction cs generalizing obj with
  | nil => exact ⟨fun _ => by simp, fun _ => ⟨obj, rfl⟩⟩
  | cons c cs ih =>
    constructor
    · rintro ⟨o, h⟩
      obtain ⟨o1, e1, e2⟩ := Except_bind_ok h
      obtain ⟨g1, g2⟩ := runPush_facts hc h1 hp (hcmd c (by simp)) e1
      have := (ih g1 (fun c' hc' => hcmd c' (by simp [hc']))).1 ⟨o, e2⟩
      intro c' hc'
      rcases List.mem_cons.1 hc' with rfl | hc'
      · exact ⟨o1, e1⟩
      · obtain ⟨o2, e⟩ := this c' hc'
        exact runPush_shape hc h1 hp g2.symm (hcmd c' (by simp [hc'])) e
    · intro h
      obtain ⟨o1, e1⟩ := h c (by simp)
      obtain ⟨g1, g2⟩ := runPush_facts hc h1 hp (hcmd c (by simp)) e1
      obtain ⟨o, e⟩ := (ih g1 (fun c' hc' => hcmd c' (by simp [hc']))).2 fun c' hc' => by
        obtain ⟨o2, e⟩ := h c' (by simp [hc'])
        exact runPush_shape hc h1 g1 g2 (hcmd c' (by simp [hc'])) e
      exact ⟨o, by
        show (runPush val core fam obj c).bind _ = _
        rw [e1]; exact e⟩

end Pushed

section Means

variable {K V M S ι : Type*} [Field K] [DecidableEq K]

set_option linter.unusedSectionVars false

/-- Records stand for lists of samples through additive raw sums. -/
structure Meaning {k : Kernel K V M} (law : Lawful k ι) (H : List S → M → Prop) (smp : V → K → S)
    (scl : K → S → S) (one : S → ι → K) : Prop where
  iff : ∀ L m, H L m ↔ law.raw m = (L.map one).sum
  one_smp : ∀ x w, one (smp x w) = w • law.vraw x
  one_scl : ∀ c s, one (scl c s) = c • one s

variable {k : Kernel K V M} {law : Lawful k ι} {H : List S → M → Prop} {smp : V → K → S}
  {scl : K → S → S} {one : S → ι → K}

theorem smul_sum_map (c : K) (L : List S) (one : S → ι → K) :
    (L.map (fun s => c • one s)).sum = c • (L.map one).sum := by
  induction L with
  | nil => simp
  | cons a L ih => simp [ih]

theorem sum_flatMap_map (l : List ℕ) (U : ℕ → List S) (one : S → ι → K) :
    ((l.flatMap U).map one).sum = (l.map (fun s => ((U s).map one).sum)).sum := by
  induction l with
  | nil => rfl
  | cons a l ih => simp [ih]

/-- What is pushed is what is contributed. -/
theorem Meaning.pushed (mn : Meaning law H smp scl one) {val : List K → V} {core : Core K M}
    {obj : Arr (Option K)} {c : PushCmd K} {T : (ℕ → ℕ) → List S}
    (hT : Contributes H smp scl val core obj c T) {i : ℕ → ℕ} (hi : InObject core obj i) :
    law.rtot (Nd.pushed val core k obj c i) = ((T i).map one).sum := by
  cases c with
  | val x w ys =>
    rw [hT i hi]
    simp [Nd.pushed, Lawful.rtot, mn.one_smp, law.raw_ofVal]
  | vals x w ys z =>
    rw [hT i hi]
    simp only [Nd.pushed, Lawful.rtot, List.map_map]
    congr 1
    refine List.map_congr_left fun p _ => ?_
    simp [mn.one_smp, law.raw_ofVal]
  | data d scale =>
    cases scale with
    | none =>
      have := (mn.iff _ _).1 (hT i hi)
      simp [Nd.pushed, Lawful.rtot, this]
    | some c =>
      obtain ⟨U, hU⟩ := hT
      obtain ⟨e1, e2⟩ := hU i hi
      have := (mn.iff _ _).1 e1
      rw [e2, List.map_map]
      simp only [Nd.pushed, Lawful.rtot, List.map_cons, List.map_nil, List.sum_cons, List.sum_nil,
        add_zero, this]
      rw [← smul_sum_map]
      congr 1
      refine List.map_congr_left fun s _ => ?_
      simp [mn.one_scl]
  | datas d z mom =>
    obtain ⟨U, hU⟩ := hT
    obtain ⟨e1, e2⟩ := hU i hi
    rw [e2, sum_flatMap_map]
    simp only [Nd.pushed, Lawful.rtot, List.map_map]
    congr 1
    refine List.map_congr_left fun s hs => ?_
    have := (mn.iff _ _).1 (e1 s (List.mem_range.1 hs))
    simp [this]

theorem rtot_flatMap {L : Type*} (cs : List L) (f : L → List (K × M)) :
    law.rtot (cs.flatMap f) = (cs.map (fun c => law.rtot (f c))).sum := by
  induction cs with
  | nil => rfl
  | cons c cs ih =>
    rw [List.flatMap_cons, List.map_cons, List.sum_cons, ← ih]
    simp [Lawful.rtot]

theorem Meaning.pushedAll (mn : Meaning law H smp scl one) {val : List K → V} {core : Core K M}
    {obj : Arr (Option K)} {cs : List (PushCmd K)} {Ts : List ((ℕ → ℕ) → List S)}
    (hT : List.Forall₂ (Contributes H smp scl val core obj) cs Ts) {i : ℕ → ℕ}
    (hi : InObject core obj i) :
    law.rtot (cs.flatMap (fun c => Nd.pushed val core k obj c i))
      = ((Ts.flatMap (fun T => T i)).map one).sum := by
  induction hT with
  | nil => rfl
  | cons hc _ ih =>
    rw [List.flatMap_cons, List.flatMap_cons, List.map_append, List.sum_append, ← ih,
      ← mn.pushed hc hi]
    simp [Lawful.rtot]

/-- A history, seen through the meaning of its records. -/
theorem Meaning.history (mn : Meaning law H smp scl one) {val : List K → V} {core : Core K M}
    (hc : core.Ok) (h1 : 1 ≤ core.nd) {fam : List ℕ → Kernel K V M} {obj obj' : Arr (Option K)}
    (hp : obj.Proper) (hk : fam (momShape core obj) = k) {cs : List (PushCmd K)}
    (hcmd : ∀ c ∈ cs, ∀ a ∈ argArrays c, a.Proper) {Ts : List ((ℕ → ℕ) → List S)}
    (hT : List.Forall₂ (Contributes H smp scl val core obj) cs Ts)
    (h : runPushes val core fam cs obj = .ok obj') (S0 : (ℕ → ℕ) → List S)
    (h0 : ∀ i, InObject core obj i → ∀ m, cellAt core obj i = some m → H (S0 i) m) :
    obj'.Proper ∧ obj'.shape = obj.shape ∧ ∀ i, InObject core obj i →
      ∀ m, cellAt core obj' i = some m → H (S0 i ++ Ts.flatMap (fun T => T i)) m := by
  subst hk
  obtain ⟨e1, e2, e3⟩ := runPushes_cells hc h1 hp law hcmd h
  refine ⟨e1, e2, fun i hi m hm => ?_⟩
  rw [e3 i hi] at hm
  obtain ⟨m0, f1, f2⟩ := Option.bind_eq_some_iff.1 hm
  rw [mn.iff, law.foldScale_raw f2, (mn.iff _ _).1 (h0 i hi m0 f1), mn.pushedAll hT hi,
    List.map_append, List.sum_append]

end Means

section Ordered

variable {K V M S ι : Type*} [Field K] [LinearOrder K] [IsStrictOrderedRing K]
variable {k : Kernel K V M} {law : Lawful k ι} {H : List S → M → Prop} {smp : V → K → S}
  {scl : K → S → S} {one : S → ι → K}

set_option linter.unusedSectionVars false

theorem sum_nonneg_at {L : List S} (hL : ∀ s ∈ L, 0 ≤ one s law.i0) :
    0 ≤ (L.map one).sum law.i0 := by
  induction L with
  | nil => simp
  | cons a L ih =>
    simp only [List.map_cons, List.sum_cons, Pi.add_apply]
    exact add_nonneg (hL a (by simp)) (ih fun s hs => hL s (by simp [hs]))

theorem Meaning.nonneg (mn : Meaning law H smp scl one) {val : List K → V} {core : Core K M}
    {obj : Arr (Option K)} {c : PushCmd K} {T : (ℕ → ℕ) → List S}
    (hT : Contributes H smp scl val core obj c T) {i : ℕ → ℕ} (hi : InObject core obj i)
    (h0 : ∀ s ∈ T i, 0 ≤ one s law.i0) :
    ∀ p ∈ Nd.pushed val core k obj c i, 0 ≤ k.weight p.2 * p.1 := by
  cases c with
  | val x w ys =>
    rw [hT i hi] at h0
    intro p hp
    obtain rfl := List.mem_singleton.1 hp
    have := h0 _ (List.mem_singleton.2 rfl)
    rw [mn.one_smp] at this
    simpa [law.weight_ofVal, Lawful.vraw, law.vnrm_i0] using this
  | vals x w ys z =>
    rw [hT i hi] at h0
    intro p hp
    obtain ⟨q, hq, rfl⟩ := List.mem_map.1 hp
    have := h0 _ (List.mem_map.2 ⟨q, hq, rfl⟩)
    rw [mn.one_smp] at this
    simpa [law.weight_ofVal, Lawful.vraw, law.vnrm_i0] using this
  | data d scale =>
    cases scale with
    | none =>
      intro p hp
      obtain rfl := List.mem_singleton.1 hp
      have e := (mn.iff _ _).1 (hT i hi)
      have := sum_nonneg_at (law := law) h0
      rw [← e, law.raw_i0] at this
      simpa using this
    | some c =>
      intro p hp
      have e := mn.pushed hT hi
      have := sum_nonneg_at (law := law) h0
      rw [← e] at this
      obtain rfl := List.mem_singleton.1 hp
      simp only [Nd.pushed, Lawful.rtot, List.map_cons, List.map_nil, List.sum_cons, List.sum_nil,
        add_zero, Pi.smul_apply, law.raw_i0, smul_eq_mul] at this
      rwa [mul_comm] at this
  | datas d z mom =>
    obtain ⟨U, hU⟩ := hT
    obtain ⟨e1, e2⟩ := hU i hi
    intro p hp
    simp only [Nd.pushed, List.map_map] at hp
    obtain ⟨s, hs, rfl⟩ := List.mem_map.1 hp
    have e := (mn.iff _ _).1 (e1 s (List.mem_range.1 hs))
    have := sum_nonneg_at (law := law) (one := one) (L := U s i) (fun t ht => h0 t (by
      rw [e2]; exact List.mem_flatMap.2 ⟨s, hs, ht⟩))
    rw [← e, law.raw_i0] at this
    simpa using this

theorem Meaning.nonnegAll (mn : Meaning law H smp scl one) {val : List K → V} {core : Core K M}
    {obj : Arr (Option K)} {cs : List (PushCmd K)} {Ts : List ((ℕ → ℕ) → List S)}
    (hT : List.Forall₂ (Contributes H smp scl val core obj) cs Ts) {i : ℕ → ℕ}
    (hi : InObject core obj i) (h0 : ∀ T ∈ Ts, ∀ s ∈ T i, 0 ≤ one s law.i0) :
    ∀ p ∈ cs.flatMap (fun c => Nd.pushed val core k obj c i), 0 ≤ k.weight p.2 * p.1 := by
  induction hT with
  | nil => simp
  | cons hc _ ih =>
    intro p hp
    rw [List.flatMap_cons] at hp
    rcases List.mem_append.1 hp with hp | hp
    · exact mn.nonneg hc hi (h0 _ (by simp)) p hp
    · exact ih (fun T hT => h0 T (by simp [hT])) p hp

theorem Meaning.history_defined (mn : Meaning law H smp scl one) {val : List K → V}
    {core : Core K M} (hc : core.Ok) (h1 : 1 ≤ core.nd) {fam : List ℕ → Kernel K V M}
    {obj obj' : Arr (Option K)} (hp : obj.Proper) (hk : fam (momShape core obj) = k)
    {cs : List (PushCmd K)} (hcmd : ∀ c ∈ cs, ∀ a ∈ argArrays c, a.Proper)
    {Ts : List ((ℕ → ℕ) → List S)}
    (hT : List.Forall₂ (Contributes H smp scl val core obj) cs Ts)
    (h : runPushes val core fam cs obj = .ok obj') (S0 : (ℕ → ℕ) → List S) {i : ℕ → ℕ}
    (hi : InObject core obj i) {m0 : M} (hm0 : cellAt core obj i = some m0) (h0 : H (S0 i) m0)
    (hS : ∀ s ∈ S0 i, 0 ≤ one s law.i0) (hTs : ∀ T ∈ Ts, ∀ s ∈ T i, 0 ≤ one s law.i0) :
    ∃ m, cellAt core obj' i = some m ∧ H (S0 i ++ Ts.flatMap (fun T => T i)) m := by
  subst hk
  obtain ⟨e1, e2, e3⟩ := runPushes_cells hc h1 hp law hcmd h
  have hw : 0 ≤ (fam (momShape core obj)).weight m0 := by
    rw [← law.raw_i0, (mn.iff _ _).1 h0]
    exact sum_nonneg_at hS
  obtain ⟨m, hm⟩ := law.foldScale_exists_of_nonneg hw (mn.nonnegAll hT hi hTs)
  have hm' : cellAt core obj' i = some m := by rw [e3 i hi, hm0]; exact hm
  refine ⟨m, hm', ?_⟩
  rw [mn.iff, law.foldScale_raw hm, (mn.iff _ _).1 h0, mn.pushedAll hT hi,
    List.map_append, List.sum_append]

theorem operandAt_get (a : Arr K) (n ax : ℕ) (i : ℕ → ℕ) (s : ℕ) :
    ∃ j, operandAt a n ax i s = a.get j := by
  unfold operandAt
  split_ifs
  · exact ⟨_, rfl⟩
  · exact ⟨_, rfl⟩
  · exact ⟨_, rfl⟩

theorem pushed_nonneg {val : List K → V} {core : Core K M} {obj : Arr (Option K)} {c : PushCmd K}
    (law : Lawful k ι) (h : NoNegative k.weight core obj c) (i : ℕ → ℕ) :
    ∀ p ∈ Nd.pushed val core k obj c i, 0 ≤ k.weight p.2 * p.1 := by
  intro p hp
  cases c with
  | val x w ys =>
    obtain rfl := List.mem_singleton.1 hp
    simp only [law.weight_ofVal, mul_one]
    exact h _
  | vals x w ys z =>
    obtain ⟨q, hq, rfl⟩ := List.mem_map.1 hp
    obtain ⟨s, _, rfl⟩ := List.mem_map.1 hq
    simp only [law.weight_ofVal, mul_one]
    obtain ⟨j, hj⟩ := operandAt_get w (valRank core obj + 1)
      (valRank core obj + 1 - fromEnd x z) (openIdx (valRank core obj + 1 - fromEnd x z) i) s
    rw [hj]
    exact h j
  | data d scale =>
    cases scale with
    | none =>
      obtain rfl := List.mem_singleton.1 hp
      simpa using h i
    | some c =>
      obtain rfl := List.mem_singleton.1 hp
      exact mul_nonneg (h.1 i) (h.2 _)
  | datas d z mom =>
    obtain ⟨r, hr, rfl⟩ := List.mem_map.1 hp
    obtain ⟨s, hs, rfl⟩ := List.mem_map.1 hr
    simpa using h i s (List.mem_range.1 hs)

theorem foldScale_perm_eqv (law : Lawful k ι) {l l' : List (K × M)} (hp : l.Perm l')
    (hl : ∀ p ∈ l, 0 ≤ k.weight p.2 * p.1) {o : M} (ho : 0 ≤ k.weight o) :
    ∃ r r', foldScale k l o = some r ∧ foldScale k l' o = some r' ∧ law.Eqv r r' := by
  have hl' : ∀ p ∈ l', 0 ≤ k.weight p.2 * p.1 := fun p h => hl p (hp.mem_iff.2 h)
  obtain ⟨r, e⟩ := law.foldScale_exists_of_nonneg ho hl
  obtain ⟨r', e'⟩ := law.foldScale_exists_of_nonneg ho hl'
  refine ⟨r, r', e, e', ?_⟩
  have hraw : law.raw r = law.raw r' := by
    rw [law.foldScale_raw e, law.foldScale_raw e']
    unfold rtot
    rw [(hp.map _).sum_eq]
  by_cases hw : k.weight r = 0
  · have h1 := law.foldScale_weight e
    rw [hw] at h1
    have hz : wtot k l = 0 := by
      have : 0 ≤ wtot k l := by
        unfold wtot
        exact List.sum_nonneg fun x hx => by
          obtain ⟨p, hp, rfl⟩ := List.mem_map.1 hx
          exact hl p hp
      linarith
    have hz' : ∀ p ∈ l, k.weight p.2 * p.1 = 0 := fun p hp' =>
      all_zero_of_sum_zero (l := l.map (fun p : K × M => k.weight p.2 * p.1)) (by
        intro x hx
        obtain ⟨p, hp, rfl⟩ := List.mem_map.1 hx
        exact hl p hp) hz _ (List.mem_map.2 ⟨p, hp', rfl⟩)
    rw [law.foldScale_of_all_zero hz'] at e
    rw [law.foldScale_of_all_zero (fun p h => hz' p (hp.mem_iff.2 h))] at e'
    cases e; cases e'
    exact Eqv.refl _
  · exact law.eqv_of_raw hw hraw

/-- Calls in another order. -/
theorem runPushes_perm (law : Lawful k ι) {val : List K → V} {core : Core K M} (hc : core.Ok)
    (h1 : 1 ≤ core.nd) {fam : List ℕ → Kernel K V M} {obj o : Arr (Option K)} (hp : obj.Proper)
    (hk : fam (momShape core obj) = k) {cs cs' : List (PushCmd K)} (hperm : cs.Perm cs')
    (hcmd : ∀ c ∈ cs, ∀ a ∈ argArrays c, a.Proper)
    (hn : ∀ c ∈ cs, NoNegative k.weight core obj c)
    (h0 : ∀ i, InObject core obj i → ∀ m, cellAt core obj i = some m → 0 ≤ k.weight m)
    (h : runPushes val core fam cs obj = .ok o) :
    ∃ o', runPushes val core fam cs' obj = .ok o' ∧ o'.shape = o.shape ∧
      ∀ i, InObject core obj i → (cellAt core o i = none ∧ cellAt core o' i = none) ∨
        ∃ r r', cellAt core o i = some r ∧ cellAt core o' i = some r' ∧ law.Eqv r r' := by
  subst hk
  have hcmd' : ∀ c ∈ cs', ∀ a ∈ argArrays c, a.Proper := fun c hc' => hcmd c (hperm.mem_iff.2 hc')
  obtain ⟨o', h'⟩ := (runPushes_ok_iff (val := val) (fam := fam) hc h1 hp hcmd').2 fun c hc' =>
    (runPushes_ok_iff hc h1 hp hcmd).1 ⟨o, h⟩ c (hperm.mem_iff.2 hc')
  obtain ⟨e1, e2, e3⟩ := runPushes_cells hc h1 hp law hcmd h
  obtain ⟨f1, f2, f3⟩ := runPushes_cells hc h1 hp law hcmd' h'
  refine ⟨o', h', f2.trans e2.symm, fun i hi => ?_⟩
  rw [e3 i hi, f3 i hi]
  cases hm : cellAt core obj i with
  | none => exact .inl ⟨rfl, rfl⟩
  | some m =>
    right
    simp only [Option.bind_some]
    refine foldScale_perm_eqv law (hperm.flatMap_right _) ?_ (h0 i hi m hm)
    intro p hp'
    obtain ⟨c, hc', hpc⟩ := List.mem_flatMap.1 hp'
    exact pushed_nonneg law (hn c hc') i p hpc

end Ordered

section

variable {K : Type*} [Field K] [DecidableEq K] [CharZero K]

theorem wsum_eq_sum (L : List (Sample K)) (f : K → K) :
    wsum L f = (L.map (fun s => s.w * f s.x)).sum := rfl

theorem list_sum_apply {J : Type*} (L : List (J → K)) (j : J) :
    L.sum j = (L.map (fun f => f j)).sum := by
  induction L with
  | nil => rfl
  | cons a L ih => simp [ih]

theorem meaning1 {order : ℕ} (ho : 1 ≤ order) :
    Meaning (lawful1 (K := K) order ho) (Holds order) sample1 scaled1
      (fun s n => s.w * s.x ^ (n : ℕ)) where
  iff L m := by
    rw [holds_iff_raw ho, funext_iff]
    refine forall_congr' fun n => ?_
    rw [list_sum_apply, List.map_map]
    rfl
  one_smp x w := by
    funext n
    simp [sample1, Lawful.vraw, lawful1]
  one_scl c s := by
    funext n
    simp [scaled1, mul_assoc]

theorem meaning2 {o0 o1 : ℕ} (h0 : 1 ≤ o0) (h1 : 1 ≤ o1) :
    Meaning (lawful2 (K := K) o0 o1 h0 h1) (Holds2 o0 o1) sample2 scaled2
      (fun s p => s.w * (s.x ^ (p.1 : ℕ) * s.y ^ (p.2 : ℕ))) where
  iff L m := by
    rw [holds2_iff_raw h0 h1, funext_iff]
    refine forall_congr' fun n => ?_
    rw [list_sum_apply, List.map_map]
    rfl
  one_smp x w := by
    funext n
    simp [sample2, Lawful.vraw, lawful2]
  one_scl c s := by
    funext n
    simp [scaled2, mul_assoc]

end

section

variable {K M : Type*} [Field K] [DecidableEq K]

theorem zerosNd_proper (v mom : List ℕ) : (zerosNd (K := K) v mom).Proper := fun _ _ _ => rfl

theorem zerosNd_cell (core : Core K M) (v mom : List ℕ) (i : ℕ → ℕ) :
    cellAt core (zerosNd v mom) i = some (core.recd (fun _ => 0)) := rfl

theorem zerosNd_shapes (core : Core K M) (v : List ℕ) {mom : List ℕ} (hm : mom.length = core.nd) :
    valRank core (zerosNd (K := K) v mom) = v.length ∧ valShape core (zerosNd (K := K) v mom) = v ∧
      momShape core (zerosNd (K := K) v mom) = mom.map (· + 1) := by
  have h : valRank core (zerosNd (K := K) v mom) = v.length := by
    simp [valRank, zerosNd, hm]
  refine ⟨h, ?_, ?_⟩
  · unfold valShape; rw [h]; simp [zerosNd]
  · unfold momShape; rw [h]; simp [zerosNd]

theorem zerosNd_whole {core : Core K M} (hc : core.Ok) (v : List ℕ) {mom : List ℕ}
    (hm : mom.length = core.nd) : Whole core (zerosNd (K := K) v mom) :=
  objOf_whole hc (a := ⟨v ++ mom.map (· + 1), fun _ => 0⟩) (fun _ _ _ => rfl)
    (by simp [hm])

end

section Agree

variable {K V M : Type*} [Field K] [DecidableEq K]

theorem keptSizes_getD {n c q : ℕ} (f : ℕ → ℕ) (h : c < n) (hq : q < n - 1) :
    ((keptAxes n [c]).map f).getD q 0 = f (if q < c then q else q + 1) := by
  have hl := keptAxes_single_length h
  have := keptAxes_single_getD h hq
  rw [List.getD_eq_getElem _ _ (by omega)] at this
  rw [List.getD_eq_getElem _ _ (by simp; omega), List.getElem_map, this]

theorem fits_free {a : Arr K} {full : List ℕ} {d : ℕ} (h1 : 1 ≤ d) (hd : d ≤ a.shape.length)
    (hr : a.shape.length ≤ full.length) (hf : ∀ p < a.shape.length, a.shape.getD p 0 = 1 ∨
      a.shape.getD p 0 = full.getD (p + (full.length - a.shape.length)) 0) :
    FitsInto (freeShape a [a.shape.length - d])
      ((keptAxes full.length [full.length - d]).map (full.getD · 0)) := by
  have e1 := freeShape_single_length (a := a) (c := a.shape.length - d) (by omega)
  have e2 : ((keptAxes full.length [full.length - d]).map (full.getD · 0)).length
      = full.length - 1 := by
    rw [List.length_map, keptAxes_single_length (by omega)]
  refine ⟨by omega, fun p hp => ?_⟩
  rw [e1] at hp
  rw [e1, e2]
  unfold freeShape
  rw [keptSizes_getD _ (by omega) hp, keptSizes_getD _ (by omega) (by omega)]
  unfold axisSize
  have := hf (if p < a.shape.length - d then p else p + 1) (by split_ifs <;> omega)
  rcases this with h | h
  · exact .inl h
  · right
    rw [h]
    congr 1
    split_ifs <;> omega

theorem _root_.Cmomy.Spec.GoodValues.push {x : Arr K} {others : List (Arr K)} {z : ℤ}
    {full : List ℕ} (g : GoodValues x others z full) :
    GoodPush x others z
      ((keptAxes full.length [full.length - fromEnd x z]).map (full.getD · 0)) where
  proper := g.proper
  range := g.range
  usable := g.usable
  fits := by
    have hw := wrap_lt g.range
    have e : wrap x.shape.length z = x.shape.length - fromEnd x z := by unfold fromEnd; omega
    rw [e]
    exact fits_free (by unfold fromEnd; omega) (by unfold fromEnd; omega)
      (g.common.rank _ (by simp [wideShapes])) (g.common.fits _ (by simp [wideShapes]))
  fitsOthers := by
    intro a ha h2
    have hw := wrap_lt g.range
    have hm : a.shape ∈ wideShapes x others := mem_wideShapes (List.mem_cons_of_mem _ ha) h2
    refine fits_free (by unfold fromEnd; omega) ?_ (g.common.rank _ hm) (g.common.fits _ hm)
    rcases (g.usable a ha).2 with h | h | h
    · omega
    · omega
    · exact h.2.1

theorem momCoords_openIdx {n ax nd : ℕ} (h : ax < n) (i : ℕ → ℕ) :
    momCoords n nd (openIdx ax i) = momCoords (n - 1) nd i := by
  unfold momCoords openIdx
  refine List.map_congr_left fun j _ => ?_
  rw [if_neg (by omega)]
  congr 1
  omega

theorem along_openIdx {n ax nd p : ℕ} (h : ax < n) (i : ℕ → ℕ) (hp : p < n - 1 + nd) :
    along (reducedLayout n ax nd) (openIdx ax i) p = i p := by
  unfold along reducedLayout
  have hl := keptAxes_single_length h
  by_cases h' : p < n - 1
  · rw [List.getElem?_append_left (by omega)]
    have := keptAxes_single_getD h h'
    rw [List.getD_eq_getElem _ _ (by omega)] at this
    rw [List.getElem?_eq_getElem (by omega), this]
    simp only [Option.map_some, Option.getD_some, openIdx]
    split_ifs
    · rfl
    · omega
    · simp
  · rw [List.getElem?_append_right (by omega), hl]
    rw [List.getElem?_eq_getElem (by simp; omega)]
    simp only [List.getElem_map, List.getElem_range, Option.map_some, Option.getD_some, openIdx]
    rw [if_neg (by omega)]
    congr 1
    omega

theorem zeros_push_vals (val : List K → V) {core : Core K M} (hc : core.Ok)
    {fam : List ℕ → Kernel K V M} {mom : List ℕ} (hm : mom.length = core.nd)
    (hz : core.recd (fun _ => 0) = (fam (mom.map (· + 1))).zero) {x w : Arr K} {ys : List (Arr K)}
    {z : ℤ} {full : List ℕ} (hy : ys.length + 1 = core.nd) (g : GoodValues x (w :: ys) z full) :
    ∃ out obj', reduceValsNd val core fam mom (axesLast core.nd) x (w :: ys) (.int z) = .ok out ∧
      pushValsNd val core fam (zerosNd
        ((keptAxes full.length [full.length - fromEnd x z]).map (full.getD · 0)) mom)
        x w ys (.int z) = .ok obj' ∧
      obj'.shape = out.shape ∧ ∀ i, InObject core obj' i → obj'.get i = out.get i := by
  obtain ⟨out, h1, h2, h3⟩ := reduceValsNd_spec val (fam := fam) hm hy g
  have hw := wrap_lt g.range
  have hr := g.common.rank x.shape (by simp [wideShapes])
  have hd : 1 ≤ fromEnd x z := by unfold fromEnd; omega
  have hd' : fromEnd x z ≤ x.shape.length := by unfold fromEnd; omega
  have hl := keptAxes_single_length (n := full.length) (c := full.length - fromEnd x z) (by omega)
  set shape := (keptAxes full.length [full.length - fromEnd x z]).map (full.getD · 0) with hs
  have hsl : shape.length = full.length - 1 := by rw [hs, List.length_map, hl]
  obtain ⟨s1, s2, s3⟩ := zerosNd_shapes (K := K) core shape hm
  obtain ⟨obj', f1, f2⟩ := pushValsNd_ok val hc fam (zerosNd_proper shape mom)
    (by simp [zerosNd, hm]) hy (by rw [s2]; exact g.push)
  refine ⟨out, obj', h1, f1, ?_, fun i hi => ?_⟩
  · rw [f2.shape, h2.1]
    show shape ++ mom.map (· + 1) = _
    rw [hs, reducedLayout, List.map_append]
    congr 1
    · refine List.map_congr_left fun p hp => ?_
      have := mem_keptAxes.1 hp
      unfold valuesSize
      rw [if_neg (by simpa using this.2), if_pos this.1]
    · refine List.ext_getElem (by simp [hm]) fun j hj hj' => ?_
      simp only [List.length_map] at hj
      simp only [List.getElem_map, List.getElem_range]
      unfold valuesSize
      rw [if_neg (by omega), if_neg (by omega), List.getD_eq_getElem _ _ (by simp; omega)]
      simp
  · rw [f2.entry i ((within_congr f2.shape i).1 hi), zerosNd_cell, hz, s1, hsl, s3]
    have := h2.2 (openIdx (full.length - fromEnd x z) i)
    beta_reduce at this
    rw [momCoords_openIdx (by omega)] at this
    unfold valsSamples
    rw [show full.length - 1 + 1 = full.length by omega]
    refine Eq.trans ?_ (this.symm.trans (h3 _ _ fun p hp => ?_))
    · rfl
    · refine along_openIdx (by omega) i ?_
      rw [h2.1, List.length_map, reducedLayout, List.length_append, hl] at hp
      simpa using hp

end Agree

end Cmomy.Nd
