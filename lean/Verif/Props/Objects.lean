import Verif.Lemmas.ObjectsStep

set_option linter.unusedSectionVars false
set_option linter.unusedSimpArgs false

/-!
# C44: moment objects behave like multisets of weighted samples

`Spec.Does`, `Spec.Accepts` and `Spec.NoResult` say what an operation does to the samples stored in
each cell, which arguments it takes and when it divides by zero. The theorems show that the model of
the object layer, working on arrays in shared memory, does exactly this: for single operations and
for all programs, including objects that share memory.
-/

namespace Cmomy

open Spec Objects

variable {K : Type} [Field K] [DecidableEq K] [CharZero K]

private theorem adds_congr {w w' : World K} {a : Obj} {f g : ℕ → List (Samp K a.shape)}
    (h : Adds w w' a f) (e : ∀ p, f p = g p) : Adds w w' a g := by
  rwa [show g = f from (funext e).symm]

private theorem mem_of_get {σ : State K} {i : ℕ} {a : Obj} (h : σ.objs[i]? = some a) :
    a ∈ σ.objs := List.mem_of_getElem? h

private theorem wt_fits {n : ℕ} {wt : Option (List K)}
    (h : ∀ v, wt = some v → Fits n v.length) : Fits n (wt.getD [1]).length := by
  cases wt with
  | none => exact Or.inr rfl
  | some v => exact h v rfl

private theorem same_refl (σ : State K) : SameObjects σ σ := ⟨rfl, fun _ _ _ _ => rfl⟩

private theorem res_ok {σ : State K} {w : World K} (hP : Proper σ) {a : Obj}
    {pieces : ℕ → List (List (Samp K a.shape))} {out : Outcome K} (h : Result σ w a pieces out)
    (hn : ¬ CancelsAt w a pieces) :
    ∃ σ' w', out = some (.ok (), σ') ∧ Adds w w' a (fun p => (pieces p).flatten) ∧
      Represents σ' w' ∧ Proper σ' := by
  obtain ⟨m, w', h1, h2, h3⟩ := h.2 hn
  exact ⟨_, w', h1, h2, h3, proper_setMem hP _ _⟩

section step

variable {buf : Bool} {σ : State K} {w : World K} {op : Op K}

/-- Accepted arguments, and no weight cancels: the operation returns, and does to the stored samples
what it should. -/
theorem C44_step (hP : Proper σ) (hR : Represents σ w) (hal : buf = true ∨ Aligned σ.objs op)
    (hacc : Accepts σ.objs op) (hn : ¬ NoResult w op) :
    ∃ σ' w', step buf σ op = some (.ok (), σ') ∧ Does w w' op ∧ Represents σ' w' ∧ Proper σ' := by
  have hw := hR.1
  cases op with
  | zeros cls s n =>
    have hs : s.Ok := hacc
    clear hacc
    obtain ⟨w', h1, h2, h3⟩ := creates_of hP hR cls hs (List.replicate n (kern s).zero)
      (List.replicate n []) (by
        clear hal hn
        induction n with
        | zero => exact .nil
        | succ n ih => exact .cons (holds_zero hs) ih)
    refine ⟨_, w', ?_, h1, h2, h3⟩
    change zeros cls s n σ = _
    unfold zeros
    rw [if_neg (not_not.2 hs)]
  | zerosLike i =>
    obtain ⟨a, ha⟩ := hacc
    have hs := hP.ok a (mem_of_get ha)
    obtain ⟨w', h1, h2, h3⟩ := creates_of hP hR a.cls hs
      (List.replicate a.cells.length (kern a.shape).zero) (List.replicate a.cells.length []) (by
        generalize a.cells.length = n
        induction n with
        | zero => exact .nil
        | succ n ih => exact .cons (holds_zero hs) ih)
    refine ⟨_, w', ?_, ⟨a, by rw [hw]; exact ha, h1⟩, h2, h3⟩
    unfold step
    simp only [ha]
    unfold zeros
    rw [if_neg (not_not.2 hs)]
  | copy i =>
    obtain ⟨a, ha⟩ := hacc
    have hm := mem_of_get ha
    obtain ⟨w', h1, h2, h3⟩ := creates_of hP hR a.cls (hP.ok a hm) (a.cells.map (σ.mem a.shape))
      (a.cells.map (w.con a.shape)) (by
        rw [List.forall₂_map_left_iff, List.forall₂_map_right_iff, List.forall₂_same]
        exact hR.2 a hm)
    refine ⟨_, w', ?_, ⟨a, by rw [hw]; exact ha, h1⟩, h2, h3⟩
    unfold step
    simp only [ha]
    rfl
  | view i ps =>
    obtain ⟨a, ha, hps⟩ := hacc
    have hm := mem_of_get ha
    refine ⟨bindObj ⟨a.cls, a.shape, ps.map fun p => a.cells.getD p 0⟩ σ,
      ⟨w.objs ++ [⟨a.cls, a.shape, ps.map fun p => a.cells.getD p 0⟩], w.con⟩, ?_,
      ⟨a, by rw [hw]; exact ha, rfl, rfl⟩, ⟨by simp [bindObj, hw], ?_⟩, ?_, ?_, ?_⟩
    · unfold step
      simp only [ha]
      unfold view
      rw [if_pos hps]
    · intro o ho c hc
      simp only [bindObj, List.mem_append, List.mem_singleton] at ho
      rcases ho with ho | rfl
      · exact hR.2 o ho c hc
      · obtain ⟨p, hp, rfl⟩ := List.mem_map.1 hc
        exact hR.2 a hm _ (getD_mem (hps.2 p hp))
    · intro o ho
      simp only [bindObj, List.mem_append, List.mem_singleton] at ho
      rcases ho with ho | rfl
      · exact hP.ok o ho
      · exact hP.ok a hm
    · intro o ho
      simp only [bindObj, List.mem_append, List.mem_singleton] at ho
      rcases ho with ho | rfl
      · exact hP.nodup o ho
      · refine List.Nodup.map_on (fun p hp q hq h => ?_) hps.1
        rw [← idxOf_getD (hP.nodup a hm) (hps.2 p hp), h,
          idxOf_getD (hP.nodup a hm) (hps.2 q hq)]
    · intro o ho c hc
      simp only [bindObj, List.mem_append, List.mem_singleton] at ho
      rcases ho with ho | rfl
      · exact hP.lt o ho c hc
      · obtain ⟨p, hp, rfl⟩ := List.mem_map.1 hc
        exact hP.lt a hm _ (getD_mem (hps.2 p hp))
  | pushVal i x ys wt =>
    obtain ⟨a, ha, h1, h2, h3, h4⟩ := hacc
    have hw' : w.objs[i]? = some a := by rw [hw]; exact ha
    obtain ⟨σ', w', e, hA, hr, hp⟩ := res_ok hP
      (pushVal_result hP hR (mem_of_get ha) x ys wt h1 h2 h3 (wt_fits h4))
      (fun h => hn ⟨a, hw', h⟩)
    refine ⟨σ', w', ?_, ⟨a, hw', adds_congr hA fun p => by simp⟩, hr, hp⟩
    unfold step
    simp only [ha]
    exact e
  | pushVals i x ys wt nsamp =>
    obtain ⟨a, ha, h1, h2, h3, h4, h5, h6, h7⟩ := hacc
    have hw' : w.objs[i]? = some a := by rw [hw]; exact ha
    obtain ⟨σ', w', e, hA, hr, hp⟩ := res_ok hP
      (pushVals_result hP hR (mem_of_get ha) x ys wt nsamp h1 h2 h3 h4 h5 h6 h7)
      (fun h => hn ⟨a, hw', h⟩)
    refine ⟨σ', w', ?_, ⟨a, hw', adds_congr hA fun p => ?_⟩, hr, hp⟩
    · unfold step
      simp only [ha]
      exact e
    · rw [← List.flatMap_def, List.map_eq_flatMap]
  | pushData i j scale =>
    obtain ⟨a, b, ha, hb, h1, h2⟩ := hacc
    have hwa : w.objs[i]? = some a := by rw [hw]; exact ha
    have hwb : w.objs[j]? = some b := by rw [hw]; exact hb
    obtain ⟨σ', w', e, hA, hr, hp⟩ := res_ok hP
      (pushData_result hP hR (mem_of_get ha) (mem_of_get hb) h1 h2 buf scale
        (hal.imp_right fun h => h a b ha hb h1.symm))
      (fun h => hn ⟨a, b, hwa, hwb, h⟩)
    refine ⟨σ', w', ?_, ⟨a, b, hwa, hwb, h1, adds_congr hA fun p => by simp⟩, hr, hp⟩
    unfold step
    simp only [ha, hb]
    exact e
  | pushDatas i j k =>
    obtain ⟨a, b, ha, hb, h1, h2⟩ := hacc
    have hwa : w.objs[i]? = some a := by rw [hw]; exact ha
    have hwb : w.objs[j]? = some b := by rw [hw]; exact hb
    obtain ⟨σ', w', e, hA, hr, hp⟩ := res_ok hP
      (pushDatas_result hP hR (mem_of_get ha) (mem_of_get hb) h1 k h2 buf
        (hal.imp_right fun h => h a b ha hb h1.symm))
      (fun h => hn ⟨a, b, hwa, hwb, h⟩)
    refine ⟨σ', w', ?_, ⟨a, b, hwa, hwb, h1, adds_congr hA fun p => ?_⟩, hr, hp⟩
    · unfold step
      simp only [ha, hb]
      exact e
    · rw [List.flatMap_def]
  | iadd i j =>
    obtain ⟨a, b, ha, hb, hc, h1, h2⟩ := hacc
    have hwa : w.objs[i]? = some a := by rw [hw]; exact ha
    have hwb : w.objs[j]? = some b := by rw [hw]; exact hb
    obtain ⟨σ', w', e, hA, hr, hp⟩ := res_ok hP
      (pushData_result hP hR (mem_of_get ha) (mem_of_get hb) h1 h2 buf none
        (hal.imp_right fun h => h a b ha hb h1.symm))
      (fun h => hn ⟨a, b, hwa, hwb, h⟩)
    refine ⟨σ', w', ?_, ⟨a, b, hwa, hwb, hc, h1, adds_congr hA fun p => by simp⟩, hr, hp⟩
    unfold step
    simp only [ha, hb]
    unfold inplace checkOther
    rw [if_neg (by simp [hc]), if_neg (by simp [h1])]
    exact e
  | isub i j =>
    obtain ⟨a, b, ha, hb, hc, h1, h2⟩ := hacc
    have hwa : w.objs[i]? = some a := by rw [hw]; exact ha
    have hwb : w.objs[j]? = some b := by rw [hw]; exact hb
    obtain ⟨σ', w', e, hA, hr, hp⟩ := res_ok hP
      (pushData_result hP hR (mem_of_get ha) (mem_of_get hb) h1 h2 buf (some (-1))
        (hal.imp_right fun h => h a b ha hb h1.symm))
      (fun h => hn ⟨a, b, hwa, hwb, h⟩)
    refine ⟨σ', w', ?_, ⟨a, b, hwa, hwb, hc, h1, adds_congr hA fun p => by simp⟩, hr, hp⟩
    unfold step
    simp only [ha, hb]
    unfold inplace checkOther
    rw [if_neg (by simp [hc]), if_neg (by simp [h1])]
    exact e
  | add i j =>
    obtain ⟨a, b, ha, hb, hc, h1, h2⟩ := hacc
    have hwa : w.objs[i]? = some a := by rw [hw]; exact ha
    have hwb : w.objs[j]? = some b := by rw [hw]; exact hb
    obtain ⟨σ', w', e, hC, hr, hp⟩ :=
      (binary_result hP hR (mem_of_get ha) (mem_of_get hb) hc h1 h2 buf none).2
        (fun h => hn ⟨a, b, hwa, hwb, h⟩)
    refine ⟨σ', w', ?_, ⟨a, b, hwa, hwb, hc, h1, hC⟩, hr, hp⟩
    unfold step
    simp only [ha, hb]
    exact e
  | sub i j =>
    obtain ⟨a, b, ha, hb, hc, h1, h2⟩ := hacc
    have hwa : w.objs[i]? = some a := by rw [hw]; exact ha
    have hwb : w.objs[j]? = some b := by rw [hw]; exact hb
    obtain ⟨σ', w', e, hC, hr, hp⟩ :=
      (binary_result hP hR (mem_of_get ha) (mem_of_get hb) hc h1 h2 buf (some (-1))).2
        (fun h => hn ⟨a, b, hwa, hwb, h⟩)
    refine ⟨σ', w', ?_, ⟨a, b, hwa, hwb, hc, h1, hC⟩, hr, hp⟩
    unfold step
    simp only [ha, hb]
    exact e
  | mul i c =>
    obtain ⟨a, ha⟩ := hacc
    have hm := mem_of_get ha
    obtain ⟨w', h1, h2, h3⟩ := creates_of hP hR a.cls (hP.ok a hm)
      (a.cells.map fun p => (kern a.shape).mulWeight (σ.mem a.shape p) c)
      (a.cells.map fun q => (w.con a.shape q).map (reweigh c a.shape)) (by
        rw [List.forall₂_map_left_iff, List.forall₂_map_right_iff, List.forall₂_same]
        exact fun q hq => holds_mul (hP.ok a hm) c (hR.2 a hm q hq))
    refine ⟨_, w', ?_, ⟨a, by rw [hw]; exact ha, h1⟩, h2, h3⟩
    unfold step
    simp only [ha]
    rfl
  | imul i c =>
    obtain ⟨a, ha⟩ := hacc
    have hm := mem_of_get ha
    obtain ⟨h1, h2⟩ := imul_mem a.cells (hP.nodup a hm)
      (fun p => (kern a.shape).mulWeight (σ.mem a.shape p) c) (σ.mem a.shape)
    obtain ⟨w', hA, hr⟩ := rewrites_of hR (hP.nodup a hm)
      (new := fun p => (w.con a.shape (a.cells.getD p 0)).map (reweigh c a.shape))
      (fun p hp => by
        rw [h1 _ (getD_mem hp)]
        exact holds_mul (hP.ok a hm) c (hR.2 a hm _ (getD_mem hp))) h2
    refine ⟨_, w', ?_, ⟨a, by rw [hw]; exact ha, hA⟩, hr, proper_setMem hP _ _⟩
    unfold step
    simp only [ha]
    rfl

/-- Accepted arguments, and some weight cancels: the operation divides by zero. -/
theorem C44_divides_by_zero (hP : Proper σ) (hR : Represents σ w)
    (hal : buf = true ∨ Aligned σ.objs op) (hacc : Accepts σ.objs op) (hn : NoResult w op) :
    step buf σ op = none := by
  have hw := hR.1
  cases op with
  | zeros cls s n => simp [NoResult] at hn
  | zerosLike i => simp [NoResult] at hn
  | copy i => simp [NoResult] at hn
  | view i ps => simp [NoResult] at hn
  | mul i c => simp [NoResult] at hn
  | imul i c => simp [NoResult] at hn
  | pushVal i x ys wt =>
    obtain ⟨a, ha, h1, h2, h3, h4⟩ := hacc
    obtain ⟨a', ha', hc⟩ := hn
    rw [hw, ha] at ha'; cases ha'
    unfold step
    simp only [ha]
    exact (pushVal_result hP hR (mem_of_get ha) x ys wt h1 h2 h3 (wt_fits h4)).1 hc
  | pushVals i x ys wt nsamp =>
    obtain ⟨a, ha, h1, h2, h3, h4, h5, h6, h7⟩ := hacc
    obtain ⟨a', ha', hc⟩ := hn
    rw [hw, ha] at ha'; cases ha'
    unfold step
    simp only [ha]
    exact (pushVals_result hP hR (mem_of_get ha) x ys wt nsamp h1 h2 h3 h4 h5 h6 h7).1 hc
  | pushData i j scale =>
    obtain ⟨a, b, ha, hb, h1, h2⟩ := hacc
    obtain ⟨a', b', ha', hb', hc⟩ := hn
    rw [hw, ha] at ha'; cases ha'
    rw [hw, hb] at hb'; cases hb'
    unfold step
    simp only [ha, hb]
    exact (pushData_result hP hR (mem_of_get ha) (mem_of_get hb) h1 h2 buf scale
        (hal.imp_right fun h => h a b ha hb h1.symm)).1 hc
  | pushDatas i j k =>
    obtain ⟨a, b, ha, hb, h1, h2⟩ := hacc
    obtain ⟨a', b', ha', hb', hc⟩ := hn
    rw [hw, ha] at ha'; cases ha'
    rw [hw, hb] at hb'; cases hb'
    unfold step
    simp only [ha, hb]
    exact (pushDatas_result hP hR (mem_of_get ha) (mem_of_get hb) h1 k h2 buf
        (hal.imp_right fun h => h a b ha hb h1.symm)).1 hc
  | iadd i j =>
    obtain ⟨a, b, ha, hb, hcl, h1, h2⟩ := hacc
    obtain ⟨a', b', ha', hb', hc⟩ := hn
    rw [hw, ha] at ha'; cases ha'
    rw [hw, hb] at hb'; cases hb'
    unfold step
    simp only [ha, hb]
    unfold inplace checkOther
    rw [if_neg (by simp [hcl]), if_neg (by simp [h1])]
    exact (pushData_result hP hR (mem_of_get ha) (mem_of_get hb) h1 h2 buf none
        (hal.imp_right fun h => h a b ha hb h1.symm)).1 hc
  | isub i j =>
    obtain ⟨a, b, ha, hb, hcl, h1, h2⟩ := hacc
    obtain ⟨a', b', ha', hb', hc⟩ := hn
    rw [hw, ha] at ha'; cases ha'
    rw [hw, hb] at hb'; cases hb'
    unfold step
    simp only [ha, hb]
    unfold inplace checkOther
    rw [if_neg (by simp [hcl]), if_neg (by simp [h1])]
    exact (pushData_result hP hR (mem_of_get ha) (mem_of_get hb) h1 h2 buf (some (-1))
        (hal.imp_right fun h => h a b ha hb h1.symm)).1 hc
  | add i j =>
    obtain ⟨a, b, ha, hb, hcl, h1, h2⟩ := hacc
    obtain ⟨a', b', ha', hb', hc⟩ := hn
    rw [hw, ha] at ha'; cases ha'
    rw [hw, hb] at hb'; cases hb'
    unfold step
    simp only [ha, hb]
    exact (binary_result hP hR (mem_of_get ha) (mem_of_get hb) hcl h1 h2 buf none).1 hc
  | sub i j =>
    obtain ⟨a, b, ha, hb, hcl, h1, h2⟩ := hacc
    obtain ⟨a', b', ha', hb', hc⟩ := hn
    rw [hw, ha] at ha'; cases ha'
    rw [hw, hb] at hb'; cases hb'
    unfold step
    simp only [ha, hb]
    exact (binary_result hP hR (mem_of_get ha) (mem_of_get hb) hcl h1 h2 buf (some (-1))).1 hc

/-- Arguments that are not accepted: the operation raises, and no object changes. -/
theorem C44_raises (hP : Proper σ) (hax : SameAxes σ.objs op) (hacc : ¬ Accepts σ.objs op) :
    ∃ e σ', step buf σ op = some (.error e, σ') ∧ SameObjects σ σ' ∧ Proper σ' := by
  have one : ∀ e, ∃ e' σ', raise e σ = some (.error e', σ') ∧ SameObjects σ σ' ∧ Proper σ' :=
    fun e => ⟨e, σ, rfl, same_refl σ, hP⟩
  have data : ∀ (a b : Obj) (scale : Option K), b.shape = a.shape →
      ¬ Fits a.cells.length b.cells.length →
      Objects.pushData buf a b.shape b.cells scale σ = raise .valueError σ := by
    intro a b scale h1 h2
    unfold Objects.pushData
    rw [if_neg (by rw [h1]; simp), if_neg (by rw [h1]; simp), (spread_eq_none_iff _ _).2 h2]
  have inp : ∀ (a b : Obj) (scale : Option K),
      ¬ (b.cls = a.cls ∧ b.shape = a.shape ∧ Fits a.cells.length b.cells.length) →
      ∃ e σ', inplace buf scale a b σ = some (.error e, σ') ∧ SameObjects σ σ' ∧ Proper σ' := by
    intro a b scale h
    unfold inplace checkOther
    by_cases h1 : b.cls = a.cls
    · rw [if_neg (by simp [h1])]
      by_cases h2 : b.shape = a.shape
      · rw [if_neg (by simp [h2])]
        simp only []
        rw [data a b scale h2 (fun h3 => h ⟨h1, h2, h3⟩)]
        exact one _
      · rw [if_pos h2]; exact one _
    · rw [if_pos (fun e => h1 e.symm)]; exact one _
  have bin : ∀ (a b : Obj) (scale : Option K),
      ¬ (b.cls = a.cls ∧ b.shape = a.shape ∧ Fits a.cells.length b.cells.length) →
      ∃ e σ', binary buf scale a b σ = some (.error e, σ') ∧ SameObjects σ σ' ∧ Proper σ' := by
    intro a b scale h
    unfold binary checkOther
    by_cases h1 : b.cls = a.cls
    · rw [if_neg (by simp [h1])]
      by_cases h2 : b.shape = a.shape
      · rw [if_neg (by simp [h2])]
        have e : Objects.pushData buf (copyObj a σ).1 b.shape b.cells scale (copyObj a σ).2 =
            raise .valueError (copyObj a σ).2 := by
          unfold Objects.pushData
          rw [if_neg (by rw [h2]; simp [copyObj]), if_neg (by rw [h2]; simp [copyObj]),
            (spread_eq_none_iff _ _).2]
          intro h3
          refine h ⟨h1, h2, ?_⟩
          simpa [copyObj, alloc] using h3
        simp only [e, raise]
        exact ⟨_, _, rfl, alloc_same hP _ _⟩
      · rw [if_pos h2]; exact one _
    · rw [if_pos (fun e => h1 e.symm)]; exact one _
  cases op with
  | zeros cls s n =>
    change ∃ e σ', zeros cls s n σ = _ ∧ _
    have hs : ¬ s.Ok := hacc
    unfold zeros
    rw [if_pos hs]; exact one _
  | zerosLike i =>
    simp only [step]
    cases ha : σ.objs[i]? with
    | none => exact one _
    | some a => exact absurd ⟨a, ha⟩ hacc
  | copy i =>
    simp only [step]
    cases ha : σ.objs[i]? with
    | none => exact one _
    | some a => exact absurd ⟨a, ha⟩ hacc
  | mul i c =>
    simp only [step]
    cases ha : σ.objs[i]? with
    | none => exact one _
    | some a => exact absurd ⟨a, ha⟩ hacc
  | imul i c =>
    simp only [step]
    cases ha : σ.objs[i]? with
    | none => exact one _
    | some a => exact absurd ⟨a, ha⟩ hacc
  | view i ps =>
    simp only [step]
    cases ha : σ.objs[i]? with
    | none => exact one _
    | some a =>
      simp only []
      unfold view
      rw [if_neg (fun h => hacc ⟨a, ha, h⟩)]; exact one _
  | pushVal i x ys wt =>
    simp only [step]
    cases ha : σ.objs[i]? with
    | none => exact one _
    | some a =>
      simp only []
      unfold Objects.pushVal
      by_cases h1 : ys.length ≠ a.shape.ndim - 1
      · rw [if_pos h1]; exact one _
      rw [if_neg h1]
      simp only []
      cases hx : spread a.cells.length x with
      | none => exact one _
      | some x' =>
      cases hy : ys.mapM (spread a.cells.length) with
      | none => exact one _
      | some ys' =>
      cases hw : spread a.cells.length (wt.getD [1]) with
      | none => exact one _
      | some w' =>
        refine absurd ⟨a, ha, ?_, ?_, ?_, ?_⟩ hacc
        · have : 1 ≤ a.shape.ndim := by cases a.shape <;> simp [Shape.ndim]
          omega
        · by_contra h; rw [(spread_eq_none_iff _ _).2 h] at hx; cases hx
        · by_contra h; rw [mapM_spread.1.2 h] at hy; cases hy
        · rintro v rfl
          by_contra h
          rw [Option.getD_some, (spread_eq_none_iff _ _).2 h] at hw; cases hw
  | pushVals i x ys wt nsamp =>
    simp only [step]
    cases ha : σ.objs[i]? with
    | none => exact one _
    | some a =>
      simp only []
      unfold pushVals
      by_cases h1 : ys.length + 2 ≠ a.shape.ndim + 1
      · rw [if_pos h1]; exact one _
      rw [if_neg h1]
      by_cases h2 : ¬ ((x ++ ys.flatten ++ wt).all fun r => r.length = nsamp) = true
      · rw [if_pos h2]; exact one _
      rw [if_neg h2]
      simp only []
      cases hx : spread a.cells.length x with
      | none => exact one _
      | some x' =>
      cases hy : ys.mapM (spread a.cells.length) with
      | none => exact one _
      | some ys' =>
      cases hw : spread a.cells.length wt with
      | none => exact one _
      | some w' =>
        simp only [List.all_eq_true, List.mem_append, List.mem_flatten, decide_eq_true_eq,
          not_not] at h2
        refine absurd ⟨a, ha, by omega, ?_, ?_, ?_, fun r hr => h2 r (Or.inl (Or.inl hr)),
          fun y hy' r hr => h2 r (Or.inl (Or.inr ⟨y, hy', hr⟩)), fun r hr => h2 r (Or.inr hr)⟩ hacc
        · by_contra h; rw [(spread_eq_none_iff _ _).2 h] at hx; cases hx
        · by_contra h; rw [mapM_spread.1.2 h] at hy; cases hy
        · by_contra h; rw [(spread_eq_none_iff _ _).2 h] at hw; cases hw
  | pushData i j scale =>
    simp only [step]
    cases ha : σ.objs[i]? with
    | none => exact one _
    | some a =>
    cases hb : σ.objs[j]? with
    | none => exact one _
    | some b =>
      simp only []
      by_cases h1 : b.shape = a.shape
      · rw [data a b scale h1 (fun h => hacc ⟨a, b, ha, hb, h1, h⟩)]; exact one _
      · unfold Objects.pushData
        rw [if_neg (by simpa using hax a b ha hb), if_pos h1]; exact one _
  | pushDatas i j k =>
    simp only [step]
    cases ha : σ.objs[i]? with
    | none => exact one _
    | some a =>
    cases hb : σ.objs[j]? with
    | none => exact one _
    | some b =>
      simp only []
      unfold pushDatas
      rw [if_neg (by simpa using hax a b ha hb)]
      by_cases h1 : b.shape = a.shape
      · rw [if_neg (by simp [h1]),
          (rowsOf_none_iff _ _ _).2 (fun h => hacc ⟨a, b, ha, hb, h1, h⟩)]
        exact one _
      · rw [if_pos h1]; exact one _
  | iadd i j =>
    simp only [step]
    cases ha : σ.objs[i]? with
    | none => exact one _
    | some a =>
    cases hb : σ.objs[j]? with
    | none => exact one _
    | some b => exact inp a b none fun h => hacc ⟨a, b, ha, hb, h⟩
  | isub i j =>
    simp only [step]
    cases ha : σ.objs[i]? with
    | none => exact one _
    | some a =>
    cases hb : σ.objs[j]? with
    | none => exact one _
    | some b => exact inp a b (some (-1)) fun h => hacc ⟨a, b, ha, hb, h⟩
  | add i j =>
    simp only [step]
    cases ha : σ.objs[i]? with
    | none => exact one _
    | some a =>
    cases hb : σ.objs[j]? with
    | none => exact one _
    | some b => exact bin a b none fun h => hacc ⟨a, b, ha, hb, h⟩
  | sub i j =>
    simp only [step]
    cases ha : σ.objs[i]? with
    | none => exact one _
    | some a =>
    cases hb : σ.objs[j]? with
    | none => exact one _
    | some b => exact bin a b (some (-1)) fun h => hacc ⟨a, b, ha, hb, h⟩

/-- The four operators check class first, then moment shape, then positions. -/
theorem C44_operator_errors {i j : ℕ} {a b : Obj} (ha : σ.objs[i]? = some a)
    (hb : σ.objs[j]? = some b) (hop : op = .iadd i j ∨ op = .isub i j ∨ op = .add i j ∨ op = .sub i j) :
    (b.cls ≠ a.cls → step buf σ op = some (.error .typeError, σ)) ∧
    (b.cls = a.cls → b.shape ≠ a.shape → step buf σ op = some (.error .valueError, σ)) := by
  constructor
  · intro h
    have h' : a.cls ≠ b.cls := fun e => h e.symm
    rcases hop with rfl | rfl | rfl | rfl <;>
      simp [step, ha, hb, inplace, binary, checkOther, h', raise]
  · intro h h'
    rcases hop with rfl | rfl | rfl | rfl <;>
      simp [step, ha, hb, inplace, binary, checkOther, h, h', raise]

end step

/-- `NumPy` buffers overlapping operands, or every operation's operands are aligned when it runs. -/
def Spec.AlignedAll (buf : Bool) : List (Op K) → State K → Prop
  | [], _ => True
  | op :: ops, σ => (buf = true ∨ Aligned σ.objs op) ∧ SameAxes σ.objs op ∧
      ∀ r σ', step buf σ op = some (r, σ') → AlignedAll buf ops σ'

/-- Every program: what returned did to the samples what it should, what raised did nothing, and in
the end every object holds the moments of its samples. -/
theorem C44_history {buf : Bool} {ops : List (Op K)} {σ σ' : State K} {w : World K}
    {rs : List (Py Unit)} (hP : Proper σ) (hR : Represents σ w) (hal : AlignedAll buf ops σ)
    (hrun : runOps buf ops σ = some (rs, σ')) :
    rs.length = ops.length ∧
      ∃ w', History w (ops.zip rs) w' ∧ Represents σ' w' ∧ Proper σ' := by
  induction ops generalizing σ w rs with
  | nil =>
    simp only [runOps, Option.some.injEq, Prod.mk.injEq] at hrun
    obtain ⟨rfl, rfl⟩ := hrun
    exact ⟨rfl, w, .nil w, hR, hP⟩
  | cons op ops ih =>
    obtain ⟨hal1, hax, hal2⟩ := hal
    simp only [runOps, Option.bind_eq_bind, Option.bind_eq_some_iff, Prod.exists, Option.some.injEq,
      Prod.mk.injEq] at hrun
    obtain ⟨r, σ1, h1, rs', σ2, h2, rfl, rfl⟩ := hrun
    by_cases hacc : Accepts σ.objs op
    · by_cases hn : NoResult w op
      · rw [C44_divides_by_zero hP hR hal1 hacc hn] at h1; cases h1
      · obtain ⟨σ1', w1, e, hD, hR1, hP1⟩ := C44_step hP hR hal1 hacc hn
        rw [e] at h1
        simp only [Option.some.injEq, Prod.mk.injEq] at h1
        obtain ⟨rfl, rfl⟩ := h1
        obtain ⟨hl, w', hH, hR', hP'⟩ := ih hP1 hR1 (hal2 _ _ e) h2
        exact ⟨by simp [hl], w', .ok hD hH, hR', hP'⟩
    · obtain ⟨er, σ1', e, hS, hP1⟩ := C44_raises (buf := buf) hP hax hacc
      have hR1 : Represents σ1' w := by
        refine ⟨hR.1.trans hS.1.symm, fun o ho c hc => ?_⟩
        rw [hS.1] at ho
        rw [hS.2 o ho c hc]
        exact hR.2 o ho c hc
      have hal3 := hal2 _ _ e
      rw [e] at h1
      simp only [Option.some.injEq, Prod.mk.injEq] at h1
      obtain ⟨rfl, rfl⟩ := h1
      obtain ⟨hl, w', hH, hR', hP'⟩ := ih hP1 hR1 hal3 h2
      exact ⟨by simp [hl], w', .raised hH, hR', hP'⟩

/-- Before any object exists, the invariant holds. -/
theorem C44_start (mem : (s : Shape) → ℕ → s.Cell K) :
    Proper (⟨mem, 0, []⟩ : State K) ∧ Represents ⟨mem, 0, []⟩ ⟨[], fun _ _ => []⟩ :=
  ⟨⟨by simp, by simp, by simp⟩, rfl, by simp⟩

/-! ### what an operation leaves alone -/

/-- The object an operation writes to. -/
def Spec.target : Op K → Option ℕ
  | .pushVal i _ _ _ | .pushVals i _ _ _ _ | .pushData i _ _ | .pushDatas i _ _ | .iadd i _
  | .isub i _ | .imul i _ => some i
  | .zeros .. | .zerosLike _ | .copy _ | .view .. | .add .. | .sub .. | .mul .. => none

/-- Whatever the outcome, stored arrays that are not the target's are the same afterwards, entry by
entry; operations without a target change no array in scope at all. -/
theorem C44_untouched {buf : Bool} {σ σ' : State K} {op : Op K} {r : Py Unit} (hP : Proper σ)
    (h : step buf σ op = some (r, σ')) {o : Obj} (ho : o ∈ σ.objs) {c : ℕ} (hc : c ∈ o.cells)
    (ht : ∀ i a, target op = some i → σ.objs[i]? = some a → a.shape = o.shape → c ∉ a.cells) :
    σ'.mem o.shape c = σ.mem o.shape c := by
  have fr : ∀ a : Obj, (a.shape = o.shape → c ∉ a.cells) → Frame a σ σ' →
      σ'.mem o.shape c = σ.mem o.shape c := fun a h1 h2 => h2.mem _ _ h1
  have gr : Grows σ σ' → σ'.mem o.shape c = σ.mem o.shape c := fun h => h.mem o ho c hc
  have al : ∀ (s : Shape) (cells : List (s.Cell K)) (ob : Obj),
      some (Except.ok (), bindObj ob (alloc s cells σ).2) = some (r, σ') →
      σ'.mem o.shape c = σ.mem o.shape c := by
    intro s cells ob h
    cases h
    exact gr (grows_bind (grows_of_same (alloc_same hP s cells).1) _)
  have ze : ∀ cls s n, zeros cls s n σ = some (r, σ') → σ'.mem o.shape c = σ.mem o.shape c := by
    intro cls s n h
    unfold zeros at h
    split_ifs at h
    · exact al _ _ _ h
    · exact gr (grows_raise h)
  cases op with
  | zeros cls s n => exact ze _ _ _ h
  | zerosLike i =>
    simp only [step] at h
    cases ha : σ.objs[i]? <;> rw [ha] at h
    · exact gr (grows_raise h)
    · exact ze _ _ _ h
  | copy i =>
    simp only [step] at h
    cases ha : σ.objs[i]? <;> rw [ha] at h
    · exact gr (grows_raise h)
    · exact al _ _ _ h
  | mul i k =>
    simp only [step] at h
    cases ha : σ.objs[i]? <;> rw [ha] at h
    · exact gr (grows_raise h)
    · exact al _ _ _ h
  | view i ps =>
    simp only [step] at h
    cases ha : σ.objs[i]? <;> rw [ha] at h
    · exact gr (grows_raise h)
    · simp only [view] at h
      split_ifs at h
      · cases h; rfl
      · exact gr (grows_raise h)
  | imul i k =>
    simp only [step] at h
    cases ha : σ.objs[i]? with
    | none => rw [ha] at h; exact gr (grows_raise h)
    | some a =>
      rw [ha] at h
      simp only [imul] at h
      refine fr a (ht i a rfl ha) (frame_finish (a := a) (run := some _) ?_ h)
      intro m hm q hq
      cases hm
      exact (imul_mem a.cells (hP.nodup a (mem_of_get ha)) _ _).2 q hq
  | pushVal i x ys w =>
    simp only [step] at h
    cases ha : σ.objs[i]? with
    | none => rw [ha] at h; exact gr (grows_raise h)
    | some a => rw [ha] at h; exact fr a (ht i a rfl ha) (pushVal_frame h)
  | pushVals i x ys w n =>
    simp only [step] at h
    cases ha : σ.objs[i]? with
    | none => rw [ha] at h; exact gr (grows_raise h)
    | some a => rw [ha] at h; exact fr a (ht i a rfl ha) (pushVals_frame h)
  | pushData i j sc =>
    simp only [step] at h
    cases ha : σ.objs[i]? with
    | none => rw [ha] at h; exact gr (grows_raise h)
    | some a =>
    cases hb : σ.objs[j]? with
    | none => rw [ha, hb] at h; exact gr (grows_raise h)
    | some b => rw [ha, hb] at h; exact fr a (ht i a rfl ha) (pushData_frame h)
  | pushDatas i j k =>
    simp only [step] at h
    cases ha : σ.objs[i]? with
    | none => rw [ha] at h; exact gr (grows_raise h)
    | some a =>
    cases hb : σ.objs[j]? with
    | none => rw [ha, hb] at h; exact gr (grows_raise h)
    | some b => rw [ha, hb] at h; exact fr a (ht i a rfl ha) (pushDatas_frame h)
  | iadd i j =>
    simp only [step] at h
    cases ha : σ.objs[i]? with
    | none => rw [ha] at h; exact gr (grows_raise h)
    | some a =>
    cases hb : σ.objs[j]? with
    | none => rw [ha, hb] at h; exact gr (grows_raise h)
    | some b => rw [ha, hb] at h; exact fr a (ht i a rfl ha) (inplace_frame h)
  | isub i j =>
    simp only [step] at h
    cases ha : σ.objs[i]? with
    | none => rw [ha] at h; exact gr (grows_raise h)
    | some a =>
    cases hb : σ.objs[j]? with
    | none => rw [ha, hb] at h; exact gr (grows_raise h)
    | some b => rw [ha, hb] at h; exact fr a (ht i a rfl ha) (inplace_frame h)
  | add i j =>
    simp only [step] at h
    cases ha : σ.objs[i]? with
    | none => rw [ha] at h; exact gr (grows_raise h)
    | some a =>
    cases hb : σ.objs[j]? with
    | none => rw [ha, hb] at h; exact gr (grows_raise h)
    | some b => rw [ha, hb] at h; exact gr (binary_grows hP h)
  | sub i j =>
    simp only [step] at h
    cases ha : σ.objs[i]? with
    | none => rw [ha] at h; exact gr (grows_raise h)
    | some a =>
    cases hb : σ.objs[j]? with
    | none => rw [ha, hb] at h; exact gr (grows_raise h)
    | some b => rw [ha, hb] at h; exact gr (binary_grows hP h)

/-! ### examples -/

/-- Two positions to order 2; a view of the second; samples; `a += a`; a copy; a scaled view. -/
private def prog : List (Op ℚ) :=
  [.zeros .array (.one 2) 2, .pushVals 0 [[1, 3], [2, 5]] [] [[1, 1]] 2, .view 0 [1],
   .iadd 0 0, .copy 0, .imul 1 3, .add 0 2, .sub 3 0, .pushVal 0 [1] [[2]] none,
   .zeros .data (.one 2) 2, .iadd 0 5]

private def empty : State ℚ := ⟨fun s _ => (kern s).zero, 0, []⟩

/-- The example program runs through, with the errors expected. -/
example : (runOps false prog empty).map Prod.fst = some
    [.ok (), .ok (), .ok (), .ok (), .ok (), .ok (), .ok (), .ok (), .error .valueError, .ok (),
     .error .typeError] := by decide +kernel

/-- Weight, mean and variance of the second position of the first object and of the sum. -/
example : (runOps false prog empty).map (fun r => (r.2.mem (.one 2) 1 0, r.2.mem (.one 2) 1 1,
      r.2.mem (.one 2) 1 2, r.2.mem (.one 2) 5 0, r.2.mem (.one 2) 5 1)) =
    some (12, 7 / 2, 9 / 4, 16, 7 / 2) := by decide +kernel

/-- The example meets the hypotheses of `C44_history`. -/
example : Proper empty ∧ Represents empty ⟨[], fun _ _ => []⟩ ∧ AlignedAll true prog empty ∧
    (runOps true prog empty).isSome := by
  refine ⟨(C44_start _).1, (C44_start _).2, ?_, by decide +kernel⟩
  simp [prog, AlignedAll, SameAxes]

/-- Removing as much weight as there is has no result. -/
example : runOps false ([.zeros .array (.one 1) 1, .pushVal 0 [3] [] none, .isub 0 0] : List (Op ℚ))
    empty = none := by decide +kernel

/-- Why overlap matters: `a += a[::-1]` when NumPy does not buffer adds the first position's new
contents to the second. -/
theorem C44_shifted_overlap_differs :
    (runOps false ([.zeros .array (.one 1) 2, .pushVal 0 [1, 5] [] none, .view 0 [1, 0], .iadd 0 1] :
      List (Op ℚ)) empty).map (fun r => (r.2.mem (.one 1) 0 0, r.2.mem (.one 1) 1 0)) = some (2, 3) ∧
    (runOps true ([.zeros .array (.one 1) 2, .pushVal 0 [1, 5] [] none, .view 0 [1, 0], .iadd 0 1] :
      List (Op ℚ)) empty).map (fun r => (r.2.mem (.one 1) 0 0, r.2.mem (.one 1) 1 0)) =
      some (2, 2) := by
  decide +kernel

end Cmomy
