import Verif.Lemmas.Lawful
import Verif.Model.Loops
import Mathlib.Algebra.Order.Field.Basic
import Mathlib.Algebra.BigOperators.Group.List.Basic
import Mathlib.Algebra.Order.BigOperators.Group.List
import Mathlib.Algebra.Module.Pi

/-!
# Consequences of lawfulness, for any pusher record
-/

set_option linter.unusedSectionVars false

namespace Cmomy

variable {K V M ι : Type*} [Field K]

namespace Lawful

section

variable [DecidableEq K] {k : Kernel K V M} (h : Lawful k ι)

/-- Raw sums of a moment array. -/
def raw (m : M) : ι → K := fun i => k.weight m * h.nrm m i

/-- Raw sums of one value of unit weight. -/
def vraw (x : V) : ι → K := h.vnrm x

/-- Same weight and same normalised moments. -/
def Eqv (a b : M) : Prop := k.weight a = k.weight b ∧ h.nrm a = h.nrm b

variable {h}

theorem Eqv.refl (a : M) : h.Eqv a a := ⟨rfl, rfl⟩
theorem Eqv.symm {a b : M} (e : h.Eqv a b) : h.Eqv b a := ⟨e.1.symm, e.2.symm⟩
theorem Eqv.trans {a b c : M} (e : h.Eqv a b) (f : h.Eqv b c) : h.Eqv a c :=
  ⟨e.1.trans f.1, e.2.trans f.2⟩

variable (h)
include h

theorem raw_i0 (m : M) : h.raw m h.i0 = k.weight m := by simp [raw, h.nrm_i0]

theorem raw_zero : h.raw k.zero = 0 := by
  funext i; simp [raw, h.weight_zero]

theorem raw_of_weight_zero {m : M} (hm : k.weight m = 0) : h.raw m = 0 := by
  funext i; simp [raw, hm]

theorem raw_mul (m : M) (f : K) : h.raw (k.mulWeight m f) = f • h.raw m := by
  funext i; simp only [raw, h.weight_mul, h.nrm_mul, Pi.smul_apply, smul_eq_mul]; ring

theorem raw_ofVal (x : V) (w : K) : h.raw (k.ofVal x w) = w • h.vraw x := by
  funext i; simp [raw, vraw, h.weight_ofVal, h.nrm_ofVal]

theorem raw_eq_of_eqv {a b : M} (e : h.Eqv a b) : h.raw a = h.raw b := by
  funext i; simp only [raw, e.1, e.2]

theorem weight_eq_of_raw {a b : M} (e : h.raw a = h.raw b) : k.weight a = k.weight b := by
  rw [← h.raw_i0, ← h.raw_i0, e]

theorem eqv_of_raw {a b : M} (ha : k.weight a ≠ 0) (e : h.raw a = h.raw b) : h.Eqv a b := by
  have hw := h.weight_eq_of_raw e
  refine ⟨hw, ?_⟩
  funext i
  have := congrFun e i
  simp only [raw, ← hw] at this
  exact mul_left_cancel₀ ha this

/-! ### single pushes -/

theorem pushScale_raw {d : M} {s : K} {o r : M} (e : k.pushScale d s o = some r) :
    h.raw r = h.raw o + s • h.raw d := by
  by_cases h0 : k.weight d * s = 0
  · rw [h.scale_skip d s o h0] at e
    cases e
    funext i
    simp only [raw, Pi.add_apply, Pi.smul_apply, smul_eq_mul]
    linear_combination (-(h.nrm d i)) * h0
  · by_cases h1 : k.weight o + k.weight d * s = 0
    · rw [h.scale_none d s o h0 h1] at e; cases e
    · obtain ⟨r', e', -, hr⟩ := h.scale_some d s o h0 h1
      rw [e'] at e
      cases e
      funext i
      simp only [raw, Pi.add_apply, Pi.smul_apply, smul_eq_mul, hr i]
      ring

theorem pushScale_weight {d : M} {s : K} {o r : M} (e : k.pushScale d s o = some r) :
    k.weight r = k.weight o + k.weight d * s := by
  have := congrFun (h.pushScale_raw e) h.i0
  simp only [Pi.add_apply, Pi.smul_apply, smul_eq_mul, h.raw_i0] at this
  rw [this, mul_comm]

theorem pushScale_eq_none_iff (d : M) (s : K) (o : M) :
    k.pushScale d s o = none ↔ k.weight d * s ≠ 0 ∧ k.weight o + k.weight d * s = 0 := by
  by_cases h0 : k.weight d * s = 0
  · simp [h.scale_skip d s o h0, h0]
  · by_cases h1 : k.weight o + k.weight d * s = 0
    · simp [h.scale_none d s o h0 h1, h0, h1]
    · obtain ⟨r', e', -, hr⟩ := h.scale_some d s o h0 h1
      simp [e', h1]

theorem pushScale_exists {d : M} {s : K} {o : M}
    (hw : k.weight d * s = 0 ∨ k.weight o + k.weight d * s ≠ 0) :
    ∃ r, k.pushScale d s o = some r := by
  rw [← Option.ne_none_iff_exists']
  intro hn
  rw [h.pushScale_eq_none_iff] at hn
  tauto

theorem pushScale_eqv {d d' : M} {s : K} {o o' : M} (ed : h.Eqv d d') (eo : h.Eqv o o') {r : M}
    (e : k.pushScale d s o = some r) : ∃ r', k.pushScale d' s o' = some r' ∧ h.Eqv r r' := by
  by_cases h0 : k.weight d * s = 0
  · have h0' : k.weight d' * s = 0 := by rw [← ed.1]; exact h0
    rw [h.scale_skip d s o h0] at e
    cases e
    exact ⟨o', h.scale_skip _ _ _ h0', eo⟩
  · have hne : k.weight o + k.weight d * s ≠ 0 := by
      intro h1
      rw [h.scale_none d s o h0 h1] at e; cases e
    obtain ⟨r', e'⟩ := h.pushScale_exists (d := d') (s := s) (o := o')
      (Or.inr (by rw [← ed.1, ← eo.1]; exact hne))
    refine ⟨r', e', h.eqv_of_raw ?_ ?_⟩
    · rw [h.pushScale_weight e]; exact hne
    · rw [h.pushScale_raw e, h.pushScale_raw e', h.raw_eq_of_eqv ed, h.raw_eq_of_eqv eo]

/-! ### folds -/

/-- Push a list of `(scale, data)` one after the other. -/
def foldScale (k : Kernel K V M) (l : List (K × M)) (o : M) : Option M :=
  l.foldlM (fun o p => k.pushScale p.2 p.1 o) o

omit h in
theorem foldScale_nil (k : Kernel K V M) (o : M) : foldScale k [] o = some o := rfl

omit h in
theorem foldScale_cons (k : Kernel K V M) (p : K × M) (l : List (K × M)) (o : M) :
    foldScale k (p :: l) o = (k.pushScale p.2 p.1 o).bind (foldScale k l) := rfl

omit h in
theorem foldScale_append (k : Kernel K V M) (l l' : List (K × M)) (o : M) :
    foldScale k (l ++ l') o = (foldScale k l o).bind (foldScale k l') := by
  induction l generalizing o with
  | nil => rfl
  | cons p l ih =>
    rw [List.cons_append, foldScale_cons, foldScale_cons]
    cases k.pushScale p.2 p.1 o with
    | none => rfl
    | some r => exact ih r

/-- Total (scaled) weight of a list. -/
def wtot (k : Kernel K V M) (l : List (K × M)) : K := (l.map (fun p => k.weight p.2 * p.1)).sum

/-- Total (scaled) raw sums of a list. -/
def rtot (l : List (K × M)) : ι → K := (l.map (fun p => p.1 • h.raw p.2)).sum

theorem rtot_nil : h.rtot [] = 0 := rfl
theorem rtot_cons (p : K × M) (l : List (K × M)) :
    h.rtot (p :: l) = p.1 • h.raw p.2 + h.rtot l := by simp [rtot]
theorem rtot_append (l l' : List (K × M)) : h.rtot (l ++ l') = h.rtot l + h.rtot l' := by
  simp [rtot]
theorem rtot_perm {l l' : List (K × M)} (hp : l.Perm l') : h.rtot l = h.rtot l' :=
  (hp.map _).sum_eq

omit h in
theorem wtot_cons (p : K × M) (l : List (K × M)) :
    wtot k (p :: l) = k.weight p.2 * p.1 + wtot k l := by simp [wtot]
omit h in
theorem wtot_append (l l' : List (K × M)) : wtot k (l ++ l') = wtot k l + wtot k l' := by
  simp [wtot]

theorem rtot_i0 (l : List (K × M)) : h.rtot l h.i0 = wtot k l := by
  induction l with
  | nil => rfl
  | cons p l ih =>
    rw [h.rtot_cons, wtot_cons, ← ih]
    simp [h.raw_i0, mul_comm]

theorem foldScale_raw {l : List (K × M)} {o r : M} (e : foldScale k l o = some r) :
    h.raw r = h.raw o + h.rtot l := by
  induction l generalizing o with
  | nil => cases e; simp [rtot_nil]
  | cons p l ih =>
    rw [foldScale_cons] at e
    obtain ⟨o', e1, e2⟩ := Option.bind_eq_some_iff.1 e
    rw [ih e2, h.pushScale_raw e1, h.rtot_cons, add_assoc]

theorem foldScale_weight {l : List (K × M)} {o r : M} (e : foldScale k l o = some r) :
    k.weight r = k.weight o + wtot k l := by
  have := congrFun (h.foldScale_raw e) h.i0
  simpa [h.raw_i0, h.rtot_i0] using this

/-- Exactly when a sequence of pushes has no finite result. -/
theorem foldScale_eq_none_iff (l : List (K × M)) (o : M) :
    foldScale k l o = none ↔ ∃ pre p post, l = pre ++ p :: post ∧ k.weight p.2 * p.1 ≠ 0 ∧
      k.weight o + wtot k (pre ++ [p]) = 0 := by
  induction l generalizing o with
  | nil => simp [foldScale_nil]
  | cons q l ih =>
    rw [foldScale_cons]
    constructor
    · intro e
      cases e1 : k.pushScale q.2 q.1 o with
      | none =>
        rw [h.pushScale_eq_none_iff] at e1
        exact ⟨[], q, l, rfl, e1.1, by simpa [wtot] using e1.2⟩
      | some o' =>
        rw [e1] at e
        obtain ⟨pre, p, post, rfl, hp, hz⟩ := (ih o').1 e
        refine ⟨q :: pre, p, post, rfl, hp, ?_⟩
        rw [List.cons_append, wtot_cons, ← add_assoc, ← h.pushScale_weight e1]
        exact hz
    · rintro ⟨pre, p, post, e, hp, hz⟩
      cases pre with
      | nil =>
        simp only [List.nil_append, List.cons.injEq] at e
        obtain ⟨rfl, rfl⟩ := e
        have : k.pushScale q.2 q.1 o = none := by
          rw [h.pushScale_eq_none_iff]
          exact ⟨hp, by simpa [wtot] using hz⟩
        rw [this]; rfl
      | cons q' pre =>
        simp only [List.cons_append, List.cons.injEq] at e
        obtain ⟨rfl, rfl⟩ := e
        cases e1 : k.pushScale q.2 q.1 o with
        | none => rfl
        | some o' =>
          refine (ih o').2 ⟨pre, p, post, rfl, hp, ?_⟩
          rw [List.cons_append, wtot_cons, ← add_assoc, ← h.pushScale_weight e1] at hz
          exact hz

theorem foldScale_of_all_zero {l : List (K × M)} (hl : ∀ p ∈ l, k.weight p.2 * p.1 = 0) (o : M) :
    foldScale k l o = some o := by
  induction l with
  | nil => rfl
  | cons p l ih =>
    rw [foldScale_cons, h.scale_skip _ _ _ (hl p List.mem_cons_self)]
    exact ih (fun q hq => hl q (List.mem_cons_of_mem _ hq))

theorem foldScale_eqv {l : List (K × M)} {o o' r : M} (eo : h.Eqv o o')
    (e : foldScale k l o = some r) : ∃ r', foldScale k l o' = some r' ∧ h.Eqv r r' := by
  induction l generalizing o o' with
  | nil => cases e; exact ⟨o', rfl, eo⟩
  | cons p l ih =>
    rw [foldScale_cons] at e
    obtain ⟨o1, e1, e2⟩ := Option.bind_eq_some_iff.1 e
    obtain ⟨o1', e1', eq1⟩ := h.pushScale_eqv (Eqv.refl p.2) eo e1
    obtain ⟨r', e2', eq2⟩ := ih eq1 e2
    exact ⟨r', by rw [foldScale_cons, e1']; exact e2', eq2⟩

/-! ### the loops are folds of scaled pushes -/

theorem pushData_eq (d o : M) : k.pushData d o = k.pushScale d 1 o := h.data_eq d o

theorem pushVal_eq (x : V) (w : K) (o : M) : k.pushVal x w o = k.pushScale (k.ofVal x w) 1 o := by
  rw [← h.val_eq, mul_one]

theorem reduceData_eq (data : List M) (o : M) :
    k.reduceData data o = foldScale k (data.map (fun d => (1, d))) o := by
  unfold Kernel.reduceData foldScale
  rw [List.foldlM_map]
  simp only [h.data_eq]

theorem reduceVals_eq (xs : List (V × K)) (o : M) :
    k.reduceVals xs o = foldScale k (xs.map (fun p => (1, k.ofVal p.1 p.2))) o := by
  unfold Kernel.reduceVals foldScale
  rw [List.foldlM_map]
  simp only [h.pushVal_eq]

theorem reduceVals_eq_reduceData (xs : List (V × K)) (o : M) :
    k.reduceVals xs o = k.reduceData (xs.map (fun p => k.ofVal p.1 p.2)) o := by
  rw [h.reduceVals_eq, h.reduceData_eq, List.map_map]; rfl

theorem resampleRest_eq (fd : List (K × M)) (o : M) :
    k.resampleRest fd o = foldScale k fd o := by
  unfold Kernel.resampleRest foldScale
  congr 1
  funext o p
  split_ifs with hp
  · rfl
  · rw [h.scale_skip]; simp only [not_not] at hp; simp [hp]

theorem resampleValsRow_eq (fx : List (K × V × K)) (o : M) :
    k.resampleValsRow fx o = foldScale k (fx.map (fun p => (p.1, k.ofVal p.2.1 p.2.2))) o := by
  unfold Kernel.resampleValsRow foldScale
  rw [List.foldlM_map]
  congr 1
  funext o p
  split_ifs with hp
  · rw [h.scale_skip]; simp [hp]
  · rw [h.val_eq]

/-- Sum of raw sums of a list of arrays. -/
def rsum (data : List M) : ι → K := (data.map h.raw).sum

theorem rsum_nil : h.rsum [] = 0 := rfl
theorem rsum_cons (d : M) (l : List M) : h.rsum (d :: l) = h.raw d + h.rsum l := by simp [rsum]
theorem rsum_append (l l' : List M) : h.rsum (l ++ l') = h.rsum l + h.rsum l' := by simp [rsum]
theorem rsum_perm {l l' : List M} (hp : l.Perm l') : h.rsum l = h.rsum l' := (hp.map _).sum_eq

theorem rtot_map_one (data : List M) : h.rtot (data.map (fun d => (1, d))) = h.rsum data := by
  simp [rtot, rsum, Function.comp_def]

/-- Sum of the weights of a list of arrays. -/
def wsumD (k : Kernel K V M) (data : List M) : K := (data.map k.weight).sum

omit h in
theorem wtot_map_one (data : List M) :
    wtot k (data.map (fun d => ((1 : K), d))) = wsumD k data := by
  simp [wtot, wsumD, Function.comp_def]

theorem rsum_i0 (l : List M) : h.rsum l h.i0 = wsumD k l := by
  rw [← h.rtot_map_one, h.rtot_i0, wtot_map_one]

theorem reduceData_raw {data : List M} {o r : M} (e : k.reduceData data o = some r) :
    h.raw r = h.raw o + h.rsum data := by
  rw [h.reduceData_eq] at e
  rw [h.foldScale_raw e, h.rtot_map_one]

theorem reduceData_weight {data : List M} {o r : M} (e : k.reduceData data o = some r) :
    k.weight r = k.weight o + wsumD k data := by
  rw [h.reduceData_eq] at e
  rw [h.foldScale_weight e, wtot_map_one]

/-- Raw sums of weighted values. -/
def vsum (xs : List (V × K)) : ι → K := (xs.map (fun p => p.2 • h.vraw p.1)).sum

theorem rsum_ofVal (xs : List (V × K)) :
    h.rsum (xs.map (fun p => k.ofVal p.1 p.2)) = h.vsum xs := by
  simp [rsum, vsum, Function.comp_def, h.raw_ofVal]

theorem reduceVals_raw {xs : List (V × K)} {o r : M} (e : k.reduceVals xs o = some r) :
    h.raw r = h.raw o + h.vsum xs := by
  rw [h.reduceVals_eq_reduceData] at e
  rw [h.reduceData_raw e, h.rsum_ofVal]

end

section ordered

variable [LinearOrder K] [IsStrictOrderedRing K] {k : Kernel K V M} (h : Lawful k ι)

theorem wtot_nonneg {l : List (K × M)} (hl : ∀ p ∈ l, 0 ≤ k.weight p.2 * p.1) :
    0 ≤ wtot k l := by
  unfold wtot
  refine List.sum_nonneg ?_
  intro x hx
  obtain ⟨p, hp, rfl⟩ := List.mem_map.1 hx
  exact hl p hp

include h in
theorem foldScale_exists_of_nonneg {l : List (K × M)} {o : M} (ho : 0 ≤ k.weight o)
    (hl : ∀ p ∈ l, 0 ≤ k.weight p.2 * p.1) : ∃ r, foldScale k l o = some r := by
  rw [← Option.ne_none_iff_exists']
  intro hn
  obtain ⟨pre, p, post, rfl, hp, hz⟩ := (h.foldScale_eq_none_iff _ _).1 hn
  have h1 : 0 ≤ wtot k pre := wtot_nonneg (fun q hq => hl q (by simp [hq]))
  have h2 : 0 < k.weight p.2 * p.1 := lt_of_le_of_ne (hl p (by simp)) (Ne.symm hp)
  rw [wtot_append] at hz
  have h3 : wtot k [p] = k.weight p.2 * p.1 := by simp [wtot]
  rw [h3] at hz
  linarith

include h in
theorem reduceData_exists {data : List M} {o : M} (ho : 0 ≤ k.weight o)
    (hl : ∀ d ∈ data, 0 ≤ k.weight d) : ∃ r, k.reduceData data o = some r := by
  rw [h.reduceData_eq]
  refine h.foldScale_exists_of_nonneg ho ?_
  intro p hp
  obtain ⟨d, hd, rfl⟩ := List.mem_map.1 hp
  simpa using hl d hd

end ordered

end Lawful

end Cmomy
