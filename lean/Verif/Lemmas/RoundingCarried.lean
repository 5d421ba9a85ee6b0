import Verif.Lemmas.RoundingUnits

/-!
# Sample loops in other units

For any kernel: if every push can be done in other units, so can every sample loop.
-/

set_option linter.unusedSectionVars false

namespace Cmomy

open Spec

variable {K V M : Type*} [Field K] [LinearOrder K] [IsStrictOrderedRing K]

/-- Pushes commute with a change of units: `φ` of the moments, `ψ` of the values, `s` of the weights. -/
structure Carried (k : Kernel K V M) (sw : M → K → M) (φ : M → M) (ψ : V → V) (s : K) : Prop where
  pos : 0 < s
  weight : ∀ m, k.weight (φ m) = s * k.weight m
  zero : φ k.zero = k.zero
  val : ∀ x w o, k.pushVal (ψ x) (s * w) (φ o) = (k.pushVal x w o).map φ
  data : ∀ d o, k.pushData (φ d) (φ o) = (k.pushData d o).map φ
  scale : ∀ d f o, k.pushScale (φ d) f (φ o) = (k.pushScale d f o).map φ
  mul : ∀ d f, k.mulWeight (φ d) f = φ (k.mulWeight d f)
  set : ∀ d w, sw (φ d) (s * w) = φ (sw d w)

theorem foldlM_carried {M β : Type*} {φ : M → M} {θ : β → β} {f : M → β → Option M}
    (l : List β) (hf : ∀ b ∈ l, ∀ o, f (φ o) (θ b) = (f o b).map φ) (o : M) :
    (l.map θ).foldlM f (φ o) = (l.foldlM f o).map φ := by
  induction l generalizing o with
  | nil => rfl
  | cons b l ih =>
    rw [List.map_cons, List.foldlM_cons, List.foldlM_cons, hf b List.mem_cons_self]
    cases f o b with
    | none => rfl
    | some m => exact ih (fun b hb => hf b (List.mem_cons_of_mem _ hb)) m

theorem scanEmit_carried {σ α β : Type*} {step : σ → α → Option σ} {emit : σ → β} {φ : σ → σ} {θ : α → α}
    {χ : β → β} (hs : ∀ s a, step (φ s) (θ a) = (step s a).map φ) (he : ∀ s, emit (φ s) = χ (emit s))
    (l : List α) (s : σ) :
    scanEmit step emit (l.map θ) (φ s) = (scanEmit step emit l s).map fun p => (p.1.map χ, φ p.2) := by
  induction l generalizing s with
  | nil => rfl
  | cons a l ih =>
    rw [List.map_cons, scanEmit, scanEmit, hs]
    cases step s a with
    | none => rfl
    | some s' =>
      simp only [Option.map_some, Option.bind_some]
      rw [ih, he]
      cases scanEmit step emit l s' with
      | none => rfl
      | some p => rfl

namespace Carried

variable {k : Kernel K V M} {sw : M → K → M} {φ : M → M} {ψ : V → V} {s : K}

/-- Values and weights in the new units. -/
def pair (ψ : V → V) (s : K) (p : V × K) : V × K := (ψ p.1, s * p.2)

variable (h : Carried k sw φ ψ s)
include h

theorem mul_eq_zero {w : K} : s * w = 0 ↔ w = 0 := by
  rw [_root_.mul_eq_zero, or_iff_right h.pos.ne']

theorem reduceVals (xs : List (V × K)) (o : M) :
    k.reduceVals (xs.map (pair ψ s)) (φ o) = (k.reduceVals xs o).map φ :=
  foldlM_carried xs (fun p _ o => h.val p.1 p.2 o) o

theorem reduceData (ds : List M) (o : M) : k.reduceData (ds.map φ) (φ o) = (k.reduceData ds o).map φ :=
  foldlM_carried ds (fun d _ o => h.data d o) o

theorem cumulative (ds : List M) : k.cumulative (ds.map φ) = (k.cumulative ds).map (List.map φ) := by
  have go : ∀ (ds : List M) (prev : M),
      k.cumulativeGo (φ prev) (ds.map φ) = (k.cumulativeGo prev ds).map (List.map φ) := by
    intro ds
    induction ds with
    | nil => intro prev; rfl
    | cons d ds ih =>
      intro prev
      show (k.pushData (φ prev) (φ d)).bind (fun r => (k.cumulativeGo r (ds.map φ)).bind fun rs =>
        some (r :: rs)) = ((k.pushData prev d).bind fun r => (k.cumulativeGo r ds).bind fun rs =>
          some (r :: rs)).map (List.map φ)
      rw [h.data]
      cases k.pushData prev d with
      | none => rfl
      | some r =>
        simp only [Option.map_some, Option.bind_some]
        rw [ih]
        cases k.cumulativeGo r ds <;> rfl
  cases ds with
  | nil => rfl
  | cons d ds =>
    show (k.cumulativeGo (φ d) (ds.map φ)).bind (fun rs => some (φ d :: rs))
      = ((k.cumulativeGo d ds).bind fun rs => some (d :: rs)).map (List.map φ)
    rw [go]
    cases k.cumulativeGo d ds <;> rfl

theorem cumulativeInverse (ds : List M) :
    k.cumulativeInverse (ds.map φ) = (k.cumulativeInverse ds).map (List.map φ) := by
  have go : ∀ (ds : List M) (prev : M),
      k.cumulativeInverseGo (φ prev) (ds.map φ) = (k.cumulativeInverseGo prev ds).map (List.map φ) := by
    intro ds
    induction ds with
    | nil => intro prev; rfl
    | cons d ds ih =>
      intro prev
      show (k.pushScale (φ prev) (-1) (φ d)).bind (fun r => (k.cumulativeInverseGo (φ d) (ds.map φ)).bind
        fun rs => some (r :: rs)) = ((k.pushScale prev (-1) d).bind fun r => (k.cumulativeInverseGo d ds).bind
          fun rs => some (r :: rs)).map (List.map φ)
      rw [h.scale]
      cases k.pushScale prev (-1) d with
      | none => rfl
      | some r =>
        simp only [Option.map_some, Option.bind_some]
        rw [ih]
        cases k.cumulativeInverseGo d ds <;> rfl
  cases ds with
  | nil => rfl
  | cons d ds =>
    show (k.cumulativeInverseGo (φ d) (ds.map φ)).bind (fun rs => some (φ d :: rs))
      = ((k.cumulativeInverseGo d ds).bind fun rs => some (d :: rs)).map (List.map φ)
    rw [go]
    cases k.cumulativeInverseGo d ds <;> rfl

theorem resampleDataRow (fd : List (K × M)) :
    k.resampleDataRow (fd.map fun p => (p.1, φ p.2)) = (k.resampleDataRow fd).map φ := by
  induction fd with
  | nil =>
    show some k.zero = some (φ k.zero)
    rw [h.zero]
  | cons p fd ih =>
    obtain ⟨f, d⟩ := p
    rw [List.map_cons]
    show (if f ≠ 0 then k.resampleRest _ _ else k.resampleDataRow _)
      = (if f ≠ 0 then k.resampleRest fd (k.mulWeight d f) else k.resampleDataRow fd).map φ
    by_cases h0 : f = 0
    · rw [if_neg (not_not.2 h0), if_neg (not_not.2 h0)]
      exact ih
    · rw [if_pos h0, if_pos h0]
      show k.resampleRest _ (k.mulWeight (φ d) f) = _
      rw [h.mul]
      refine foldlM_carried fd (fun p _ o => ?_) _
      show (if p.1 ≠ 0 then k.pushScale (φ p.2) p.1 (φ o) else some (φ o))
        = (if p.1 ≠ 0 then k.pushScale p.2 p.1 o else some o).map φ
      split_ifs
      · exact h.scale _ _ _
      · rfl

theorem resampleData (freq : List (List K)) (ds : List M) :
    k.resampleData freq (ds.map φ) = (k.resampleData freq ds).map (Option.map φ) := by
  unfold Kernel.resampleData
  rw [List.map_map]
  refine List.map_congr_left fun fs _ => ?_
  rw [List.zip_map_right]
  exact h.resampleDataRow _

theorem resampleVals {R : Precision K} (hs : Commutes R s) (freq : List (List K)) (xs : List (V × K)) :
    R.resampleVals k freq (xs.map (pair ψ s)) = (R.resampleVals k freq xs).map (Option.map φ) := by
  unfold Precision.resampleVals
  rw [List.map_map]
  refine List.map_congr_left fun fs _ => ?_
  rw [List.zip_map_right]
  show R.resampleValsRow k _ k.zero = (R.resampleValsRow k _ k.zero).map φ
  conv_lhs => rw [← h.zero]
  refine foldlM_carried _ (fun p _ o => ?_) _
  show (if p.1 = 0 then some (φ o) else k.pushVal (ψ p.2.1) (R.lo (s * p.2.2 * p.1)) (φ o))
    = (if p.1 = 0 then some o else k.pushVal p.2.1 (R.lo (p.2.2 * p.1)) o).map φ
  split_ifs
  · rfl
  · rw [hs.lo_mul']
    exact h.val _ _ _

theorem jackknifeData (ds : List M) :
    k.jackknifeData (ds.map φ) = (k.jackknifeData ds).map (List.map (Option.map φ)) := by
  have e := h.reduceData ds k.zero
  rw [h.zero] at e
  show (k.reduceData (ds.map φ) k.zero).bind (fun r => some (k.jackknifeDataKernel r (ds.map φ)))
    = ((k.reduceData ds k.zero).bind fun r => some (k.jackknifeDataKernel r ds)).map _
  rw [e]
  cases k.reduceData ds k.zero with
  | none => rfl
  | some r =>
    show some _ = some _
    unfold Kernel.jackknifeDataKernel
    rw [List.map_map, List.map_map]
    exact congrArg some (List.map_congr_left fun d _ => h.scale d (-1) r)

theorem jackknifeVals (xs : List (V × K)) :
    k.jackknifeVals (xs.map (pair ψ s)) = (k.jackknifeVals xs).map (List.map (Option.map φ)) := by
  have e := h.reduceVals xs k.zero
  rw [h.zero] at e
  show (k.reduceVals (xs.map (pair ψ s)) k.zero).bind
      (fun r => some (k.jackknifeValsKernel r (xs.map (pair ψ s))))
    = ((k.reduceVals xs k.zero).bind fun r => some (k.jackknifeValsKernel r xs)).map _
  rw [e]
  cases k.reduceVals xs k.zero with
  | none => rfl
  | some r =>
    show some _ = some _
    unfold Kernel.jackknifeValsKernel
    rw [List.map_map, List.map_map]
    refine congrArg some (List.map_congr_left fun p _ => ?_)
    show k.pushVal (ψ p.1) (-(s * p.2)) (φ r) = _
    rw [← mul_neg]
    exact h.val _ _ _

theorem reduceDataGrouped (ds : List M) (by_ : List ℤ) (nout : Option ℕ) :
    k.reduceDataGrouped (ds.map φ) by_ nout
      = (k.reduceDataGrouped ds by_ nout).map (List.map (Option.map φ)) := by
  have step : ∀ (l : List (ℤ × M)) (o : List (Option M)),
      (l.map fun p => (p.1, φ p.2)).foldl k.groupedStep (o.map (Option.map φ))
        = (l.foldl k.groupedStep o).map (Option.map φ) := by
    intro l
    induction l with
    | nil => intro o; rfl
    | cons p l ih =>
      intro o
      rw [List.map_cons, List.foldl_cons, List.foldl_cons, ← ih]
      congr 1
      unfold Kernel.groupedStep
      split_ifs
      · refine List.ext_getElem (by simp) fun i h1 h2 => ?_
        rw [List.getElem_modify, List.getElem_map, List.getElem_map, List.getElem_modify]
        split_ifs
        · rename_i hi
          cases o[i]'(by simpa using h1) with
          | none => rfl
          | some m => exact h.data _ _
        · rfl
      · rfl
  have run : ∀ n, k.groupedKernel (ds.map φ) by_ (List.replicate n (some k.zero))
      = (k.groupedKernel ds by_ (List.replicate n (some k.zero))).map (List.map (Option.map φ)) := by
    intro n
    unfold Kernel.groupedKernel
    cases by_.max? with
    | none => rfl
    | some m =>
      simp only [List.length_replicate]
      split_ifs
      · have e : List.replicate n (some k.zero) = (List.replicate n (some k.zero)).map (Option.map φ) := by
          rw [List.map_replicate, Option.map_some, h.zero]
        conv_lhs => rw [e]
        rw [List.zip_map_right]
        exact congrArg Except.ok (step _ _)
      · rfl
  unfold Kernel.reduceDataGrouped
  rw [List.length_map]
  split_ifs
  · rfl
  · cases nout with
    | some n => exact run n
    | none =>
      simp only
      cases by_.max? with
      | none => rfl
      | some m =>
        simp only
        split_ifs
        · rfl
        · exact run _

section rolling

open Kernel (RollState rollEmit ExpState expEmit)

/-- State of the rolling loops in the new units. -/
def roll (φ : M → M) (t : RollState M) : RollState M := ⟨φ t.dummy, t.count⟩

theorem roll_emit (n : ℤ) (t : RollState M) :
    rollEmit n (roll φ t) = (rollEmit n t).map φ := by
  unfold rollEmit roll
  split_ifs <;> rfl

theorem roll_add (t : RollState M) (d : M) : k.rollAdd (roll φ t) (φ d) = (k.rollAdd t d).map (roll φ) := by
  unfold Kernel.rollAdd
  rw [h.weight]
  by_cases h0 : k.weight d = 0
  · rw [if_neg (not_not.2 (h.mul_eq_zero.2 h0)), if_neg (not_not.2 h0)]
    rfl
  · rw [if_pos (mt h.mul_eq_zero.1 h0), if_pos h0]
    show (k.pushData (φ d) (φ t.dummy)).bind (fun m => some (RollState.mk m (t.count + 1)))
      = ((k.pushData d t.dummy).bind fun m => some (RollState.mk m (t.count + 1))).map (roll φ)
    rw [h.data]
    cases k.pushData d t.dummy <;> rfl

theorem roll_step (t : RollState M) (p : M × M) :
    k.rollStep (roll φ t) (Prod.map φ φ p) = (k.rollStep t p).map (roll φ) := by
  unfold Kernel.rollStep
  show (k.rollAdd (roll φ t) (φ p.1)).bind _ = ((k.rollAdd t p.1).bind _).map _
  rw [h.roll_add]
  cases k.rollAdd t p.1 with
  | none => rfl
  | some u =>
    simp only [Option.map_some, Option.bind_some, Prod.map_snd]
    rw [h.weight]
    by_cases h0 : k.weight p.2 = 0
    · rw [if_neg (not_not.2 (h.mul_eq_zero.2 h0)), if_neg (not_not.2 h0)]
      rfl
    · rw [if_pos (mt h.mul_eq_zero.1 h0), if_pos h0]
      have hl : s * k.weight p.2 < k.weight (roll φ u).dummy ↔ k.weight p.2 < k.weight u.dummy := by
        show _ < k.weight (φ u.dummy) ↔ _
        rw [h.weight, mul_lt_mul_iff_right₀ h.pos]
      by_cases hlt : k.weight p.2 < k.weight u.dummy
      · rw [if_pos (hl.2 hlt), if_pos hlt]
        show (k.pushScale (φ p.2) (-1) (φ u.dummy)).bind (fun m => some (RollState.mk m (u.count - 1)))
          = ((k.pushScale p.2 (-1) u.dummy).bind fun m => some (RollState.mk m (u.count - 1))).map (roll φ)
        rw [h.scale]
        cases k.pushScale p.2 (-1) u.dummy <;> rfl
      · rw [if_neg (mt hl.1 hlt), if_neg hlt]
        show some (RollState.mk k.zero (u.count - 1)) = some (RollState.mk (φ k.zero) (u.count - 1))
        rw [h.zero]

theorem rollingKernel (window : ℕ) (n : ℤ) (ds : List M) :
    k.rollingKernel window n (ds.map φ) = (k.rollingKernel window n ds).map (List.map (Option.map φ)) := by
  have e1 := scanEmit_carried (h.roll_add) (h.roll_emit n) (ds.take window) ⟨k.zero, 0⟩
  have ez : roll φ (⟨k.zero, 0⟩ : RollState M) = ⟨k.zero, 0⟩ := by
    unfold roll
    rw [h.zero]
  rw [ez] at e1
  show (scanEmit k.rollAdd (rollEmit n) ((ds.map φ).take window) ⟨k.zero, 0⟩).bind (fun first =>
    (scanEmit k.rollStep (rollEmit n) (((ds.map φ).drop window).zip (ds.map φ)) first.2).bind fun rest =>
      some (first.1 ++ rest.1)) = ((scanEmit k.rollAdd (rollEmit n) (ds.take window) ⟨k.zero, 0⟩).bind fun first =>
    (scanEmit k.rollStep (rollEmit n) ((ds.drop window).zip ds) first.2).bind fun rest =>
      some (first.1 ++ rest.1)).map _
  rw [← List.map_take, e1]
  cases scanEmit k.rollAdd (rollEmit n) (ds.take window) ⟨k.zero, 0⟩ with
  | none => rfl
  | some first =>
    simp only [Option.map_some, Option.bind_some]
    rw [← List.map_drop, List.zip_map, scanEmit_carried (h.roll_step) (h.roll_emit n)]
    cases scanEmit k.rollStep (rollEmit n) ((ds.drop window).zip ds) first.2 with
    | none => rfl
    | some rest =>
      simp only [Option.map_some, Option.bind_some, List.map_append]

theorem rollingData (window : ℕ) (mp : Option ℤ) (center : Bool) (ds : List M) :
    k.rollingData window mp center (ds.map φ)
      = (k.rollingData window mp center ds).map (List.map (Option.map φ)) := by
  unfold Kernel.rollingData
  cases center with
  | false => exact h.rollingKernel _ _ _
  | true =>
    have e : ∀ n, ds.map φ ++ List.replicate n k.zero = (ds ++ List.replicate n k.zero).map φ := by
      intro n
      rw [List.map_append, List.map_replicate, h.zero]
    simp only [if_true]
    rw [e, h.rollingKernel]
    generalize k.rollingKernel window _ _ = r
    cases r with
    | none => rfl
    | some r =>
      show some _ = some _
      rw [List.map_drop]

theorem roll_addVal (t : RollState M) (p : V × K) :
    k.rollAddVal (roll φ t) (pair ψ s p) = (k.rollAddVal t p).map (roll φ) := by
  unfold Kernel.rollAddVal
  show (if s * p.2 ≠ 0 then _ else _) = _
  by_cases h0 : p.2 = 0
  · rw [if_neg (not_not.2 (h.mul_eq_zero.2 h0)), if_neg (not_not.2 h0)]
    rfl
  · rw [if_pos (mt h.mul_eq_zero.1 h0), if_pos h0]
    show (k.pushVal (ψ p.1) (s * p.2) (φ t.dummy)).bind (fun m => some (RollState.mk m (t.count + 1)))
      = ((k.pushVal p.1 p.2 t.dummy).bind fun m => some (RollState.mk m (t.count + 1))).map (roll φ)
    rw [h.val]
    cases k.pushVal p.1 p.2 t.dummy <;> rfl

theorem roll_stepVal (t : RollState M) (p : (V × K) × (V × K)) :
    k.rollStepVal (roll φ t) (Prod.map (pair ψ s) (pair ψ s) p) = (k.rollStepVal t p).map (roll φ) := by
  unfold Kernel.rollStepVal
  show (k.rollAddVal (roll φ t) (pair ψ s p.1)).bind _ = ((k.rollAddVal t p.1).bind _).map _
  rw [h.roll_addVal]
  cases k.rollAddVal t p.1 with
  | none => rfl
  | some u =>
    simp only [Option.map_some, Option.bind_some, Prod.map_snd]
    have e : (pair ψ s p.2).2 = s * p.2.2 := rfl
    rw [e]
    by_cases h0 : p.2.2 = 0
    · rw [if_neg (not_not.2 (h.mul_eq_zero.2 h0)), if_neg (not_not.2 h0)]
      rfl
    · rw [if_pos (mt h.mul_eq_zero.1 h0), if_pos h0]
      have hl : s * p.2.2 < k.weight (roll φ u).dummy ↔ p.2.2 < k.weight u.dummy := by
        show _ < k.weight (φ u.dummy) ↔ _
        rw [h.weight, mul_lt_mul_iff_right₀ h.pos]
      by_cases hlt : p.2.2 < k.weight u.dummy
      · rw [if_pos (hl.2 hlt), if_pos hlt]
        show (k.pushVal (ψ p.2.1) (-(s * p.2.2)) (φ u.dummy)).bind (fun m => some (RollState.mk m (u.count - 1)))
          = ((k.pushVal p.2.1 (-p.2.2) u.dummy).bind fun m => some (RollState.mk m (u.count - 1))).map (roll φ)
        rw [← mul_neg, h.val]
        cases k.pushVal p.2.1 (-p.2.2) u.dummy <;> rfl
      · rw [if_neg (mt hl.1 hlt), if_neg hlt]
        show some (RollState.mk k.zero (u.count - 1)) = some (RollState.mk (φ k.zero) (u.count - 1))
        rw [h.zero]

theorem rollingValsKernel (window : ℕ) (n : ℤ) (xs : List (V × K)) :
    k.rollingValsKernel window n (xs.map (pair ψ s))
      = (k.rollingValsKernel window n xs).map (List.map (Option.map φ)) := by
  have e1 := scanEmit_carried (h.roll_addVal) (h.roll_emit n) (xs.take window) ⟨k.zero, 0⟩
  have ez : roll φ (⟨k.zero, 0⟩ : RollState M) = ⟨k.zero, 0⟩ := by
    unfold roll
    rw [h.zero]
  rw [ez] at e1
  show (scanEmit k.rollAddVal (rollEmit n) ((xs.map (pair ψ s)).take window) ⟨k.zero, 0⟩).bind (fun first =>
    (scanEmit k.rollStepVal (rollEmit n) (((xs.map (pair ψ s)).drop window).zip (xs.map (pair ψ s))) first.2).bind
      fun rest => some (first.1 ++ rest.1))
    = ((scanEmit k.rollAddVal (rollEmit n) (xs.take window) ⟨k.zero, 0⟩).bind fun first =>
    (scanEmit k.rollStepVal (rollEmit n) ((xs.drop window).zip xs) first.2).bind fun rest =>
      some (first.1 ++ rest.1)).map _
  rw [← List.map_take, e1]
  cases scanEmit k.rollAddVal (rollEmit n) (xs.take window) ⟨k.zero, 0⟩ with
  | none => rfl
  | some first =>
    simp only [Option.map_some, Option.bind_some]
    rw [← List.map_drop, List.zip_map, scanEmit_carried (h.roll_stepVal) (h.roll_emit n)]
    cases scanEmit k.rollStepVal (rollEmit n) ((xs.drop window).zip xs) first.2 with
    | none => rfl
    | some rest =>
      simp only [Option.map_some, Option.bind_some, List.map_append]

theorem rollingVals {x0 : V} (hx : ψ x0 = x0) (window : ℕ) (mp : Option ℤ) (center : Bool)
    (xs : List (V × K)) :
    k.rollingVals x0 window mp center (xs.map (pair ψ s))
      = (k.rollingVals x0 window mp center xs).map (List.map (Option.map φ)) := by
  unfold Kernel.rollingVals
  cases center with
  | false => exact h.rollingValsKernel _ _ _
  | true =>
    have e : ∀ n, xs.map (pair ψ s) ++ List.replicate n (x0, 0)
        = (xs ++ List.replicate n (x0, 0)).map (pair ψ s) := by
      intro n
      rw [List.map_append, List.map_replicate]
      simp only [pair, hx, mul_zero]
    simp only [if_true]
    rw [e, h.rollingValsKernel]
    generalize k.rollingValsKernel window _ _ = r
    cases r with
    | none => rfl
    | some r =>
      show some _ = some _
      rw [List.map_drop]

/-- State of the exponential loops in the new units. -/
def expo (φ : M → M) (t : ExpState K M) : ExpState K M := ⟨φ t.dummy, t.count, t.oldWeight⟩

theorem expo_emit (n : ℤ) (t : ExpState K M) : expEmit n (expo φ t) = (expEmit n t).map φ := by
  unfold expEmit expo
  split_ifs <;> rfl

variable {R : Precision K} (hs : Commutes R s)
include hs

theorem expRenorm (a : K) (t : ExpState K M) :
    R.expRenorm k sw a (expo φ t) = (R.expRenorm k sw a t).map (expo φ) := by
  unfold Precision.expRenorm expo
  simp only
  split_ifs
  · rfl
  · rw [h.weight, mul_div_assoc, hs.hi, hs.lo, h.set]
    rfl

theorem expStep (adjust : Bool) (t : ExpState K M) (p : K × M) :
    R.expStep k sw adjust (expo φ t) (Prod.map id φ p) = (R.expStep k sw adjust t p).map (expo φ) := by
  unfold Precision.expStep
  simp only [Prod.map_snd, Prod.map_fst, id_eq, expo]
  rw [h.weight, h.weight, hs.hi_mul', hs.lo, h.set]
  by_cases h0 : k.weight p.2 = 0
  · rw [if_neg (not_not.2 (h.mul_eq_zero.2 h0)), if_neg (not_not.2 h0)]
    rfl
  · rw [if_pos (mt h.mul_eq_zero.1 h0), if_pos h0, h.scale]
    cases k.pushScale p.2 _ (sw t.dummy _) with
    | none => rfl
    | some m =>
      cases adjust with
      | true => rfl
      | false => exact h.expRenorm hs p.1 ⟨m, _, _⟩

theorem expStepVal (adjust : Bool) (t : ExpState K M) (p : K × V × K) :
    R.expStepVal k sw adjust (expo φ t) (Prod.map id (pair ψ s) p)
      = (R.expStepVal k sw adjust t p).map (expo φ) := by
  unfold Precision.expStepVal
  obtain ⟨a, x, w⟩ := p
  show (if s * w ≠ 0 then (k.pushVal (ψ x) (if adjust then s * w else R.lo (s * w * a))
        (sw (φ t.dummy) (R.lo (R.hi (k.weight (φ t.dummy) * R.hi (1 - a)))))).bind fun m =>
      if !adjust then R.expRenorm k sw a ⟨m, t.count + 1, R.hi (t.oldWeight * R.hi (1 - a))⟩
      else some ⟨m, t.count + 1, R.hi (t.oldWeight * R.hi (1 - a))⟩
    else some ⟨sw (φ t.dummy) (R.lo (R.hi (k.weight (φ t.dummy) * R.hi (1 - a)))), t.count,
      R.hi (t.oldWeight * R.hi (1 - a))⟩) = _
  rw [h.weight, hs.hi_mul', hs.lo, h.set]
  by_cases h0 : w = 0
  · rw [if_neg (not_not.2 (h.mul_eq_zero.2 h0)), if_neg (not_not.2 h0)]
    rfl
  · rw [if_pos (mt h.mul_eq_zero.1 h0), if_pos h0, hs.lo_mul', ← mul_ite, h.val]
    simp only
    cases k.pushVal x _ (sw t.dummy _) with
    | none => rfl
    | some m =>
      cases adjust with
      | true => rfl
      | false => exact h.expRenorm hs a ⟨m, _, _⟩

theorem rollingExpData (adjust : Bool) (mp : Option ℤ) (alpha : List K) (ds : List M) :
    R.rollingExpData k sw adjust mp alpha (ds.map φ)
      = (R.rollingExpData k sw adjust mp alpha ds).map (List.map (Option.map φ)) := by
  have e := scanEmit_carried (h.expStep hs adjust) (h.expo_emit (max (max 1 (mp.getD 1)) 1))
    (alpha.zip ds) ⟨k.zero, 0, 0⟩
  have ez : expo φ (⟨k.zero, 0, 0⟩ : ExpState K M) = ⟨k.zero, 0, 0⟩ := by
    unfold expo
    rw [h.zero]
  rw [ez, ← List.zip_map, List.map_id] at e
  unfold Precision.rollingExpData
  simp only
  rw [e, Option.map_map, Option.map_map]
  rfl

theorem rollingExpVals (adjust : Bool) (mp : Option ℤ) (alpha : List K) (xs : List (V × K)) :
    R.rollingExpVals k sw adjust mp alpha (xs.map (pair ψ s))
      = (R.rollingExpVals k sw adjust mp alpha xs).map (List.map (Option.map φ)) := by
  have e := scanEmit_carried (h.expStepVal hs adjust) (h.expo_emit (max (max 1 (mp.getD 1)) 1))
    (alpha.zip xs) ⟨k.zero, 0, 0⟩
  have ez : expo φ (⟨k.zero, 0, 0⟩ : ExpState K M) = ⟨k.zero, 0, 0⟩ := by
    unfold expo
    rw [h.zero]
  rw [ez, ← List.zip_map, List.map_id] at e
  unfold Precision.rollingExpVals
  simp only
  rw [e, Option.map_map, Option.map_map]
  rfl

end rolling

end Carried

namespace Precision

variable {R : Precision K}

theorem kernel1_carried {c s : K} (hc : Commutes R c) (hs : Commutes R s) (h0 : 0 < s) (order : ℕ) :
    Carried (R.kernel1 order) setWeight1 (rescaled c s) (fun x => c * x) s where
  pos := h0
  weight m := show rescaled c s m 0 = _ from if_pos rfl
  zero := by
    funext i
    simp [rescaled, kernel1]
  val x w o := pushVal_units hc hs h0.ne' order x w o
  data d o := by
    show R.pushDataBody order (rescaled c s d 0) _ _ = _
    rw [show rescaled c s d 0 = s * d 0 from if_pos rfl]
    exact pushDataBody_units hc hs h0.ne' order (d 0) d o
  scale d f o := by
    show R.pushDataBody order (R.lo (rescaled c s d 0 * f)) _ _ = _
    rw [show rescaled c s d 0 = s * d 0 from if_pos rfl, hs.lo_mul']
    exact pushDataBody_units hc hs h0.ne' order (R.lo (d 0 * f)) d o
  mul d f := by
    show Function.update (rescaled c s d) 0 (R.lo (rescaled c s d 0 * f)) = rescaled c s (Function.update d 0 _)
    rw [show rescaled c s d 0 = s * d 0 from if_pos rfl, hs.lo_mul', rescaled_update_zero]
  set d w := rescaled_update_zero w

theorem kernel2_carried (h : IsPrecision R) {c0 c1 s : K} (hc0 : Commutes R c0) (hc1 : Commutes R c1)
    (hs : Commutes R s) (h0 : 0 < s) {o0 o1 : ℕ} (ho0 : 1 ≤ o0) (ho1 : 1 ≤ o1) :
    Carried (R.kernel2 o0 o1) setWeight2 (rescaledCov c0 c1 s) (fun x => (c0 * x.1, c1 * x.2)) s where
  pos := h0
  weight m := show rescaledCov c0 c1 s m 0 0 = _ from if_pos ⟨rfl, rfl⟩
  zero := by
    funext i j
    simp [rescaledCov, kernel2]
  val x w o := by
    show R.pushValCov o0 o1 (c0 * x.1) (c1 * x.2) (s * w) _ = (R.pushValCov o0 o1 x.1 x.2 w o).map _
    rw [pushValCov_eq h, pushValCov_eq h, ← pushDataCovBody_units hc0 hc1 hs h0.ne' ho0 ho1]
    congr 1
    funext i j
    unfold rescaledCov valToDataCov
    simp only [setAt_apply, Prod.mk.injEq]
    by_cases e : i = 0 ∧ j = 0
    · simp [e]
    · by_cases e1 : i = 1 ∧ j = 0
      · simp [e1]
      · by_cases e2 : i = 0 ∧ j = 1
        · simp [e2]
        · simp [e, e1, e2]
  data d o := by
    show R.pushDataCovBody o0 o1 (rescaledCov c0 c1 s d 0 0) _ _ = _
    rw [show rescaledCov c0 c1 s d 0 0 = s * d 0 0 from if_pos ⟨rfl, rfl⟩]
    exact pushDataCovBody_units hc0 hc1 hs h0.ne' ho0 ho1 (d 0 0) d o
  scale d f o := by
    show R.pushDataCovBody o0 o1 (R.lo (rescaledCov c0 c1 s d 0 0 * f)) _ _ = _
    rw [show rescaledCov c0 c1 s d 0 0 = s * d 0 0 from if_pos ⟨rfl, rfl⟩, hs.lo_mul']
    exact pushDataCovBody_units hc0 hc1 hs h0.ne' ho0 ho1 (R.lo (d 0 0 * f)) d o
  mul d f := by
    show setAt (rescaledCov c0 c1 s d) 0 0 (R.lo (rescaledCov c0 c1 s d 0 0 * f))
      = rescaledCov c0 c1 s (setAt d 0 0 _)
    rw [show rescaledCov c0 c1 s d 0 0 = s * d 0 0 from if_pos ⟨rfl, rfl⟩, hs.lo_mul', rescaledCov_setAt_zero]
  set d w := rescaledCov_setAt_zero w

/-! ### Without rounding -/

theorem kernel1_exact (order : ℕ) : (exact : Precision K).kernel1 order = Cmomy.kernel1 order := rfl

theorem kernel2_exact (o0 o1 : ℕ) : (exact : Precision K).kernel2 o0 o1 = Cmomy.kernel2 o0 o1 := rfl

theorem resampleVals_exact (k : Kernel K V M) (freq : List (List K)) (xs : List (V × K)) :
    (exact : Precision K).resampleVals k freq xs = k.resampleVals freq xs := rfl

theorem expData_exact {k : Kernel K V M} {sw : M → K → M} (h : ∀ m f, sw m (k.weight m * f) = k.mulWeight m f)
    (adjust : Bool) (mp : Option ℤ) (alpha : List K) (ds : List M) :
    (exact : Precision K).rollingExpData k sw adjust mp alpha ds = k.rollingExpData adjust mp alpha ds := by
  have e : (exact : Precision K).expStep k sw adjust = k.expStep adjust := by
    funext t p
    unfold expStep Kernel.expStep expRenorm Kernel.expRenorm exact
    simp only [id_eq, h, div_eq_mul_inv]
  unfold rollingExpData Kernel.rollingExpData
  rw [e]

theorem expVals_exact {k : Kernel K V M} {sw : M → K → M} (h : ∀ m f, sw m (k.weight m * f) = k.mulWeight m f)
    (adjust : Bool) (mp : Option ℤ) (alpha : List K) (xs : List (V × K)) :
    (exact : Precision K).rollingExpVals k sw adjust mp alpha xs = k.rollingExpVals adjust mp alpha xs := by
  have e : (exact : Precision K).expStepVal k sw adjust = k.expStepVal adjust := by
    funext t p
    unfold expStepVal Kernel.expStepVal expRenorm Kernel.expRenorm exact
    simp only [id_eq, h, div_eq_mul_inv]
  unfold rollingExpVals Kernel.rollingExpVals
  rw [e]

end Precision

end Cmomy
