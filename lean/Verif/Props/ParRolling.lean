import Verif.Props.Parallel
import Verif.Lemmas.ParRolling

set_option linter.unusedSectionVars false

/-!
# C50, continued: the rolling kernels

Each position also has a scratch array of its own (`dummy_mom`), so the layout asks that scratch
arrays, too, are shared with nothing.
-/

namespace Cmomy

open Spec Par

variable {A P T X XA I M K : Type} [DecidableEq A] [DecidableEq T] [Fintype T] [Field K]
  [LinearOrder K] {ck : CellKernel A K X XA I} {k : Kernel K X M} {entry : M → I → K}
  {val : XA → (A → K) → X} {vc : XA → Set A}

/-- Spec: outputs laid out as in `Layout`, and every position's scratch array consists of distinct
cells that are not in an output, an input or another position's scratch array. -/
structure Spec.ScratchLayout (idx : List I) (n : ℕ) (tmp : P → I → A) (out : P → ℕ → I → A)
    (inputs : P → Set A) : Prop where
  outs : Layout idx n out inputs
  tmp_distinct : ∀ p, ∀ i ∈ idx, ∀ j ∈ idx, tmp p i = tmp p j → i = j
  tmp_disjoint : ∀ p q, p ≠ q → ∀ i ∈ idx, ∀ j ∈ idx, tmp p i ≠ tmp q j
  tmp_outs : ∀ p q, ∀ i ∈ idx, ∀ r < n, ∀ j ∈ idx, tmp p i ≠ out q r j
  tmp_inputs : ∀ p q, ∀ i ∈ idx, tmp p i ∉ inputs q

/-- Spec: the cells hold the row, or `nan` in every entry where the window is incomplete. -/
def Spec.StoredRow (idx : List I) (entry : M → I → K) (nan : K) (at_ : I → A) (m : A → K) :
    Option M → Prop
  | some s => Stored idx entry at_ m s
  | none => ∀ i ∈ idx, m (at_ i) = nan

private theorem scratch_independent {n : ℕ} {tmp : P → I → A} {out : P → ℕ → I → A}
    {inputs : P → Set A} (h : ScratchLayout ck.idx n tmp out inputs) :
    Independent (fun p => inputs p ∪ (winC ck (tmp p) ∪ rowsC ck n (out p)))
      (fun p => winC ck (tmp p) ∪ rowsC ck n (out p)) := by
  intro p q hpq
  rw [Set.disjoint_left]
  rintro _ (⟨i, hi, rfl⟩ | ⟨r, hr, i, hi, rfl⟩) hq
  · have key : tmp p i ∉ winC ck (tmp q) ∪ rowsC ck n (out q) := by
      rintro (⟨j, hj, e⟩ | ⟨r', hr', j, hj, e⟩)
      · exact h.tmp_disjoint p q hpq i hi j hj e.symm
      · exact h.tmp_outs p q i hi r' hr' j hj e.symm
    rcases hq with (hq | hq) | hq
    · exact h.tmp_inputs p q i hi hq
    · exact key hq
    · exact key hq
  · have key : out p r i ∉ winC ck (tmp q) ∪ rowsC ck n (out q) := by
      rintro (⟨j, hj, e⟩ | ⟨r', hr', j, hj, e⟩)
      · exact h.tmp_outs q p j hj r hr i hi e
      · exact h.outs.disjoint p q hpq r hr r' hr' i hi j hj e.symm
    rcases hq with (hq | hq) | hq
    · exact h.outs.inputs_kept p q r hr i hi hq
    · exact key hq
    · exact key hq

private theorem scratch_places {n : ℕ} {tmp : P → I → A} {out : P → ℕ → I → A}
    {inputs : P → Set A} (h : ScratchLayout ck.idx n tmp out inputs) (p : P) :
    Places ck n (inputs p) (tmp p) (out p) := by
  refine ⟨h.outs.distinct p, h.tmp_distinct p, ?_, ?_⟩
  · rw [Set.disjoint_left]
    rintro _ ⟨i, hi, rfl⟩ ⟨r, hr, j, hj, e⟩
    exact h.tmp_outs p p i hi r hr j hj e.symm
  · rw [Set.disjoint_right]
    rintro _ (⟨i, hi, rfl⟩ | ⟨r, hr, i, hi, rfl⟩)
    · exact h.tmp_inputs p p i hi
    · exact h.outs.inputs_kept p p r hr i hi

private theorem par_rows {n : ℕ} {tmp : P → I → A} {out : P → ℕ → I → A} {inputs : P → Set A}
    (hl : ScratchLayout ck.idx n tmp out inputs) {prog : P → Prog A K Unit}
    (hw : ∀ p, (prog p).Within (inputs p ∪ (winC ck (tmp p) ∪ rowsC ck n (out p)))
      (winC ck (tmp p) ∪ rowsC ck n (out p)))
    {assign : T → List P} {ps : List P} (ha : Assigns assign ps) (hps : ps.Nodup) (m : A → K)
    {c : Config T A K} (hr : Reaches (start prog assign m) c) (hd : c.Done) {p : P} (hp : p ∈ ps)
    {nan : K} {rs : List (Option M)} (h : rs.length = n ∧ ∀ i (hi : i < rs.length),
      RowShows ck entry nan (out p i) ((prog p).run m).2 rs[i]) :
    rs.length = n ∧ ∀ i (hi : i < rs.length),
      StoredRow ck.idx entry nan (out p i) c.mem rs[i] := by
  refine ⟨h.1, fun i hi => ?_⟩
  have hin : i < n := h.1 ▸ hi
  have e : ∀ j ∈ ck.idx, c.mem (out p i j) = ((prog p).run m).2 (out p i j) := fun j hj =>
    C50_alone (scratch_independent hl) hw ha hps m hr hd hp (Or.inr ⟨i, hin, j, hj, rfl⟩)
  have := h.2 i hi
  revert this
  cases rs[i] with
  | some s => exact fun h j hj => (e j hj).trans (h j hj)
  | none => exact fun h j hj => (e j hj).trans (h j hj)

variable (R : Refines ck k entry val vc) {assign : T → List P} {ps : List P}
  (ha : Assigns assign ps) (hps : ps.Nodup) (m : A → K) {c : Config T A K}

include R ha hps

/-- **C50.** Parallel `rolling_data`: every row of every position is the serial kernel's. -/
theorem C50_rolling_data (nan : K) (window : ℕ) (minCount : ℤ) (n : ℕ) {data out : P → ℕ → I → A}
    {tmp : P → I → A} (hl : ScratchLayout ck.idx n tmp out (fun p => rowsC ck n (data p)))
    (hr : Reaches (start (fun p => @CellKernel.gRollingData A K X XA I (exact K) ck ltK nan window
      minCount n (data p) (tmp p) (out p)) assign m) c)
    (hd : c.Done) {p : P} (hp : p ∈ ps) {d : ℕ → M}
    (hdat : ∀ i < n, Stored ck.idx entry (data p i) m (d i)) {rs : List (Option M)}
    (h : k.rollingKernel window minCount ((List.range n).map d) = some rs) :
    rs.length = n ∧ ∀ i (hi : i < rs.length),
      StoredRow ck.idx entry nan (out p i) c.mem rs[i] :=
  par_rows hl (fun _ => @gRollingData_within A K X XA I (exact K) ck vc R.foot ..) ha hps m hr hd hp
    (gRollingData_shows R nan window minCount (scratch_places hl p) hdat h)

/-- **C50.** Parallel `rolling_vals`. -/
theorem C50_rolling_vals (nan : K) (window : ℕ) (minCount : ℤ) (n : ℕ) {x : P → ℕ → XA}
    {w : P → ℕ → A} {out : P → ℕ → I → A} {tmp : P → I → A}
    (hl : ScratchLayout ck.idx n tmp out (fun p => vcells vc n (x p) ∪ cells n (w p)))
    (hr : Reaches (start (fun p => @CellKernel.gRollingVals A K X XA I (exact K) ck ltK nan window
      minCount n (x p) (w p) (tmp p) (out p)) assign m) c)
    (hd : c.Done) {p : P} (hp : p ∈ ps) {rs : List (Option M)}
    (h : k.rollingValsKernel window minCount ((List.range n).map fun i =>
      (val (x p i) m, m (w p i))) = some rs) :
    rs.length = n ∧ ∀ i (hi : i < rs.length),
      StoredRow ck.idx entry nan (out p i) c.mem rs[i] :=
  par_rows hl (fun _ => @gRollingVals_within A K X XA I (exact K) ck vc R.foot ..) ha hps m hr hd hp
    (gRollingVals_shows R nan window minCount (scratch_places hl p) h)

/-- **C50.** Parallel `rolling_exp_data`; `minPeriods` is the argument of `rolling_exp_data`. -/
theorem C50_rolling_exp_data (adjust : Bool) (nan : K) (minPeriods : Option ℤ) (n : ℕ)
    {alpha : P → ℕ → A} {data out : P → ℕ → I → A} {tmp : P → I → A}
    (hl : ScratchLayout ck.idx n tmp out (fun p => cells n (alpha p) ∪ rowsC ck n (data p)))
    (hr : Reaches (start (fun p => @CellKernel.gRollingExpData A K X XA I (exact K) ck adjust nan
      (max (max 1 (minPeriods.getD 1)) 1) n (alpha p) (data p) (tmp p) (out p)) assign m) c)
    (hd : c.Done) {p : P} (hp : p ∈ ps) {d : ℕ → M}
    (hdat : ∀ i < n, Stored ck.idx entry (data p i) m (d i)) {rs : List (Option M)}
    (h : k.rollingExpData adjust minPeriods ((List.range n).map fun i => m (alpha p i))
      ((List.range n).map d) = some rs) :
    rs.length = n ∧ ∀ i (hi : i < rs.length),
      StoredRow ck.idx entry nan (out p i) c.mem rs[i] := by
  obtain ⟨⟨rs', s1⟩, hsc, rfl⟩ := Option.map_eq_some_iff.1 h
  exact par_rows hl (fun _ => @gRollingExpData_within A K X XA I (exact K) ck vc R.foot ..) ha hps m
    hr hd hp (gRollingExpData_shows R adjust nan _ (scratch_places hl p) hdat hsc)

/-- **C50.** Parallel `rolling_exp_vals`. -/
theorem C50_rolling_exp_vals (adjust : Bool) (nan : K) (minPeriods : Option ℤ) (n : ℕ)
    {alpha : P → ℕ → A} {x : P → ℕ → XA} {w : P → ℕ → A} {out : P → ℕ → I → A} {tmp : P → I → A}
    (hl : ScratchLayout ck.idx n tmp out
      (fun p => cells n (alpha p) ∪ (vcells vc n (x p) ∪ cells n (w p))))
    (hr : Reaches (start (fun p => @CellKernel.gRollingExpVals A K X XA I (exact K) ck adjust nan
      (max (max 1 (minPeriods.getD 1)) 1) n (alpha p) (x p) (w p) (tmp p) (out p)) assign m) c)
    (hd : c.Done) {p : P} (hp : p ∈ ps) {rs : List (Option M)}
    (h : k.rollingExpVals adjust minPeriods ((List.range n).map fun i => m (alpha p i))
      ((List.range n).map fun i => (val (x p i) m, m (w p i))) = some rs) :
    rs.length = n ∧ ∀ i (hi : i < rs.length),
      StoredRow ck.idx entry nan (out p i) c.mem rs[i] := by
  obtain ⟨⟨rs', s1⟩, hsc, rfl⟩ := Option.map_eq_some_iff.1 h
  exact par_rows hl (fun _ => @gRollingExpVals_within A K X XA I (exact K) ck vc R.foot ..) ha hps m
    hr hd hp (gRollingExpVals_shows R adjust nan _ (scratch_places hl p) hsc)

omit R ha hps

/-- The layout hypotheses are met for any sizes: cells are (position, which array, row, entry). -/
example (order n : ℕ) : ScratchLayout (A := ℕ × ℕ × ℕ × ℕ)
    (@cell1 (ℕ × ℕ × ℕ × ℕ) ℚ (exact ℚ) order).idx n (fun p i => (p, 1, 0, i))
    (fun p r i => (p, 2, r, i)) (fun p => rowsC (@cell1 (ℕ × ℕ × ℕ × ℕ) ℚ (exact ℚ) order) n
      (fun r i => (p, 0, r, i))) := by
  refine ⟨⟨?_, ?_, ?_⟩, ?_, ?_, ?_, ?_⟩
  · intro p r _ r' _ i _ j _ h
    simpa using h
  · intro p q hpq r _ r' _ i _ j _ h
    exact hpq (Prod.mk.inj h).1
  · rintro p q r _ i _ ⟨_, _, _, _, h⟩
    simp at h
  · intro p i _ j _ h
    simpa using h
  · intro p q hpq i _ j _ h
    exact hpq (Prod.mk.inj h).1
  · intro p q i _ r _ j _ h
    simp at h
  · rintro p q i _ ⟨_, _, _, _, h⟩
    simp at h

/-- One position, window 2, minimum 2: rows `nan`, the first two samples, the last two samples. -/
example : let r := (@CellKernel.gRollingData (ℕ × ℕ × ℕ) ℚ ℚ (ℕ × ℕ × ℕ) ℕ (exact ℚ)
      (@cell1 (ℕ × ℕ × ℕ) ℚ (exact ℚ) 1) ltK (-99) 2 2 3 (fun r i => (0, r, i)) (fun i => (1, 0, i))
      (fun r i => (2, r, i))).run (fun a => if a.1 = 0 then
        (if a.2.2 = 0 then 1 else ([1, 2, 6] : List ℚ).getD a.2.1 0) else 7)
    r.2 (2, 0, 1) = -99 ∧ r.2 (2, 1, 0) = 2 ∧ r.2 (2, 1, 1) = 3 / 2 ∧ r.2 (2, 2, 1) = 4 := by
  decide +kernel

end Cmomy
