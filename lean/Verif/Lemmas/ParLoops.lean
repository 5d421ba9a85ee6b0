import Verif.Lemmas.ParKernels
import Verif.Model.ParLoops
import Verif.Model.Grouped
import Mathlib.Data.List.Range
import Mathlib.Data.List.GetD

set_option linter.unusedSectionVars false

/-! Helper lemmas: the vectorised loops, cell by cell. -/

namespace Cmomy.Par

variable {A V X XA I α : Type}

/-- Cells of one moment array. -/
def winC (k : CellKernel A V X XA I) (out : I → A) : Set A := {a | ∃ i ∈ k.idx, out i = a}

/-- Cells of a stack of `n` arrays. -/
def rowsC (k : CellKernel A V X XA I) (n : ℕ) (out : ℕ → I → A) : Set A :=
  {a | ∃ r < n, ∃ i ∈ k.idx, out r i = a}

/-- Cells `0..n-1` of a vector. -/
def cells (n : ℕ) (x : ℕ → A) : Set A := {a | ∃ i < n, x i = a}

/-- What the pushers touch. -/
structure Footprint (k : CellKernel A V X XA I) (vc : XA → Set A) : Prop where
  nodup : k.idx.Nodup
  w0_mem : k.w0 ∈ k.idx
  getVal : ∀ x, (k.getVal x).Within (vc x) ∅
  pushVal : ∀ x w out, (k.pushVal x w out).Within (winC k out) (winC k out)
  pushData : ∀ data out, (k.pushData data out).Within (winC k data ∪ winC k out) (winC k out)
  pushScale : ∀ data s out,
    (k.pushScale data s out).Within (winC k data ∪ winC k out) (winC k out)

/-- Cells of a vector of values. -/
def vcells (vc : XA → Set A) (n : ℕ) (x : ℕ → XA) : Set A := {a | ∃ i < n, a ∈ vc (x i)}

theorem mem_winC {k : CellKernel A V X XA I} (out : I → A) {i : I} (h : i ∈ k.idx) :
    out i ∈ winC k out := ⟨i, h, rfl⟩

theorem winC_sub_rowsC {k : CellKernel A V X XA I} {n r : ℕ} (out : ℕ → I → A) (h : r < n) :
    winC k (out r) ⊆ rowsC k n out := by
  rintro _ ⟨i, hi, rfl⟩
  exact ⟨r, h, i, hi, rfl⟩

section within

variable {k : CellKernel A V X XA I} {vc : XA → Set A}

theorem gPushVal_within (hk : Footprint k vc) (x : XA) (w : A) (out : I → A) :
    (k.gPushVal x w out).Within (vc x ∪ {w} ∪ winC k out) (winC k out) :=
  ((hk.getVal x).mono (fun _ h => Or.inl (Or.inl h)) (Set.empty_subset _)).bind fun _ =>
    (within_get (show w ∈ _ from Or.inl (Or.inr rfl))).bind fun _ =>
    (hk.pushVal _ _ _).mono Set.subset_union_right subset_rfl

theorem gPushData_within (hk : Footprint k vc) (data out : I → A) :
    (k.gPushData data out).Within (winC k data ∪ winC k out) (winC k out) := hk.pushData _ _

theorem gPushScale_within (hk : Footprint k vc) (data : I → A) (s : A) (out : I → A) :
    (k.gPushScale data s out).Within ({s} ∪ winC k data ∪ winC k out) (winC k out) :=
  (within_get (show s ∈ _ from Or.inl (Or.inl rfl))).bind fun _ =>
    (hk.pushScale _ _ _).mono (Set.union_subset_union_left _ Set.subset_union_right) subset_rfl

theorem gReduceVals_within (hk : Footprint k vc) (n : ℕ) (x : ℕ → XA) (w : ℕ → A) (out : I → A) :
    (k.gReduceVals n x w out).Within (vcells vc n x ∪ cells n w ∪ winC k out) (winC k out) :=
  Prog.Within.foldlM _ _ fun _ i hi => (gPushVal_within hk (x i) (w i) out).mono
    (Set.union_subset_union_left _ (Set.union_subset_union
      (fun _ h => show ∃ _, _ from ⟨i, List.mem_range.1 hi, h⟩)
      (by rintro _ rfl; exact ⟨i, List.mem_range.1 hi, rfl⟩))) subset_rfl

theorem gReduceData_within (hk : Footprint k vc) (n : ℕ) (data : ℕ → I → A) (out : I → A) :
    (k.gReduceData n data out).Within (rowsC k n data ∪ winC k out) (winC k out) :=
  Prog.Within.foldlM _ _ fun _ _ hi => (hk.pushData _ _).mono
    (Set.union_subset_union_left _ (winC_sub_rowsC data (List.mem_range.1 hi))) subset_rfl

theorem gCopy_within (k : CellKernel A V X XA I) (data out : I → A) :
    (k.gCopy data out).Within (winC k data) (winC k out) :=
  Prog.Within.foldlM _ _ fun _ _ hi =>
    (within_get (mem_winC _ hi)).bind fun _ => within_put _ (mem_winC _ hi)

variable [Arith V]

theorem gZero_within (k : CellKernel A V X XA I) (out : I → A) (R : Set A) :
    (k.gZero out).Within R (winC k out) :=
  Prog.Within.foldlM _ _ fun _ _ hi => within_put _ (mem_winC _ hi)

theorem gReduceDataFromzero_within (hk : Footprint k vc) (n : ℕ) (data : ℕ → I → A) (out : I → A) :
    (k.gReduceDataFromzero n data out).Within (rowsC k n data ∪ winC k out) (winC k out) :=
  (gZero_within k out _).bind fun _ => gReduceData_within hk n data out

theorem gCumulative_within (hk : Footprint k vc) (n : ℕ) (data out : ℕ → I → A) :
    (k.gCumulative n data out).Within (rowsC k n data ∪ rowsC k n out) (rowsC k n out) := by
  refine (Prog.Within.foldlM _ _ fun _ i hi => ?_).bind fun _ =>
    Prog.Within.foldlM _ _ fun _ i hi => ?_
  · rw [List.mem_range] at hi
    exact (gCopy_within k _ _).mono (fun _ h => Or.inl (winC_sub_rowsC _ hi h))
      (winC_sub_rowsC _ hi)
  · rw [List.mem_range'_1] at hi
    refine (hk.pushData _ _).mono ?_ (winC_sub_rowsC _ (by omega))
    exact Set.union_subset (fun _ h => Or.inr (winC_sub_rowsC out (by omega) h))
      (fun _ h => Or.inr (winC_sub_rowsC out (by omega) h))

theorem gCumulativeInverse_within (hk : Footprint k vc) (n : ℕ) (data out : ℕ → I → A) :
    (k.gCumulativeInverse n data out).Within (rowsC k n data ∪ rowsC k n out)
      (rowsC k n out) := by
  refine (Prog.Within.foldlM _ _ fun _ i hi => ?_).bind fun _ =>
    Prog.Within.foldlM _ _ fun _ i hi => ?_
  · rw [List.mem_range] at hi
    exact (gCopy_within k _ _).mono (fun _ h => Or.inl (winC_sub_rowsC _ hi h))
      (winC_sub_rowsC _ hi)
  · rw [List.mem_range'_1] at hi
    refine (hk.pushScale _ _ _).mono ?_ (winC_sub_rowsC _ (by omega))
    exact Set.union_subset (fun _ h => Or.inl (winC_sub_rowsC data (by omega) h))
      (fun _ h => Or.inr (winC_sub_rowsC out (by omega) h))

theorem gReduceGrouped_within (hk : Footprint k vc) (group : List ℤ) (ngroup : ℕ)
    (hg : ∀ g ∈ group, g < ngroup) (data out : ℕ → I → A) :
    (k.gReduceGrouped group data out).Within
      (rowsC k group.length data ∪ rowsC k ngroup out) (rowsC k ngroup out) := by
  refine Prog.Within.foldlM _ _ fun _ s hs => ?_
  rw [List.mem_range] at hs
  dsimp only
  split_ifs with h
  · rw [List.getD_eq_getElem _ _ hs] at h ⊢
    have := hg _ (List.getElem_mem hs)
    have hlt : (group[s]).toNat < ngroup := by omega
    exact (hk.pushData _ _).mono (Set.union_subset_union (winC_sub_rowsC _ hs)
      (winC_sub_rowsC _ hlt)) (winC_sub_rowsC _ hlt)
  · exact .pure _

theorem gIndexedRow_within (hk : Footprint k vc) {index : List ℤ} {start stop : ℤ} {ndat : ℕ}
    (hi : ∀ i ∈ index, 0 ≤ i ∧ i < ndat) (h0 : 0 ≤ start) (h1 : stop ≤ index.length)
    (scale : ℕ → A) (data : ℕ → I → A) (out : I → A) :
    (k.gIndexedRow index start stop scale data out).Within
      (cells index.length scale ∪ rowsC k ndat data ∪ winC k out) (winC k out) := by
  unfold CellKernel.gIndexedRow
  have hidx : ∀ j, j < index.length → (index.getD j 0).toNat < ndat := by
    intro j hj
    rw [List.getD_eq_getElem _ _ hj]
    have := hi _ (List.getElem_mem hj)
    omega
  split_ifs with h
  · refine (within_get (show scale start.toNat ∈ _ from Or.inl (Or.inl ⟨start.toNat, by omega, rfl⟩))).bind fun _ =>
      ((gCopy_within k _ _).mono
        (fun _ ha => Or.inl (Or.inr (winC_sub_rowsC _ (hidx _ (by omega)) ha))) subset_rfl).bind
      fun _ => (within_get (show out k.w0 ∈ _ from Or.inr (mem_winC _ hk.w0_mem))).bind fun _ =>
      (within_put _ (mem_winC _ hk.w0_mem)).bind fun _ => Prog.Within.foldlM _ _ fun _ j hj => ?_
    rw [List.mem_range'_1] at hj
    refine (within_get (show scale j ∈ _ from Or.inl (Or.inl ⟨j, by omega, rfl⟩))).bind fun _ => (hk.pushScale _ _ _).mono
      (Set.union_subset_union_left _ (fun _ ha => Or.inr (winC_sub_rowsC _ (hidx _ (by omega)) ha)))
      subset_rfl
  · exact .pure _

/-- The index arrays stay inside the data, see `validateIndex_iff`. -/
structure InRange (ndat : ℕ) (index start stop : List ℤ) : Prop where
  len : start.length = stop.length
  inside : ∀ i ∈ index, 0 ≤ i ∧ i < ndat
  lo : ∀ g < start.length, 0 ≤ start.getD g 0
  hi : ∀ g < start.length, stop.getD g 0 ≤ index.length

theorem gReduceIndexed_within (hk : Footprint k vc) {index start stop : List ℤ} {ndat : ℕ}
    (hr : InRange ndat index start stop) (scale : ℕ → A) (data out : ℕ → I → A) :
    (k.gReduceIndexed index start stop scale data out).Within
      (cells index.length scale ∪ rowsC k ndat data ∪ rowsC k start.length out)
      (rowsC k start.length out) := by
  refine (Prog.Within.foldlM _ _ fun _ g hg => ?_).bind fun _ =>
    Prog.Within.foldlM _ _ fun _ g hg => ?_ <;> rw [List.mem_range] at hg
  · exact (gZero_within k _ _).mono subset_rfl (winC_sub_rowsC _ hg)
  · exact (gIndexedRow_within hk hr.inside (hr.lo g hg) (hr.hi g hg) _ _ _).mono
      (Set.union_subset_union_right _ (winC_sub_rowsC _ hg)) (winC_sub_rowsC _ hg)

theorem gResampleFirst_within (hk : Footprint k vc) {nsamp : ℕ} (freq : ℕ → A) (data : ℕ → I → A)
    (out : I → A) (l : List ℕ) (hl : ∀ i ∈ l, i < nsamp) :
    (k.gResampleFirst freq data out l).Within
      (cells nsamp freq ∪ rowsC k nsamp data ∪ winC k out) (winC k out) := by
  induction l with
  | nil => exact .pure _
  | cons i l ih =>
    have hi := hl i List.mem_cons_self
    refine (within_get (show freq i ∈ _ from Or.inl (Or.inl ⟨i, hi, rfl⟩))).bind fun f => ?_
    split_ifs with h
    · exact ih fun j hj => hl j (List.mem_cons_of_mem _ hj)
    · exact ((gCopy_within k _ _).mono
        (fun _ ha => Or.inl (Or.inr (winC_sub_rowsC _ hi ha))) subset_rfl).bind
        fun _ => (within_get (show out k.w0 ∈ _ from Or.inr (mem_winC _ hk.w0_mem))).bind fun _ =>
        (within_put _ (mem_winC _ hk.w0_mem)).bind fun _ => .pure _

theorem gResampleRow_within (hk : Footprint k vc) (nsamp : ℕ) (freq : ℕ → A) (data : ℕ → I → A)
    (out : I → A) :
    (k.gResampleRow nsamp freq data out).Within
      (cells nsamp freq ∪ rowsC k nsamp data ∪ winC k out) (winC k out) := by
  refine (gResampleFirst_within hk freq data out _ fun i hi => List.mem_range.1 hi).bind
    fun first => ?_
  cases first with
  | none => exact .pure _
  | some i0 =>
    refine Prog.Within.foldlM _ _ fun _ i hi => ?_
    rw [List.mem_range'_1] at hi
    refine (within_get (show freq i ∈ _ from Or.inl (Or.inl ⟨i, by omega, rfl⟩))).bind fun _ => ?_
    split_ifs
    · exact .pure _
    · exact (hk.pushScale _ _ _).mono (Set.union_subset_union_left _
        (fun _ ha => Or.inr (winC_sub_rowsC _ (by omega) ha))) subset_rfl

/-- Cells of the frequency table. -/
def table (nrep nsamp : ℕ) (freq : ℕ → ℕ → A) : Set A :=
  {a | ∃ r < nrep, ∃ i < nsamp, freq r i = a}

theorem cells_sub_table {nrep nsamp r : ℕ} (freq : ℕ → ℕ → A) (h : r < nrep) :
    cells nsamp (freq r) ⊆ table nrep nsamp freq := by
  rintro _ ⟨i, hi, rfl⟩
  exact ⟨r, h, i, hi, rfl⟩

theorem gResampleData_within (hk : Footprint k vc) (nrep nsamp : ℕ) (freq : ℕ → ℕ → A)
    (data out : ℕ → I → A) :
    (k.gResampleData nrep nsamp freq data out).Within
      (table nrep nsamp freq ∪ rowsC k nsamp data ∪ rowsC k nrep out) (rowsC k nrep out) := by
  refine (Prog.Within.foldlM _ _ fun _ g hg => ?_).bind fun _ =>
    Prog.Within.foldlM _ _ fun _ g hg => ?_ <;> rw [List.mem_range] at hg
  · exact (gZero_within k _ _).mono subset_rfl (winC_sub_rowsC _ hg)
  · exact (gResampleRow_within hk nsamp _ _ _).mono (Set.union_subset_union
      (Set.union_subset_union_left _ (cells_sub_table freq hg)) (winC_sub_rowsC _ hg))
      (winC_sub_rowsC _ hg)

theorem gResampleValsRow_within (hk : Footprint k vc) (nsamp : ℕ) (freq : ℕ → A) (x : ℕ → XA)
    (w : ℕ → A) (out : I → A) :
    (k.gResampleValsRow nsamp freq x w out).Within
      (cells nsamp freq ∪ (vcells vc nsamp x ∪ cells nsamp w) ∪ winC k out) (winC k out) := by
  refine Prog.Within.foldlM _ _ fun _ i hi => ?_
  rw [List.mem_range] at hi
  refine (within_get (show freq i ∈ _ from Or.inl (Or.inl ⟨i, hi, rfl⟩))).bind fun _ => ?_
  split_ifs
  · exact .pure _
  · exact ((hk.getVal _).mono (fun _ h => Or.inl (Or.inr (Or.inl ⟨i, hi, h⟩)))
      (Set.empty_subset _)).bind fun _ =>
      (within_get (show w i ∈ _ from Or.inl (Or.inr (Or.inr ⟨i, hi, rfl⟩)))).bind fun _ =>
      (hk.pushVal _ _ _).mono Set.subset_union_right subset_rfl

theorem gResampleVals_within (hk : Footprint k vc) (nrep nsamp : ℕ) (freq : ℕ → ℕ → A)
    (x : ℕ → XA) (w : ℕ → A) (out : ℕ → I → A) :
    (k.gResampleVals nrep nsamp freq x w out).Within
      (table nrep nsamp freq ∪ (vcells vc nsamp x ∪ cells nsamp w) ∪ rowsC k nrep out)
      (rowsC k nrep out) := by
  refine Prog.Within.foldlM _ _ fun _ g hg => ?_
  rw [List.mem_range] at hg
  exact (gResampleValsRow_within hk nsamp _ _ _ _).mono (Set.union_subset_union
    (Set.union_subset_union_left _ (cells_sub_table freq hg)) (winC_sub_rowsC _ hg))
    (winC_sub_rowsC _ hg)

theorem gJackknifeData_within (hk : Footprint k vc) (n : ℕ) (reduced : I → A)
    (data out : ℕ → I → A) :
    (k.gJackknifeData n reduced data out).Within
      (winC k reduced ∪ rowsC k n data ∪ rowsC k n out) (rowsC k n out) := by
  refine (Prog.Within.foldlM _ _ fun _ g hg => ?_).bind fun _ =>
    Prog.Within.foldlM _ _ fun _ g hg => ?_ <;> rw [List.mem_range] at hg
  · exact (gCopy_within k _ _).mono (fun _ h => Or.inl (Or.inl h)) (winC_sub_rowsC _ hg)
  · exact (hk.pushScale _ _ _).mono (Set.union_subset_union
      (fun _ h => Or.inr (winC_sub_rowsC _ hg h)) (winC_sub_rowsC _ hg)) (winC_sub_rowsC _ hg)

theorem gJackknifeVals_within (hk : Footprint k vc) (n : ℕ) (reduced : I → A) (x : ℕ → XA)
    (w : ℕ → A) (out : ℕ → I → A) :
    (k.gJackknifeVals n reduced x w out).Within
      (winC k reduced ∪ (vcells vc n x ∪ cells n w) ∪ rowsC k n out) (rowsC k n out) := by
  refine (Prog.Within.foldlM _ _ fun _ g hg => ?_).bind fun _ =>
    Prog.Within.foldlM _ _ fun _ g hg => ?_ <;> rw [List.mem_range] at hg
  · exact (gCopy_within k _ _).mono (fun _ h => Or.inl (Or.inl h)) (winC_sub_rowsC _ hg)
  · exact ((hk.getVal _).mono (fun _ h => Or.inl (Or.inr (Or.inl ⟨g, hg, h⟩)))
      (Set.empty_subset _)).bind fun _ =>
      (within_get (show w g ∈ _ from Or.inl (Or.inr (Or.inr ⟨g, hg, rfl⟩)))).bind fun _ =>
      (hk.pushVal _ _ _).mono (fun _ h => Or.inr (winC_sub_rowsC _ hg h)) (winC_sub_rowsC _ hg)

end within

theorem footprint1 [Arith V] {order : ℕ} (ho : 1 ≤ order) :
    Footprint (cell1 order : CellKernel A V V A ℕ) (fun x => {x}) := by
  have hw : ∀ out : ℕ → A, winC (cell1 order : CellKernel A V V A ℕ) out = win order out := by
    intro out
    ext a
    simp only [winC, win, cell1, List.mem_range, Set.mem_ofPred_eq, Nat.lt_succ_iff]
  refine ⟨List.nodup_range, ?_, fun x => within_get rfl, ?_, ?_, ?_⟩
  · exact List.mem_range.2 (show 0 < order + 1 by omega)
  · intro x w out
    rw [hw]
    exact pushValP_within ho _ _ _
  · intro data out
    rw [hw, hw]
    exact pushDataP_within ho _ _
  · intro data s out
    rw [hw, hw]
    exact pushDataScaleP_within ho _ _ _

theorem mem_idx2 [Arith V] {o0 o1 i j : ℕ} :
    (i, j) ∈ (cell2 o0 o1 : CellKernel A V (V × V) (A × A) (ℕ × ℕ)).idx ↔ i ≤ o0 ∧ j ≤ o1 := by
  simp only [cell2, List.mem_flatMap, List.mem_map, List.mem_range, Prod.mk.injEq]
  constructor
  · rintro ⟨a, ha, b, hb, rfl, rfl⟩
    omega
  · rintro ⟨h0, h1⟩
    exact ⟨i, by omega, j, by omega, rfl, rfl⟩

theorem footprint2 [Arith V] {o0 o1 : ℕ} (h0 : 1 ≤ o0) (h1 : 1 ≤ o1) :
    Footprint (cell2 o0 o1 : CellKernel A V (V × V) (A × A) (ℕ × ℕ)) (fun x => {x.1, x.2}) := by
  have hw : ∀ out : ℕ × ℕ → A, winC (cell2 o0 o1 : CellKernel A V (V × V) (A × A) (ℕ × ℕ)) out =
      win2 o0 o1 (fun i j => out (i, j)) := by
    intro out
    ext a
    simp only [winC, win2, Prod.exists, mem_idx2, Set.mem_ofPred_eq, and_assoc]
  refine ⟨List.Nodup.product List.nodup_range List.nodup_range, mem_idx2.2 ⟨by omega, by omega⟩,
    fun x => ?_, ?_, ?_, ?_⟩
  · exact (within_get (show x.1 ∈ _ from Or.inl rfl)).bind fun _ => (within_get (show x.2 ∈ _ from Or.inr rfl)).bind fun _ => .pure _
  · intro x w out
    rw [hw]
    exact pushValCovP_within h0 h1 _ _ _ _
  · intro data out
    rw [hw, hw]
    exact pushDataCovP_within h0 h1 _ _
  · intro data s out
    rw [hw, hw]
    exact pushDataScaleCovP_within h0 h1 _ _ _

/-! ### Values -/

section values

variable [DecidableEq A]

theorem run_agree {R W : Set A} {p : Prog A V α} (h : p.Within R W) {m m' : A → V}
    (hR : ∀ a ∈ R, m a = m' a) :
    (p.run m).1 = (p.run m').1 ∧ ∀ a, m a = m' a → (p.run m).2 a = (p.run m').2 a := by
  induction p generalizing m m' with
  | ret x => exact ⟨rfl, fun _ h => h⟩
  | load b k ih =>
    change ((k (m b)).run m).1 = ((k (m' b)).run m').1 ∧ ∀ a, _ → ((k (m b)).run m).2 a =
      ((k (m' b)).run m').2 a
    rw [hR b h.1]
    exact ih _ (h.2 _) hR
  | store b v k ih =>
    change (k.run (Function.update m b v)).1 = (k.run (Function.update m' b v)).1 ∧ ∀ a, _ →
      (k.run (Function.update m b v)).2 a = (k.run (Function.update m' b v)).2 a
    have key : ∀ a, m a = m' a → Function.update m b v a = Function.update m' b v a := by
      intro a ha
      by_cases e : a = b
      · subst e; simp
      · rw [Function.update_of_ne e, Function.update_of_ne e, ha]
    obtain ⟨h1, h2⟩ := ih h.2 (m := Function.update m b v) (m' := Function.update m' b v)
      (fun a ha => key a (hR a ha))
    exact ⟨h1, fun a ha => h2 a (key a ha)⟩

theorem run_foldlM_append {ι : Type} {f : Unit → ι → Prog A V Unit} (l l' : List ι) (m : A → V) :
    (((l ++ l').foldlM f ()).run m).2 = ((l'.foldlM f ()).run ((l.foldlM f ()).run m).2).2 := by
  induction l generalizing m with
  | nil => rfl
  | cons x l ih =>
    rw [List.cons_append, List.foldlM_cons, List.foldlM_cons, run_bind, run_bind]
    exact ih _

theorem foldlM_alone {ι : Type} {prog : ι → Prog A V Unit} {R W : ι → Set A} (l : List ι)
    (hn : l.Nodup) (hw : ∀ x ∈ l, (prog x).Within (R x) (W x))
    (hi : ∀ x ∈ l, ∀ y ∈ l, x ≠ y → Disjoint (W x) (R y ∪ W y)) (m : A → V) {x : ι} (hx : x ∈ l)
    {a : A} (ha : a ∈ W x) :
    ((l.foldlM (fun _ x => prog x) ()).run m).2 a = ((prog x).run m).2 a := by
  induction l generalizing m with
  | nil => simp at hx
  | cons y l ih =>
    rw [List.foldlM_cons, run_bind]
    obtain ⟨hy, hn⟩ := List.nodup_cons.1 hn
    rcases List.mem_cons.1 hx with rfl | hx
    · refine run_unwritten (W := ⋃ z ∈ l, W z) (R := ⋃ z ∈ l, R z) ?_ ?_ _
      · refine Prog.Within.foldlM _ _ fun _ z hz => (hw z (List.mem_cons_of_mem _ hz)).mono ?_ ?_
        · exact fun b hb => Set.mem_biUnion hz hb
        · exact fun b hb => Set.mem_biUnion hz hb
      · intro h
        obtain ⟨z, hz, hb⟩ := Set.mem_iUnion₂.1 h
        refine Set.disjoint_left.1 (hi x List.mem_cons_self z (List.mem_cons_of_mem _ hz) ?_) ha
          (Or.inr hb)
        rintro rfl
        exact hy hz
    · rw [ih hn (fun z hz => hw z (List.mem_cons_of_mem _ hz))
        (fun z hz u hu => hi z (List.mem_cons_of_mem _ hz) u (List.mem_cons_of_mem _ hu)) _ hx]
      have hyx : y ≠ x := by rintro rfl; exact hy hx
      have keep : ∀ b ∈ R x ∪ W x, ((prog y).run m).2 b = m b := fun b hb =>
        run_unwritten (hw y List.mem_cons_self)
          (fun h => Set.disjoint_left.1
            (hi y List.mem_cons_self x (List.mem_cons_of_mem _ hx) hyx) h hb) m
      exact (run_agree (hw x (List.mem_cons_of_mem _ hx)) fun b hb => keep b (Or.inl hb)).2 a
        (keep a (Or.inr ha))

variable {K M : Type} [Field K] [DecidableEq K]

/-- The memory holds the array in the cells `out`. -/
def ShowsC (k : CellKernel A K X XA I) (v : M → I → K) (out : I → A) (m : A → K) (s : M) : Prop :=
  ∀ i ∈ k.idx, m (out i) = v s i

/-- Different entries are different cells. -/
def DistinctC (k : CellKernel A K X XA I) (out : I → A) : Prop :=
  ∀ i ∈ k.idx, ∀ j ∈ k.idx, out i = out j → i = j

/-- The cell kernel `ck` computes the array kernel `k`; `v` reads an entry of an array, `val` reads a
value from its cells. -/
structure Refines (ck : CellKernel A K X XA I) (k : Kernel K X M) (v : M → I → K)
    (val : XA → (A → K) → X) (vc : XA → Set A) : Prop where
  foot : Footprint ck vc
  getVal : ∀ x m, (ck.getVal x).run m = (val x m, m)
  val_congr : ∀ x m m', (∀ a ∈ vc x, m a = m' a) → val x m = val x m'
  zero : ∀ i, v k.zero i = 0
  weight : ∀ s, v s ck.w0 = k.weight s
  mul_w0 : ∀ s f, v (k.mulWeight s f) ck.w0 = v s ck.w0 * f
  mul_ne : ∀ s f i, i ≠ ck.w0 → v (k.mulWeight s f) i = v s i
  pushVal : ∀ {out : I → A} {m : A → K} {s r : M} (x : X) (w : K), DistinctC ck out →
    ShowsC ck v out m s → k.pushVal x w s = some r →
    ShowsC ck v out ((ck.pushVal x w out).run m).2 r
  pushData : ∀ {data out : I → A} {m : A → K} {d s r : M}, DistinctC ck out →
    Disjoint (winC ck data) (winC ck out) → ShowsC ck v data m d → ShowsC ck v out m s →
    k.pushData d s = some r → ShowsC ck v out ((ck.pushData data out).run m).2 r
  pushScale : ∀ {data out : I → A} {m : A → K} {d s r : M} (f : K), DistinctC ck out →
    Disjoint (winC ck data) (winC ck out) → ShowsC ck v data m d → ShowsC ck v out m s →
    k.pushScale d f s = some r → ShowsC ck v out ((ck.pushScale data f out).run m).2 r

theorem refines1 {order : ℕ} (ho : 1 ≤ order) :
    Refines (@cell1 A K (exact K) order) (kernel1 order) (fun s i => s i) (fun x m => m x)
      (fun x => {x}) := by
  have e : ∀ out : ℕ → A, DistinctC (@cell1 A K (exact K) order) out → Distinct order out :=
    fun out h i j hi hj => h i (List.mem_range.2 (by omega)) j (List.mem_range.2 (by omega))
  have s1 : ∀ (out : ℕ → A) m (s : Mom K), ShowsC (@cell1 A K (exact K) order) (fun s i => s i) out
      m s ↔ Shows order out m s := fun out m s =>
    ⟨fun h i hi => h i (List.mem_range.2 (by omega)),
      fun h i hi => h i (by have := List.mem_range.1 hi; omega)⟩
  have sep : ∀ data out : ℕ → A, Disjoint (winC (@cell1 A K (exact K) order) data)
      (winC (@cell1 A K (exact K) order) out) → Separate order data out := by
    intro data out h i j hi hj e
    exact Set.disjoint_left.1 h ⟨i, List.mem_range.2 (by omega), rfl⟩
      ⟨j, List.mem_range.2 (by omega), e.symm⟩
  refine ⟨@footprint1 A K (exact K) order ho, fun _ _ => rfl, fun x m m' h => h x rfl,
    fun _ => rfl, fun _ => rfl, fun s f => ?_, fun s f i hi => ?_, ?_, ?_, ?_⟩
  · exact Function.update_self (β := fun _ => K) 0 (s 0 * f) s
  · exact Function.update_of_ne (β := fun _ => K) hi (s 0 * f) s
  · intro out m s r x w hd hs hr
    rw [s1] at hs ⊢
    exact pushValP_shows ho (e _ hd) _ _ hs hr
  · intro data out m d s r hd hsep hdat hs hr
    rw [s1] at hs hdat ⊢
    exact pushDataP_shows ho (e _ hd) (sep _ _ hsep) hdat hs hr
  · intro data out m d s r f hd hsep hdat hs hr
    rw [s1] at hs hdat ⊢
    exact pushDataScaleP_shows ho (e _ hd) (sep _ _ hsep) f hdat hs hr

theorem refines2 {o0 o1 : ℕ} (h0 : 1 ≤ o0) (h1 : 1 ≤ o1) :
    Refines (@cell2 A K (exact K) o0 o1) (kernel2 o0 o1) (fun s i => s i.1 i.2)
      (fun x m => (m x.1, m x.2)) (fun x => {x.1, x.2}) := by
  have e : ∀ out : ℕ × ℕ → A, DistinctC (@cell2 A K (exact K) o0 o1) out →
      Distinct2 o0 o1 (fun i j => out (i, j)) := by
    intro out h i j i' j' hi hj hi' hj' e
    have := h (i, j) ((@mem_idx2 A K (exact K) ..).2 ⟨hi, hj⟩) (i', j')
      ((@mem_idx2 A K (exact K) ..).2 ⟨hi', hj'⟩) e
    exact ⟨congrArg Prod.fst this, congrArg Prod.snd this⟩
  have s1 : ∀ (out : ℕ × ℕ → A) m (s : Com K),
      ShowsC (@cell2 A K (exact K) o0 o1) (fun s i => s i.1 i.2) out m s ↔
      Shows2 o0 o1 (fun i j => out (i, j)) m s := fun out m s =>
    ⟨fun h i j hi hj => h (i, j) ((@mem_idx2 A K (exact K) ..).2 ⟨hi, hj⟩),
      fun h i hi => h i.1 i.2 ((@mem_idx2 A K (exact K) ..).1 hi).1
        ((@mem_idx2 A K (exact K) ..).1 hi).2⟩
  have sep : ∀ data out : ℕ × ℕ → A, Disjoint (winC (@cell2 A K (exact K) o0 o1) data)
      (winC (@cell2 A K (exact K) o0 o1) out) →
      Separate2 o0 o1 (fun i j => data (i, j)) (fun i j => out (i, j)) := by
    intro data out h i j i' j' hi hj hi' hj' e
    exact Set.disjoint_left.1 h ⟨(i, j), (@mem_idx2 A K (exact K) ..).2 ⟨hi, hj⟩, rfl⟩
      ⟨(i', j'), (@mem_idx2 A K (exact K) ..).2 ⟨hi', hj'⟩, e.symm⟩
  refine ⟨@footprint2 A K (exact K) o0 o1 h0 h1, fun _ _ => rfl, fun x m m' h => ?_,
    fun _ => rfl, fun _ => rfl, fun s f => ?_, fun s f i hi => ?_, ?_, ?_, ?_⟩
  · rw [h x.1 (Or.inl rfl), h x.2 (Or.inr rfl)]
  · change setAt s 0 0 (s 0 0 * f) 0 0 = s 0 0 * f
    simp [setAt]
  · change setAt s 0 0 (s 0 0 * f) i.1 i.2 = s i.1 i.2
    unfold setAt
    by_cases a : i.1 = 0
    · by_cases b : i.2 = 0
      · exact absurd (Prod.ext a b) hi
      · simp [a, b]
    · simp [a]
  · intro out m s r x w hd hs hr
    rw [s1] at hs ⊢
    exact pushValCovP_shows h0 h1 (e _ hd) _ _ _ hs hr
  · intro data out m d s r hd hsep hdat hs hr
    rw [s1] at hs hdat ⊢
    exact pushDataCovP_shows h0 h1 (e _ hd) (sep _ _ hsep) hdat hs hr
  · intro data out m d s r f hd hsep hdat hs hr
    rw [s1] at hs hdat ⊢
    exact pushDataScaleCovP_shows h0 h1 (e _ hd) (sep _ _ hsep) f hdat hs hr

/-! ### Loops -/

section loops

variable {ck : CellKernel A K X XA I} {k : Kernel K X M} {v : M → I → K} {val : XA → (A → K) → X}
  {vc : XA → Set A}

theorem run_getIf (a : A) (p q : K → Prog A K α) (m : A → K) :
    ((get a >>= fun f => if @Arith.isZero K (exact K) f then p f else q f : Prog A K α)).run m =
      if m a = 0 then (p (m a)).run m else (q (m a)).run m := by
  rw [run_bind]
  change (if decide (m a = 0) = true then p (m a) else q (m a)).run m = _
  by_cases h : m a = 0
  · rw [if_pos (decide_eq_true h), if_pos h]
  · rw [if_neg (fun h' => h (of_decide_eq_true h')), if_neg h]

theorem ShowsC.congr {out : I → A} {m m' : A → K} {s : M} (h : ShowsC ck v out m s)
    (e : ∀ a ∈ winC ck out, m' a = m a) : ShowsC ck v out m' s :=
  fun i hi => (e _ (mem_winC _ hi)).trans (h i hi)

theorem ShowsC.keep {out : I → A} {m : A → K} {s : M} (h : ShowsC ck v out m s) {R W : Set A}
    {p : Prog A K α} (hp : p.Within R W) (hd : Disjoint (winC ck out) W) :
    ShowsC ck v out (p.run m).2 s :=
  h.congr fun _ ha => run_unwritten hp (Set.disjoint_left.1 hd ha) m

theorem gCopy_shows (hn : ck.idx.Nodup) {data out : I → A} (hd : DistinctC ck out)
    (hsep : Disjoint (winC ck data) (winC ck out)) {m : A → K} {d : M}
    (h : ShowsC ck v data m d) : ShowsC ck v out ((ck.gCopy data out).run m).2 d := by
  intro i hi
  unfold CellKernel.gCopy
  rw [foldlM_alone (R := fun i => {data i}) (W := fun i => {out i})
    (prog := fun i => do
      let v ← get (data i)
      put (out i) v) ck.idx hn ?_ ?_ m hi rfl]
  · simp only [run_bind, run_get, run_put, Function.update_self]
    exact h i hi
  · exact fun i _ => (within_get (show data i ∈ ({data i} : Set A) from rfl)).bind
      fun v => within_put v (show out i ∈ ({out i} : Set A) from rfl)
  · intro i hi j hj hij
    rw [Set.disjoint_singleton_left]
    rintro (e | e)
    · exact Set.disjoint_left.1 hsep (mem_winC data hj) ⟨i, hi, e⟩
    · exact hij (hd i hi j hj e)

theorem gZero_shows (hR : Refines ck k v val vc) {out : I → A} (hd : DistinctC ck out)
    (m : A → K) :
    ShowsC ck v out ((@CellKernel.gZero A K X XA I (exact K) ck out).run m).2 k.zero := by
  intro i hi
  unfold CellKernel.gZero
  rw [foldlM_alone (R := fun _ => ∅) (W := fun i => {out i})
    (prog := fun i => put (out i) (0 : K)) ck.idx hR.foot.nodup ?_ ?_ m hi rfl]
  · simp only [run_put, Function.update_self]
    exact (hR.zero i).symm
  · exact fun i _ => within_put _ rfl
  · intro i hi j hj hij
    rw [Set.disjoint_singleton_left]
    rintro (e | e)
    · exact e
    · exact hij (hd i hi j hj e)

theorem mul_shows (hR : Refines ck k v val vc) {out : I → A} (hd : DistinctC ck out) {m : A → K}
    {s : M} (h : ShowsC ck v out m s) (f : K) :
    ShowsC ck v out (Function.update m (out ck.w0) (m (out ck.w0) * f)) (k.mulWeight s f) := by
  intro i hi
  by_cases e : i = ck.w0
  · subst e
    rw [Function.update_self, hR.mul_w0, h _ hi]
  · rw [Function.update_of_ne, hR.mul_ne _ _ _ e, h _ hi]
    exact fun e' => e (hd _ hi _ hR.foot.w0_mem e')

theorem gPushVal_shows (hR : Refines ck k v val vc) {x : XA} {w : A} {out : I → A}
    (hd : DistinctC ck out) {m : A → K} {s r : M} (hs : ShowsC ck v out m s)
    (hr : k.pushVal (val x m) (m w) s = some r) :
    ShowsC ck v out ((ck.gPushVal x w out).run m).2 r := by
  unfold CellKernel.gPushVal
  simp only [run_bind, hR.getVal, run_get]
  exact hR.pushVal _ _ hd hs hr

theorem gPushScale_shows (hR : Refines ck k v val vc) {data : I → A} {f : A} {out : I → A}
    (hd : DistinctC ck out) (hsep : Disjoint (winC ck data) (winC ck out)) {m : A → K} {d s r : M}
    (hdat : ShowsC ck v data m d) (hs : ShowsC ck v out m s)
    (hr : k.pushScale d (m f) s = some r) :
    ShowsC ck v out ((ck.gPushScale data f out).run m).2 r := by
  unfold CellKernel.gPushScale
  simp only [run_bind, run_get]
  exact hR.pushScale _ hd hsep hdat hs hr

theorem gReduceVals_shows (hR : Refines ck k v val vc) (n : ℕ) {x : ℕ → XA} {w : ℕ → A}
    {out : I → A} (hd : DistinctC ck out)
    (hin : Disjoint (vcells vc n x ∪ cells n w) (winC ck out)) {m : A → K} {s r : M}
    (hs : ShowsC ck v out m s)
    (hr : k.reduceVals ((List.range n).map fun i => (val (x i) m, m (w i))) s = some r) :
    ShowsC ck v out ((ck.gReduceVals n x w out).run m).2 r := by
  unfold Kernel.reduceVals at hr
  rw [List.foldlM_map] at hr
  refine (run_foldlM_opt (fun m' s => ShowsC ck v out m' s ∧
    ∀ a ∈ vcells vc n x ∪ cells n w, m' a = m a) (List.range n) ?_ m s r
      ⟨hs, fun _ _ => rfl⟩ hr).1
  rintro m' s s' i hi ⟨hs, hk⟩ hg
  rw [List.mem_range] at hi
  refine ⟨gPushVal_shows hR hd hs ?_, fun a ha => ?_⟩
  · rw [hk (w i) (Or.inr ⟨i, hi, rfl⟩),
      hR.val_congr (x i) m' m fun a ha => hk a (Or.inl ⟨i, hi, ha⟩)]
    exact hg
  · rw [run_unwritten (gPushVal_within hR.foot _ _ _) (Set.disjoint_left.1 hin ha), hk a ha]

theorem gReduceData_shows (hR : Refines ck k v val vc) (n : ℕ) {data : ℕ → I → A}
    {out : I → A} (hd : DistinctC ck out) (hin : Disjoint (rowsC ck n data) (winC ck out))
    {m : A → K} {d : ℕ → M} (hdat : ∀ i < n, ShowsC ck v (data i) m (d i)) {s r : M}
    (hs : ShowsC ck v out m s) (hr : k.reduceData ((List.range n).map d) s = some r) :
    ShowsC ck v out ((ck.gReduceData n data out).run m).2 r := by
  unfold Kernel.reduceData at hr
  rw [List.foldlM_map] at hr
  refine (run_foldlM_opt (fun m s => ShowsC ck v out m s ∧
    ∀ i < n, ShowsC ck v (data i) m (d i)) (List.range n) ?_ m s r ⟨hs, hdat⟩ hr).1
  rintro m s s' i hi ⟨hs, hdat⟩ hg
  rw [List.mem_range] at hi
  have hsep : ∀ j < n, Disjoint (winC ck (data j)) (winC ck out) := fun j hj =>
    hin.mono_left (winC_sub_rowsC data hj)
  exact ⟨hR.pushData hd (hsep i hi) (hdat i hi) hs hg,
    fun j hj => (hdat j hj).keep (hR.foot.pushData _ _) (hsep j hj)⟩

theorem gReduceDataFromzero_shows (hR : Refines ck k v val vc) (n : ℕ) {data : ℕ → I → A}
    {out : I → A} (hd : DistinctC ck out) (hin : Disjoint (rowsC ck n data) (winC ck out))
    {m : A → K} {d : ℕ → M} (hdat : ∀ i < n, ShowsC ck v (data i) m (d i)) {r : M}
    (hr : k.reduceDataFromZero ((List.range n).map d) = some r) :
    ShowsC ck v out
      ((@CellKernel.gReduceDataFromzero A K X XA I (exact K) ck n data out).run m).2 r := by
  unfold CellKernel.gReduceDataFromzero
  rw [run_bind]
  refine gReduceData_shows hR n hd hin (fun i hi => ?_) (gZero_shows hR hd m) hr
  exact (hdat i hi).keep (@gZero_within A K X XA I (exact K) ck out ∅)
    (hin.mono_left (winC_sub_rowsC data hi))

/-- The rows of an output share no cell. -/
def RowsDistinct (ck : CellKernel A K X XA I) (n : ℕ) (out : ℕ → I → A) : Prop :=
  ∀ r < n, ∀ r' < n, ∀ i ∈ ck.idx, ∀ j ∈ ck.idx, out r i = out r' j → r = r' ∧ i = j

theorem RowsDistinct.row {n : ℕ} {out : ℕ → I → A} (h : RowsDistinct ck n out) {r : ℕ}
    (hr : r < n) : DistinctC ck (out r) :=
  fun i hi j hj e => (h r hr r hr i hi j hj e).2

theorem RowsDistinct.disjoint {n : ℕ} {out : ℕ → I → A} (h : RowsDistinct ck n out) {r r' : ℕ}
    (hr : r < n) (hr' : r' < n) (hne : r ≠ r') :
    Disjoint (winC ck (out r)) (winC ck (out r')) := by
  rw [Set.disjoint_left]
  rintro _ ⟨i, hi, rfl⟩ ⟨j, hj, e⟩
  exact hne (h r hr r' hr' i hi j hj e.symm).1

/-- One pass over the rows: each row is treated as if alone. -/
theorem rows_alone {n : ℕ} {out : ℕ → I → A} (hd : RowsDistinct ck n out) {In : Set A}
    (hin : Disjoint In (rowsC ck n out)) {P : ℕ → Prog A K Unit} (l : List ℕ) (hl : l.Nodup)
    (hn : ∀ r ∈ l, r < n)
    (hw : ∀ r ∈ l, (P r).Within (In ∪ winC ck (out r)) (winC ck (out r))) (m : A → K) {r : ℕ}
    (hr : r ∈ l) {s : M} (h : ShowsC ck v (out r) ((P r).run m).2 s) :
    ShowsC ck v (out r) ((l.foldlM (fun _ r => P r) ()).run m).2 s := by
  refine h.congr fun a ha => ?_
  refine foldlM_alone (R := fun r => In ∪ winC ck (out r)) (W := fun r => winC ck (out r)) l hl hw
    ?_ m hr ha
  intro x hx y hy hxy
  have hxy := hd.disjoint (hn x hx) (hn y hy) hxy
  rw [Set.disjoint_union_right, Set.disjoint_union_right]
  exact ⟨⟨(hin.mono_right (winC_sub_rowsC out (hn x hx))).symm, hxy⟩, hxy⟩

/-- ... and the inputs are left alone. -/
theorem rows_within {n : ℕ} {out : ℕ → I → A} {In : Set A} {P : ℕ → Prog A K Unit} (l : List ℕ)
    (hn : ∀ r ∈ l, r < n)
    (hw : ∀ r ∈ l, (P r).Within (In ∪ winC ck (out r)) (winC ck (out r))) :
    (l.foldlM (fun _ r => P r) ()).Within (In ∪ rowsC ck n out) (rowsC ck n out) :=
  Prog.Within.foldlM _ _ fun _ r hr => (hw r hr).mono
    (Set.union_subset_union_right _ (winC_sub_rowsC out (hn r hr))) (winC_sub_rowsC out (hn r hr))

theorem cumulativeGo_spec {prev : M} {l rs : List M} (h : k.cumulativeGo prev l = some rs) :
    rs.length = l.length ∧ ∀ i (hi : i < l.length) (hi' : i < rs.length),
      k.pushData (if i = 0 then prev else rs.getD (i - 1) prev) l[i] = some rs[i] := by
  induction l generalizing prev rs with
  | nil => cases h; exact ⟨rfl, fun i hi => by simp at hi⟩
  | cons d ds ih =>
    unfold Kernel.cumulativeGo at h
    obtain ⟨r, hr, h⟩ := Option.bind_eq_some_iff.1 h
    obtain ⟨rs', hrs, h⟩ := Option.bind_eq_some_iff.1 h
    cases h
    obtain ⟨hlen, hs⟩ := ih hrs
    refine ⟨by simp [hlen], fun i hi hi' => ?_⟩
    cases i with
    | zero => exact hr
    | succ i =>
      have := hs i (by simpa using hi) (by simpa using hi')
      simp only [List.getElem_cons_succ, Nat.succ_ne_zero, if_false, Nat.add_sub_cancel]
      rw [← this]
      congr 1
      cases i with
      | zero => rfl
      | succ i =>
        simp only [Nat.succ_ne_zero, if_false, Nat.add_sub_cancel, List.getD_cons_succ]
        have hi2 : i < rs'.length := by simp at hi'; omega
        rw [List.getD_eq_getElem _ _ hi2, List.getD_eq_getElem _ _ hi2]

theorem cumulative_spec {n : ℕ} {d : ℕ → M} {rs : List M}
    (h : k.cumulative ((List.range n).map d) = some rs) :
    rs.length = n ∧ (∀ h0 : 0 < rs.length, rs[0] = d 0) ∧ ∀ i (_ : 0 < i) (hi : i < rs.length),
      k.pushData (rs[i - 1]'(by omega)) (d i) = some rs[i] := by
  cases n with
  | zero => cases h; exact ⟨rfl, fun h => by simp at h, fun i _ h => by simp at h⟩
  | succ n =>
    rw [List.range_succ_eq_map, List.map_cons] at h
    unfold Kernel.cumulative at h
    obtain ⟨rs', hrs, h⟩ := Option.bind_eq_some_iff.1 h
    cases h
    obtain ⟨hlen, hs⟩ := cumulativeGo_spec hrs
    simp only [List.length_map, List.length_range] at hlen hs
    refine ⟨by simp [hlen], fun _ => rfl, fun i h0 hi => ?_⟩
    obtain ⟨i, rfl⟩ : ∃ j, i = j + 1 := ⟨i - 1, by omega⟩
    simp only [List.length_cons] at hi
    have := hs i (by omega) (by omega)
    simp only [List.getElem_map, List.getElem_range] at this
    simp only [List.getElem_cons_succ, Nat.add_sub_cancel]
    rw [← this]
    congr 1
    cases i with
    | zero => rfl
    | succ i =>
      simp only [Nat.succ_ne_zero, if_false, Nat.add_sub_cancel, List.getElem_cons_succ]
      rw [List.getD_eq_getElem]

theorem gCumulative_shows (hR : Refines ck k v val vc) (n : ℕ) {data out : ℕ → I → A}
    (hd : RowsDistinct ck n out) (hin : Disjoint (rowsC ck n data) (rowsC ck n out)) {m : A → K}
    {d : ℕ → M} (hdat : ∀ i < n, ShowsC ck v (data i) m (d i)) {rs : List M}
    (hr : k.cumulative ((List.range n).map d) = some rs) {i : ℕ} (hi : i < rs.length) :
    ShowsC ck v (out i) ((ck.gCumulative n data out).run m).2
      rs[i] := by
  obtain ⟨hlen, hs0, hs⟩ := cumulative_spec hr
  unfold CellKernel.gCumulative
  rw [run_bind]
  have h1 : ∀ r < n, ShowsC ck v (out r)
      (((List.range n).foldlM (fun _ i => ck.gCopy (data i) (out i)) ()).run m).2 (d r) := by
    intro r hr
    refine rows_alone hd hin _ List.nodup_range (fun r hr => List.mem_range.1 hr) ?_ m
      (List.mem_range.2 hr) (gCopy_shows hR.foot.nodup (hd.row hr)
        (hin.mono (winC_sub_rowsC _ hr) (winC_sub_rowsC _ hr)) (hdat r hr))
    intro r hr
    exact (gCopy_within ck _ _).mono
      (fun _ ha => Or.inl (winC_sub_rowsC _ (List.mem_range.1 hr) ha)) subset_rfl
  generalize (((List.range n).foldlM (fun _ i => ck.gCopy (data i) (out i)) ()).run m).2 = m1 at h1
  have key : ∀ j, j ≤ n - 1 →
      (∀ r (hr : r < rs.length), r ≤ j → ShowsC ck v (out r)
        (((List.range' 1 j).foldlM (fun _ i => ck.pushData (out (i - 1)) (out i)) ()).run m1).2
        rs[r]) ∧
      (∀ r < n, j < r → ShowsC ck v (out r)
        (((List.range' 1 j).foldlM (fun _ i => ck.pushData (out (i - 1)) (out i)) ()).run m1).2
        (d r)) := by
    intro j hj
    induction j with
    | zero =>
      refine ⟨fun r hr hr0 => ?_, fun r hr _ => h1 r hr⟩
      obtain rfl : r = 0 := by omega
      rw [hs0 hr]
      exact h1 0 (by omega)
    | succ j ih =>
      obtain ⟨ih1, ih2⟩ := ih (by omega)
      simp only [List.range'_concat, run_foldlM_append, Nat.one_mul, run_bind, List.foldlM_cons, List.foldlM_nil, run_pure]
      generalize (((List.range' 1 j).foldlM
        (fun _ i => ck.pushData (out (i - 1)) (out i)) ()).run m1).2 = m2 at ih1 ih2
      have hrow : ∀ r < n, r ≠ 1 + j → Disjoint (winC ck (out r)) (winC ck (out (1 + j))) :=
        fun r hr hne => hd.disjoint hr (by omega) hne
      constructor
      · intro r hr hrj
        by_cases e : r = 1 + j
        · subst e
          refine hR.pushData (hd.row (by omega)) (hrow _ (by omega) (by omega))
            (ih1 (1 + j - 1) (by omega) (by omega)) (ih2 (1 + j) (by omega) (by omega)) ?_
          exact hs (1 + j) (by omega) (by omega)
        · exact (ih1 r hr (by omega)).keep (hR.foot.pushData _ _) (hrow r (by omega) e)
      · intro r hr hrj
        exact (ih2 r hr (by omega)).keep (hR.foot.pushData _ _) (hrow r hr (by omega))
  exact (key (n - 1) le_rfl).1 i hi (by omega)

theorem gCumulativeInverse_shows (hR : Refines ck k v val vc) (n : ℕ) {data out : ℕ → I → A}
    (hd : RowsDistinct ck n out) (hin : Disjoint (rowsC ck n data) (rowsC ck n out)) {m : A → K}
    {d : ℕ → M} (hdat : ∀ i < n, ShowsC ck v (data i) m (d i)) {i : ℕ} (hi : i < n) {r : M}
    (hr : (if i = 0 then some (d 0) else k.pushScale (d (i - 1)) (-1) (d i)) = some r) :
    ShowsC ck v (out i)
      ((@CellKernel.gCumulativeInverse A K X XA I (exact K) ck n data out).run m).2 r := by
  unfold CellKernel.gCumulativeInverse
  rw [run_bind]
  have hc : ∀ r ∈ List.range n, (ck.gCopy (data r) (out r)).Within
      (rowsC ck n data ∪ winC ck (out r)) (winC ck (out r)) := fun r hr =>
    (gCopy_within ck _ _).mono
      (fun _ ha => Or.inl (winC_sub_rowsC _ (List.mem_range.1 hr) ha)) subset_rfl
  have h1 : ∀ r < n, ShowsC ck v (out r)
      (((List.range n).foldlM (fun _ i => ck.gCopy (data i) (out i)) ()).run m).2 (d r) := by
    intro r hr
    exact rows_alone hd hin _ List.nodup_range (fun r hr => List.mem_range.1 hr) hc m
      (List.mem_range.2 hr) (gCopy_shows hR.foot.nodup (hd.row hr)
        (hin.mono (winC_sub_rowsC _ hr) (winC_sub_rowsC _ hr)) (hdat r hr))
  have h2 : ∀ r < n, ShowsC ck v (data r)
      (((List.range n).foldlM (fun _ i => ck.gCopy (data i) (out i)) ()).run m).2 (d r) := by
    intro r hr
    exact (hdat r hr).keep (rows_within _ (fun r hr => List.mem_range.1 hr) hc)
      (hin.mono_left (winC_sub_rowsC _ hr))
  generalize (((List.range n).foldlM (fun _ i => ck.gCopy (data i) (out i)) ()).run m).2 = m1
    at h1 h2
  have hw : ∀ r ∈ List.range' 1 (n - 1), (ck.pushScale (data (r - 1)) (-1 : K) (out r)).Within
      (rowsC ck n data ∪ winC ck (out r)) (winC ck (out r)) := by
    intro r hr
    rw [List.mem_range'_1] at hr
    exact (hR.foot.pushScale _ _ _).mono
      (Set.union_subset_union_left _ (winC_sub_rowsC _ (by omega))) subset_rfl
  by_cases h0 : i = 0
  · subst h0
    rw [if_pos rfl] at hr
    cases hr
    refine (h1 0 hi).keep (R := rowsC ck n data ∪ rowsC ck n out)
      (W := {a | ∃ r, 1 ≤ r ∧ r < n ∧ a ∈ winC ck (out r)}) ?_ ?_
    · refine Prog.Within.foldlM _ _ fun _ r hr => (hw r hr).mono ?_ ?_
      · rw [List.mem_range'_1] at hr
        exact Set.union_subset_union_right _ (winC_sub_rowsC _ (by omega))
      · rw [List.mem_range'_1] at hr
        exact fun a ha => ⟨r, by omega, by omega, ha⟩
    · rw [Set.disjoint_left]
      rintro a ha ⟨r, h1, hr, hb⟩
      exact Set.disjoint_left.1 (hd.disjoint hi hr (by omega)) ha hb
  · rw [if_neg h0] at hr
    refine rows_alone hd hin _ List.nodup_range' (fun r hr => ?_) hw m1 (List.mem_range'_1.2 (by omega))
      (hR.pushScale _ (hd.row hi) ?_ (h2 (i - 1) (by omega)) (h1 i hi) hr)
    · rw [List.mem_range'_1] at hr
      omega
    · exact hin.mono (winC_sub_rowsC _ (by omega)) (winC_sub_rowsC _ (by omega))

/-- The samples of one group, in order. -/
def members (group : List ℤ) (d : ℕ → M) (g : ℕ) : List M :=
  ((List.range group.length).filter fun s => decide (group.getD s (-1) = (g : ℤ))).map d

theorem gReduceGrouped_shows (hR : Refines ck k v val vc) {group : List ℤ} {ngroup : ℕ}
    (hg : ∀ g ∈ group, g < ngroup) {data out : ℕ → I → A} (hd : RowsDistinct ck ngroup out)
    (hin : Disjoint (rowsC ck group.length data) (rowsC ck ngroup out)) {m : A → K} {d : ℕ → M}
    (hdat : ∀ i < group.length, ShowsC ck v (data i) m (d i)) {g : ℕ} (hlt : g < ngroup) {s r : M}
    (hs : ShowsC ck v (out g) m s) (hr : k.reduceData (members group d g) s = some r) :
    ShowsC ck v (out g)
      ((ck.gReduceGrouped group data out).run m).2 r := by
  unfold CellKernel.gReduceGrouped
  have hr' : (List.range group.length).foldlM (fun o s => if group.getD s (-1) = (g : ℤ) then
      k.pushData (d s) o else some o) s = some r := by
    rw [← hr]
    unfold Kernel.reduceData members
    rw [List.foldlM_map, List.foldlM_filter]
    congr 1
    funext o x
    by_cases h : group.getD x (-1) = (g : ℤ)
    · rw [if_pos h, if_pos (by simpa using h)]
    · rw [if_neg h, if_neg (by simpa using h)]
      rfl
  refine (run_foldlM_opt (fun m s => ShowsC ck v (out g) m s ∧
    ∀ i < group.length, ShowsC ck v (data i) m (d i)) (List.range group.length) ?_ m s r
    ⟨hs, hdat⟩ hr').1
  rintro m s s' i hi ⟨hs, hdat⟩ hr
  rw [List.mem_range] at hi
  have hgi : group.getD i (-1) < ngroup := by
    rw [List.getD_eq_getElem _ _ hi]
    exact hg _ (List.getElem_mem hi)
  dsimp only at hr ⊢
  generalize group.getD i (-1) = gi at hr hgi
  have keep : ∀ h < ngroup, ∀ j < group.length, ShowsC ck v (data j)
      ((ck.pushData (data i) (out h)).run m).2 (d j) := fun h hh j hj =>
    (hdat j hj).keep (hR.foot.pushData _ _)
      (hin.mono (winC_sub_rowsC _ hj) (winC_sub_rowsC _ hh))
  by_cases h : gi = (g : ℤ)
  · subst h
    rw [if_pos rfl] at hr
    rw [if_pos (by omega), Int.toNat_natCast]
    exact ⟨hR.pushData (hd.row hlt) (hin.mono (winC_sub_rowsC _ hi) (winC_sub_rowsC _ hlt))
      (hdat i hi) hs hr, keep g hlt⟩
  · rw [if_neg h] at hr
    cases hr
    split_ifs with h0
    · exact ⟨hs.keep (hR.foot.pushData _ _) (hd.disjoint hlt (by omega) (by omega)),
        keep _ (by omega)⟩
    · exact ⟨hs, hdat⟩

theorem gResampleRest_shows (hR : Refines ck k v val vc) {nsamp : ℕ} {freq : ℕ → A}
    {data : ℕ → I → A} {out : I → A} (hd : DistinctC ck out)
    (hin : Disjoint (cells nsamp freq ∪ rowsC ck nsamp data) (winC ck out)) {m : A → K}
    {f : ℕ → K} (hf : ∀ i < nsamp, m (freq i) = f i) {d : ℕ → M}
    (hdat : ∀ i < nsamp, ShowsC ck v (data i) m (d i)) (l : List ℕ) (hl : ∀ i ∈ l, i < nsamp)
    {s r : M} (hs : ShowsC ck v out m s) (hr : k.resampleRest (l.map fun i => (f i, d i)) s = some r) :
    ShowsC ck v out ((l.foldlM (fun _ i => do
      let f ← get (freq i)
      if (exact K).isZero f then pure () else ck.pushScale (data i) f out) ()).run m).2 r := by
  unfold Kernel.resampleRest at hr
  rw [List.foldlM_map] at hr
  refine (run_foldlM_opt (fun m s => ShowsC ck v out m s ∧ (∀ i < nsamp, m (freq i) = f i) ∧
    ∀ i < nsamp, ShowsC ck v (data i) m (d i)) l ?_ m s r ⟨hs, hf, hdat⟩ hr).1
  rintro m s s' i hi ⟨hs, hf, hdat⟩ hg
  have hi := hl i hi
  rw [run_getIf, hf i hi]
  by_cases h0 : f i = 0
  · rw [if_neg (by simpa using h0)] at hg
    cases hg
    rw [if_pos h0]
    exact ⟨hs, hf, hdat⟩
  · rw [if_pos (by simpa using h0)] at hg
    rw [if_neg h0]
    rw [Set.disjoint_union_left] at hin
    refine ⟨hR.pushScale _ hd (hin.2.mono_left (winC_sub_rowsC _ hi)) (hdat i hi) hs hg,
      fun j hj => ?_, fun j hj => (hdat j hj).keep (hR.foot.pushScale _ _ _)
        (hin.2.mono_left (winC_sub_rowsC _ hj))⟩
    rw [run_unwritten (hR.foot.pushScale _ _ _)
      (Set.disjoint_left.1 hin.1 (show freq j ∈ cells nsamp freq from ⟨j, hj, rfl⟩)), hf j hj]

theorem gResampleRow_shows (hR : Refines ck k v val vc) {nsamp : ℕ} {freq : ℕ → A}
    {data : ℕ → I → A} {out : I → A} (hd : DistinctC ck out)
    (hin : Disjoint (cells nsamp freq ∪ rowsC ck nsamp data) (winC ck out)) {m : A → K}
    {f : ℕ → K} (hf : ∀ i < nsamp, m (freq i) = f i) {d : ℕ → M}
    (hdat : ∀ i < nsamp, ShowsC ck v (data i) m (d i)) (hz : ShowsC ck v out m k.zero) {r : M}
    (hr : k.resampleDataRow ((List.range nsamp).map fun i => (f i, d i)) = some r) :
    ShowsC ck v out
      ((@CellKernel.gResampleRow A K X XA I (exact K) ck nsamp freq data out).run m).2 r := by
  unfold CellKernel.gResampleRow
  have key : ∀ n a, a + n = nsamp →
      k.resampleDataRow ((List.range' a n).map fun i => (f i, d i)) = some r →
      ShowsC ck v out ((do
        let first ← @CellKernel.gResampleFirst A K X XA I (exact K) ck freq data out
          (List.range' a n)
        match first with
        | none => pure ()
        | some i0 =>
          (List.range' (i0 + 1) (nsamp - (i0 + 1))).foldlM (fun _ i => do
            let f ← get (freq i)
            if (exact K).isZero f then pure () else ck.pushScale (data i) f out) ()).run m).2 r := by
    intro n
    induction n with
    | zero =>
      intro a _ h
      cases h
      exact hz
    | succ n ih =>
      intro a ha h
      rw [List.range'_succ] at h ⊢
      rw [List.map_cons] at h
      unfold Kernel.resampleDataRow at h
      unfold CellKernel.gResampleFirst
      rw [run_bind, run_getIf, hf a (by omega)]
      by_cases h0 : f a = 0
      · rw [if_neg (by simpa using h0)] at h
        rw [if_pos h0]
        have := ih (a + 1) (by omega) h
        rw [run_bind] at this
        exact this
      · rw [if_pos (by simpa using h0)] at h
        rw [if_neg h0]
        simp only [run_bind, run_get, run_put, run_pure]
        have ha' : a < nsamp := by omega
        have hsep : Disjoint (winC ck (data a)) (winC ck out) :=
          (Set.disjoint_union_left.1 hin).2.mono_left (winC_sub_rowsC _ ha')
        have hc := gCopy_shows (v := v) hR.foot.nodup hd hsep (hdat a ha')
        have hun : ∀ b, b ∉ winC ck out → ((ck.gCopy (data a) out).run m).2 b = m b :=
          fun b hb => run_unwritten (gCopy_within ck _ _) hb m
        generalize ((ck.gCopy (data a) out).run m).2 = m1 at hc hun
        have hm := mul_shows hR hd hc (f a)
        have hun2 : ∀ b, b ∉ winC ck out →
            Function.update m1 (out ck.w0) (m1 (out ck.w0) * f a) b = m b := by
          intro b hb
          rw [Function.update_of_ne, hun b hb]
          rintro rfl
          exact hb (mem_winC _ hR.foot.w0_mem)
        generalize Function.update m1 (out ck.w0) (m1 (out ck.w0) * f a) = m2 at hm hun2
        have e : nsamp - (a + 1) = n := by omega
        rw [e]
        refine gResampleRest_shows hR hd hin (f := f) (d := d) ?_ ?_ _ ?_ hm h
        · intro i hi
          rw [hun2 _ (Set.disjoint_left.1 hin (Or.inl ⟨i, hi, rfl⟩)), hf i hi]
        · intro i hi
          exact (hdat i hi).congr fun b hb =>
            hun2 b (Set.disjoint_left.1 hin (Or.inr (winC_sub_rowsC _ hi hb)))
        · intro i hi
          rw [List.mem_range'_1] at hi
          omega
  rw [List.range_eq_range'] at hr ⊢
  exact key nsamp 0 (by omega) hr

theorem gResampleData_shows (hR : Refines ck k v val vc) {nrep nsamp : ℕ} {freq : ℕ → ℕ → A}
    {data out : ℕ → I → A} (hd : RowsDistinct ck nrep out)
    (hin : Disjoint (table nrep nsamp freq ∪ rowsC ck nsamp data) (rowsC ck nrep out)) {m : A → K}
    {d : ℕ → M} (hdat : ∀ i < nsamp, ShowsC ck v (data i) m (d i)) {q : ℕ} (hq : q < nrep) {r : M}
    (hr : k.resampleDataRow ((List.range nsamp).map fun i => (m (freq q i), d i)) = some r) :
    ShowsC ck v (out q)
      ((@CellKernel.gResampleData A K X XA I (exact K) ck nrep nsamp freq data out).run m).2 r := by
  unfold CellKernel.gResampleData
  rw [run_bind]
  have hz0 : ∀ r ∈ List.range nrep, (@CellKernel.gZero A K X XA I (exact K) ck (out r)).Within
      (table nrep nsamp freq ∪ rowsC ck nsamp data ∪ winC ck (out r)) (winC ck (out r)) :=
    fun r _ => @gZero_within A K X XA I (exact K) ck _ _
  have hz : ShowsC ck v (out q) (((List.range nrep).foldlM (fun _ r =>
      @CellKernel.gZero A K X XA I (exact K) ck (out r)) ()).run m).2 k.zero :=
    rows_alone hd hin _ List.nodup_range (fun r hr => List.mem_range.1 hr) hz0 m
      (List.mem_range.2 hq) (gZero_shows hR (hd.row hq) m)
  have hun : ∀ a, a ∉ rowsC ck nrep out → (((List.range nrep).foldlM (fun _ r =>
      @CellKernel.gZero A K X XA I (exact K) ck (out r)) ()).run m).2 a = m a := fun a ha =>
    run_unwritten (rows_within _ (fun r hr => List.mem_range.1 hr) hz0) ha m
  generalize (((List.range nrep).foldlM (fun _ r =>
      @CellKernel.gZero A K X XA I (exact K) ck (out r)) ()).run m).2 = m1 at hz hun
  refine rows_alone hd hin _ List.nodup_range (fun r hr => List.mem_range.1 hr) ?_ m1
    (List.mem_range.2 hq) (gResampleRow_shows hR (hd.row hq) ?_ (f := fun i => m (freq q i)) ?_ ?_
      hz hr)
  · intro r hr
    exact (@gResampleRow_within A K X XA I ck vc (exact K) hR.foot _ _ _ _).mono
      (Set.union_subset_union_left _ (Set.union_subset_union_left _
        (cells_sub_table freq (List.mem_range.1 hr)))) subset_rfl
  · exact hin.mono (Set.union_subset_union_left _ (cells_sub_table freq hq)) (winC_sub_rowsC _ hq)
  · intro i hi
    exact hun _ (Set.disjoint_left.1 hin (Or.inl ⟨q, hq, i, hi, rfl⟩))
  · intro i hi
    exact (hdat i hi).congr fun b hb =>
      hun b (Set.disjoint_left.1 hin (Or.inr (winC_sub_rowsC _ hi hb)))

theorem gResampleValsRow_shows (hR : Refines ck k v val vc) {nsamp : ℕ} {freq : ℕ → A}
    {x : ℕ → XA} {w : ℕ → A} {out : I → A} (hd : DistinctC ck out)
    (hin : Disjoint (cells nsamp freq ∪ (vcells vc nsamp x ∪ cells nsamp w)) (winC ck out))
    {m : A → K} {s r : M} (hs : ShowsC ck v out m s)
    (hr : k.resampleValsRow ((List.range nsamp).map fun i => (m (freq i), val (x i) m, m (w i))) s =
      some r) :
    ShowsC ck v out
      ((@CellKernel.gResampleValsRow A K X XA I (exact K) ck nsamp freq x w out).run m).2 r := by
  unfold Kernel.resampleValsRow at hr
  rw [List.foldlM_map] at hr
  unfold CellKernel.gResampleValsRow
  refine (run_foldlM_opt (fun m' s => ShowsC ck v out m' s ∧
    ∀ a ∈ cells nsamp freq ∪ (vcells vc nsamp x ∪ cells nsamp w), m' a = m a) (List.range nsamp) ?_
      m s r ⟨hs, fun _ _ => rfl⟩ hr).1
  rintro m' s s' i hi ⟨hs, hk⟩ hg
  rw [List.mem_range] at hi
  have hfi : m' (freq i) = m (freq i) := hk _ (Or.inl ⟨i, hi, rfl⟩)
  rw [run_getIf, hfi]
  by_cases h0 : m (freq i) = 0
  · rw [if_pos h0] at hg
    cases hg
    rw [if_pos h0]
    exact ⟨hs, hk⟩
  · rw [if_neg h0] at hg
    rw [if_neg h0]
    simp only [run_bind, hR.getVal, run_get]
    rw [hk (w i) (Or.inr (Or.inr ⟨i, hi, rfl⟩)),
      hR.val_congr (x i) m' m fun a ha => hk a (Or.inr (Or.inl ⟨i, hi, ha⟩))]
    refine ⟨hR.pushVal _ _ hd hs hg, fun a ha => ?_⟩
    rw [run_unwritten (hR.foot.pushVal _ _ _) (Set.disjoint_left.1 hin ha), hk a ha]

theorem gResampleVals_shows (hR : Refines ck k v val vc) {nrep nsamp : ℕ} {freq : ℕ → ℕ → A}
    {x : ℕ → XA} {w : ℕ → A} {out : ℕ → I → A} (hd : RowsDistinct ck nrep out)
    (hin : Disjoint (table nrep nsamp freq ∪ (vcells vc nsamp x ∪ cells nsamp w))
      (rowsC ck nrep out)) {m : A → K} {q : ℕ} (hq : q < nrep) {s r : M}
    (hs : ShowsC ck v (out q) m s)
    (hr : k.resampleValsRow
      ((List.range nsamp).map fun i => (m (freq q i), val (x i) m, m (w i))) s = some r) :
    ShowsC ck v (out q)
      ((@CellKernel.gResampleVals A K X XA I (exact K) ck nrep nsamp freq x w out).run m).2 r := by
  unfold CellKernel.gResampleVals
  refine rows_alone hd hin _ List.nodup_range (fun r hr => List.mem_range.1 hr) ?_ m
    (List.mem_range.2 hq) (gResampleValsRow_shows hR (hd.row hq) ?_ hs hr)
  · intro r hr
    exact (@gResampleValsRow_within A K X XA I ck vc (exact K) hR.foot _ _ _ _ _).mono
      (Set.union_subset_union_left _ (Set.union_subset_union_left _
        (cells_sub_table freq (List.mem_range.1 hr)))) subset_rfl
  · exact hin.mono (Set.union_subset_union_left _ (cells_sub_table freq hq)) (winC_sub_rowsC _ hq)

theorem copy_rows (hR : Refines ck k v val vc) {n : ℕ} {reduced : I → A} {out : ℕ → I → A}
    (hd : RowsDistinct ck n out) (hin : Disjoint (winC ck reduced) (rowsC ck n out)) {m : A → K}
    {s : M} (hs : ShowsC ck v reduced m s) :
    (∀ q < n, ShowsC ck v (out q)
      (((List.range n).foldlM (fun _ i => ck.gCopy reduced (out i)) ()).run m).2 s) ∧
    ∀ a, a ∉ rowsC ck n out →
      (((List.range n).foldlM (fun _ i => ck.gCopy reduced (out i)) ()).run m).2 a = m a := by
  have hc : ∀ r ∈ List.range n, (ck.gCopy reduced (out r)).Within
      (winC ck reduced ∪ winC ck (out r)) (winC ck (out r)) := fun r _ =>
    (gCopy_within ck _ _).mono Set.subset_union_left subset_rfl
  exact ⟨fun q hq => rows_alone hd hin _ List.nodup_range (fun r hr => List.mem_range.1 hr) hc m
    (List.mem_range.2 hq) (gCopy_shows hR.foot.nodup (hd.row hq)
      (hin.mono_right (winC_sub_rowsC _ hq)) hs),
    fun a ha => run_unwritten (rows_within _ (fun r hr => List.mem_range.1 hr) hc) ha m⟩

theorem gJackknifeData_shows (hR : Refines ck k v val vc) {n : ℕ} {reduced : I → A}
    {data out : ℕ → I → A} (hd : RowsDistinct ck n out)
    (hin : Disjoint (winC ck reduced ∪ rowsC ck n data) (rowsC ck n out)) {m : A → K} {s : M}
    (hs : ShowsC ck v reduced m s) {d : ℕ → M} (hdat : ∀ i < n, ShowsC ck v (data i) m (d i))
    {q : ℕ} (hq : q < n) {r : M} (hr : k.pushScale (d q) (-1) s = some r) :
    ShowsC ck v (out q)
      ((@CellKernel.gJackknifeData A K X XA I (exact K) ck n reduced data out).run m).2 r := by
  unfold CellKernel.gJackknifeData
  rw [run_bind]
  rw [Set.disjoint_union_left] at hin
  obtain ⟨h1, hun⟩ := copy_rows hR hd hin.1 hs
  generalize (((List.range n).foldlM (fun _ i => ck.gCopy reduced (out i)) ()).run m).2 = m1
    at h1 hun
  refine rows_alone hd hin.2 _ List.nodup_range (fun r hr => List.mem_range.1 hr) ?_ m1
    (List.mem_range.2 hq) (hR.pushScale _ (hd.row hq)
      (hin.2.mono (winC_sub_rowsC _ hq) (winC_sub_rowsC _ hq)) ?_ (h1 q hq) hr)
  · intro r hr
    exact (hR.foot.pushScale _ _ _).mono (Set.union_subset_union_left _
      (winC_sub_rowsC _ (List.mem_range.1 hr))) subset_rfl
  · exact (hdat q hq).congr fun b hb =>
      hun b (Set.disjoint_left.1 hin.2 (winC_sub_rowsC _ hq hb))

theorem gJackknifeVals_shows (hR : Refines ck k v val vc) {n : ℕ} {reduced : I → A}
    {x : ℕ → XA} {w : ℕ → A} {out : ℕ → I → A} (hd : RowsDistinct ck n out)
    (hin : Disjoint (winC ck reduced ∪ (vcells vc n x ∪ cells n w)) (rowsC ck n out)) {m : A → K}
    {s : M} (hs : ShowsC ck v reduced m s)
    {q : ℕ} (hq : q < n) {r : M} (hr : k.pushVal (val (x q) m) (-(m (w q))) s = some r) :
    ShowsC ck v (out q)
      ((@CellKernel.gJackknifeVals A K X XA I (exact K) ck n reduced x w out).run m).2 r := by
  unfold CellKernel.gJackknifeVals
  rw [run_bind]
  rw [Set.disjoint_union_left] at hin
  obtain ⟨h1, hun⟩ := copy_rows hR hd hin.1 hs
  generalize (((List.range n).foldlM (fun _ i => ck.gCopy reduced (out i)) ()).run m).2 = m1
    at h1 hun
  refine rows_alone hd hin.2 _ List.nodup_range (fun r hr => List.mem_range.1 hr) ?_ m1
    (List.mem_range.2 hq) ?_
  · intro r hr
    have hr := List.mem_range.1 hr
    exact ((hR.foot.getVal _).mono (fun _ h => Or.inl (Or.inl ⟨r, hr, h⟩))
      (Set.empty_subset _)).bind fun _ =>
      (within_get (show w r ∈ _ from Or.inl (Or.inr ⟨r, hr, rfl⟩))).bind fun _ =>
      (hR.foot.pushVal _ _ _).mono Set.subset_union_right subset_rfl
  · simp only [run_bind, hR.getVal, run_get]
    rw [hun (w q) (Set.disjoint_left.1 hin.2 (Or.inr ⟨q, hq, rfl⟩)),
      hR.val_congr (x q) m1 m fun a ha =>
        hun a (Set.disjoint_left.1 hin.2 (Or.inl ⟨q, hq, ha⟩))]
    exact hR.pushVal _ _ (hd.row hq) (h1 q hq) hr

open Indexed

theorem readAt_ok {α : Type} {arr : List α} {i : ℤ} {a : α} (h : readAt arr i = .ok a) :
    0 ≤ i ∧ arr[i.toNat]? = some a := by
  unfold readAt at h
  split_ifs at h with h0
  refine ⟨h0, ?_⟩
  cases e : arr[i.toNat]? with
  | none => rw [e] at h; cases h
  | some b => rw [e] at h; cases h; rfl

theorem readAt_map {α : Type} {n : ℕ} {d : ℕ → α} {i : ℤ} {a : α}
    (h : readAt ((List.range n).map d) i = .ok a) : i.toNat < n ∧ a = d i.toNat := by
  obtain ⟨_, h⟩ := readAt_ok h
  rw [List.getElem?_map, Option.map_eq_some_iff] at h
  obtain ⟨j, hj, rfl⟩ := h
  rw [List.getElem?_eq_some_iff] at hj
  obtain ⟨hlt, hj⟩ := hj
  rw [List.length_range] at hlt
  rw [List.getElem_range] at hj
  exact ⟨hlt, by rw [hj]⟩

theorem readAt_getD {α : Type} {arr : List α} {i : ℤ} {a b : α} (h : readAt arr i = .ok a) :
    i.toNat < arr.length ∧ arr.getD i.toNat b = a := by
  obtain ⟨_, h⟩ := readAt_ok h
  rw [List.getElem?_eq_some_iff] at h
  obtain ⟨hlt, rfl⟩ := h
  exact ⟨hlt, List.getD_eq_getElem _ _ hlt⟩

theorem bind_ok {α β : Type} {x : Py α} {f : α → Py β} {b : β} (h : x.bind f = .ok b) :
    ∃ a, x = .ok a ∧ f a = .ok b := by
  cases x with
  | error e => cases h
  | ok a => exact ⟨a, rfl, h⟩

theorem run_foldlM_py {ι σ : Type} {f : Unit → ι → Prog A V Unit}
    {g : Option σ → ι → Py (Option σ)} (r : (A → V) → σ → Prop) (l : List ι)
    (hnone : ∀ x ∈ l, ∀ o, g none x = .ok o → o = none)
    (h : ∀ m s s', ∀ x ∈ l, r m s → g (some s) x = .ok (some s') → r ((f () x).run m).2 s')
    (m : A → V) (s s' : σ) (hr : r m s) (hg : l.foldlM g (some s) = .ok (some s')) :
    r ((l.foldlM f ()).run m).2 s' := by
  have none_stays : ∀ l : List ι, (∀ x ∈ l, ∀ o, g none x = .ok o → o = none) → ∀ o,
      l.foldlM g none = .ok o → o = none := by
    intro l
    induction l with
    | nil => intro _ o h; cases h; rfl
    | cons x l ih =>
      intro hn o h
      rw [List.foldlM_cons] at h
      obtain ⟨o1, h1, h2⟩ := bind_ok h
      rw [hn x List.mem_cons_self o1 h1] at h2
      exact ih (fun y hy => hn y (List.mem_cons_of_mem _ hy)) o h2
  induction l generalizing m s with
  | nil => cases hg; exact hr
  | cons x l ih =>
    rw [List.foldlM_cons] at hg
    rw [List.foldlM_cons, run_bind]
    obtain ⟨o1, h1, h2⟩ := bind_ok hg
    cases o1 with
    | none =>
      have := none_stays l (fun y hy => hnone y (List.mem_cons_of_mem _ hy)) _ h2
      cases this
    | some s1 =>
      exact ih (fun y hy => hnone y (List.mem_cons_of_mem _ hy))
        (fun m s s' y hy => h m s s' y (List.mem_cons_of_mem _ hy)) _ _
        (h m s s1 x List.mem_cons_self hr h1) h2

theorem gIndexedRow_shows (hR : Refines ck k v val vc) {index : List ℤ} {start stop : ℤ}
    {ndat : ℕ} {scale : ℕ → A} {data : ℕ → I → A} {out : I → A} (hd : DistinctC ck out)
    (hin : Disjoint (cells index.length scale ∪ rowsC ck ndat data) (winC ck out)) {m : A → K}
    {f : ℕ → K} (hf : ∀ i < index.length, m (scale i) = f i) {d : ℕ → M}
    (hdat : ∀ i < ndat, ShowsC ck v (data i) m (d i)) (hz : ShowsC ck v out m k.zero) {r : M}
    (hr : row k ((List.range ndat).map d) index ((List.range index.length).map f) start stop =
      .ok (some r)) :
    ShowsC ck v out ((@CellKernel.gIndexedRow A K X XA I (exact K) ck index start stop scale data
      out).run m).2 r := by
  unfold row at hr
  unfold CellKernel.gIndexedRow
  by_cases h : start < stop
  · rw [if_pos h] at hr ⊢
    obtain ⟨s, hs, hr⟩ := bind_ok hr
    obtain ⟨f0, hf0, hr⟩ := bind_ok hr
    obtain ⟨d0, hd0, hr⟩ := bind_ok hr
    obtain ⟨h0, _⟩ := readAt_ok hs
    obtain ⟨hst, hs⟩ := readAt_getD (b := (0 : ℤ)) hs
    obtain ⟨_, rfl⟩ := readAt_map hf0
    obtain ⟨hsd, rfl⟩ := readAt_map hd0
    simp only [run_bind, run_get, run_put, hs]
    have hsep : Disjoint (winC ck (data s.toNat)) (winC ck out) :=
      (Set.disjoint_union_left.1 hin).2.mono_left (winC_sub_rowsC _ hsd)
    have hc := gCopy_shows (v := v) hR.foot.nodup hd hsep (hdat _ hsd)
    have hun : ∀ b, b ∉ winC ck out → ((ck.gCopy (data s.toNat) out).run m).2 b = m b :=
      fun b hb => run_unwritten (gCopy_within ck _ _) hb m
    generalize ((ck.gCopy (data s.toNat) out).run m).2 = m1 at hc hun
    rw [hf _ hst]
    have hm := mul_shows hR hd hc (f start.toNat)
    have hun2 : ∀ b, b ∉ winC ck out →
        Function.update m1 (out ck.w0) (m1 (out ck.w0) * f start.toNat) b = m b := by
      intro b hb
      rw [Function.update_of_ne, hun b hb]
      rintro rfl
      exact hb (mem_winC _ hR.foot.w0_mem)
    generalize Function.update m1 (out ck.w0) (m1 (out ck.w0) * f start.toNat) = m2 at hm hun2
    have e : stop.toNat - (start.toNat + 1) = (stop - (start + 1)).toNat := by omega
    rw [e, List.range'_eq_map_range, List.foldlM_map]
    refine (run_foldlM_py (fun m s => ShowsC ck v out m s ∧
      (∀ i < index.length, m (scale i) = f i) ∧ ∀ i < ndat, ShowsC ck v (data i) m (d i)) _ ?_ ?_ m2
      (k.mulWeight (d s.toNat) (f start.toNat)) r ⟨hm, ?_, ?_⟩ hr).1
    · intro j _ o ho
      unfold rowStep at ho
      obtain ⟨_, _, ho⟩ := bind_ok ho
      obtain ⟨_, _, ho⟩ := bind_ok ho
      obtain ⟨_, _, ho⟩ := bind_ok ho
      cases ho
      rfl
    · rintro m s s' j _ ⟨hs, hf, hdat⟩ hg
      unfold rowStep at hg
      obtain ⟨s1, hs1, hg⟩ := bind_ok hg
      obtain ⟨f1, hf1, hg⟩ := bind_ok hg
      obtain ⟨d1, hd1, hg⟩ := bind_ok hg
      obtain ⟨hst1, hs1⟩ := readAt_getD (b := (0 : ℤ)) hs1
      obtain ⟨_, rfl⟩ := readAt_map hf1
      obtain ⟨hsd1, rfl⟩ := readAt_map hd1
      have ej : (start + 1 + (j : ℤ)).toNat = start.toNat + 1 + j := by omega
      rw [ej] at hst1 hs1 hg
      simp only [run_bind, run_get, hs1]
      rw [hf _ hst1]
      rw [Set.disjoint_union_left] at hin
      refine ⟨hR.pushScale _ hd (hin.2.mono_left (winC_sub_rowsC _ hsd1)) (hdat _ hsd1) hs ?_,
        fun i hi => ?_, fun i hi => (hdat i hi).keep (hR.foot.pushScale _ _ _)
          (hin.2.mono_left (winC_sub_rowsC _ hi))⟩
      · exact Except.ok.inj hg
      · rw [run_unwritten (hR.foot.pushScale _ _ _) (Set.disjoint_left.1 hin.1
          (show scale i ∈ cells index.length scale from ⟨i, hi, rfl⟩)), hf i hi]
    · intro i hi
      rw [hun2 _ (Set.disjoint_left.1 hin (Or.inl ⟨i, hi, rfl⟩)), hf i hi]
    · intro i hi
      exact (hdat i hi).congr fun b hb =>
        hun2 b (Set.disjoint_left.1 hin (Or.inr (winC_sub_rowsC _ hi hb)))
  · rw [if_neg h] at hr ⊢
    cases hr
    exact hz

theorem gReduceIndexed_shows (hR : Refines ck k v val vc) {index start stop : List ℤ} {ndat : ℕ}
    (hr : InRange ndat index start stop) {scale : ℕ → A} {data out : ℕ → I → A}
    (hd : RowsDistinct ck start.length out)
    (hin : Disjoint (cells index.length scale ∪ rowsC ck ndat data) (rowsC ck start.length out))
    {m : A → K} {d : ℕ → M} (hdat : ∀ i < ndat, ShowsC ck v (data i) m (d i)) {g : ℕ}
    (hg : g < start.length) {r : M}
    (h : row k ((List.range ndat).map d) index
      ((List.range index.length).map fun i => m (scale i)) (start.getD g 0) (stop.getD g 0) =
      .ok (some r)) :
    ShowsC ck v (out g) ((@CellKernel.gReduceIndexed A K X XA I (exact K) ck index start stop scale
      data out).run m).2 r := by
  unfold CellKernel.gReduceIndexed
  rw [run_bind]
  have hz0 : ∀ r ∈ List.range start.length,
      (@CellKernel.gZero A K X XA I (exact K) ck (out r)).Within
      (cells index.length scale ∪ rowsC ck ndat data ∪ winC ck (out r)) (winC ck (out r)) :=
    fun r _ => @gZero_within A K X XA I (exact K) ck _ _
  have hz : ShowsC ck v (out g) (((List.range start.length).foldlM (fun _ r =>
      @CellKernel.gZero A K X XA I (exact K) ck (out r)) ()).run m).2 k.zero :=
    rows_alone hd hin _ List.nodup_range (fun r hr => List.mem_range.1 hr) hz0 m
      (List.mem_range.2 hg) (gZero_shows hR (hd.row hg) m)
  have hun : ∀ a, a ∉ rowsC ck start.length out → (((List.range start.length).foldlM (fun _ r =>
      @CellKernel.gZero A K X XA I (exact K) ck (out r)) ()).run m).2 a = m a := fun a ha =>
    run_unwritten (rows_within _ (fun r hr => List.mem_range.1 hr) hz0) ha m
  generalize (((List.range start.length).foldlM (fun _ r =>
      @CellKernel.gZero A K X XA I (exact K) ck (out r)) ()).run m).2 = m1 at hz hun
  refine rows_alone hd hin _ List.nodup_range (fun r hr => List.mem_range.1 hr) ?_ m1
    (List.mem_range.2 hg) (gIndexedRow_shows hR (hd.row hg)
      (hin.mono_right (winC_sub_rowsC _ hg)) (f := fun i => m (scale i)) ?_ ?_ hz h)
  · intro g hg
    have hg := List.mem_range.1 hg
    exact @gIndexedRow_within A K X XA I ck vc (exact K) hR.foot _ _ _ _ hr.inside (hr.lo g hg) (hr.hi g hg) _ _ _
  · intro i hi
    exact hun _ (Set.disjoint_left.1 hin (Or.inl ⟨i, hi, rfl⟩))
  · intro i hi
    exact (hdat i hi).congr fun b hb =>
      hun b (Set.disjoint_left.1 hin (Or.inr (winC_sub_rowsC _ hi hb)))

end loops

end values

end Cmomy.Par
