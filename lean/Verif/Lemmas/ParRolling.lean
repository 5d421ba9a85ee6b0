import Verif.Model.ParRolling
import Verif.Lemmas.ParLoops
import Verif.Model.Rolling

/-! # Footprints of the rolling kernels -/

namespace Cmomy.Par

set_option linter.unusedSectionVars false

variable {A V X XA I α : Type} [Arith V] {k : CellKernel A V X XA I} {vc : XA → Set A}

theorem gEmit_within (k : CellKernel A V X XA I) (nan : V) (c c' : ℤ) (tmp out : I → A) :
    (k.gEmit nan c c' tmp out).Within (winC k tmp) (winC k out) := by
  unfold CellKernel.gEmit
  split_ifs
  · exact gCopy_within k _ _
  · exact Prog.Within.foldlM _ _ fun _ _ hi => within_put _ (mem_winC _ hi)

theorem gRollNew_within (hk : Footprint k vc) (data tmp : I → A) (c : ℤ) :
    (k.gRollNew data tmp c).Within (winC k data ∪ winC k tmp) (winC k tmp) := by
  refine (within_get (show data k.w0 ∈ _ from Or.inl (mem_winC _ hk.w0_mem))).bind fun wi => ?_
  split_ifs
  · exact .pure _
  · exact (hk.pushData _ _).bind fun _ => .pure _

theorem gRollOld_within (hk : Footprint k vc) (lt : V → V → Bool) (wold : V) (data tmp : I → A)
    (c : ℤ) :
    (k.gRollOld lt wold data tmp c).Within (winC k data ∪ winC k tmp) (winC k tmp) := by
  unfold CellKernel.gRollOld
  split_ifs
  · exact .pure _
  · refine (within_get (show tmp k.w0 ∈ _ from Or.inr (mem_winC _ hk.w0_mem))).bind fun t => ?_
    cases lt wold t
    · exact (gZero_within k tmp _).bind fun _ => .pure _
    · exact (hk.pushScale _ _ _).bind fun _ => .pure _

theorem gRollingData_within (hk : Footprint k vc) (lt : V → V → Bool) (nan : V) (window : ℕ)
    (c : ℤ) (n : ℕ) (data : ℕ → I → A) (tmp : I → A) (out : ℕ → I → A) :
    (k.gRollingData lt nan window c n data tmp out).Within
      (rowsC k n data ∪ (winC k tmp ∪ rowsC k n out)) (winC k tmp ∪ rowsC k n out) := by
  have hnew : ∀ i < n, ∀ c, (k.gRollNew (data i) tmp c).Within
      (rowsC k n data ∪ (winC k tmp ∪ rowsC k n out)) (winC k tmp ∪ rowsC k n out) :=
    fun i hi c => (gRollNew_within hk _ _ _).mono
      (Set.union_subset_union (winC_sub_rowsC _ hi) Set.subset_union_left) Set.subset_union_left
  have hemit : ∀ i < n, ∀ c', (k.gEmit nan c c' tmp (out i)).Within
      (rowsC k n data ∪ (winC k tmp ∪ rowsC k n out)) (winC k tmp ∪ rowsC k n out) :=
    fun i hi c' => (gEmit_within k _ _ _ _ _).mono (fun _ h => Or.inr (Or.inl h))
      (fun _ h => Or.inr (winC_sub_rowsC _ hi h))
  refine ((gZero_within k tmp _).mono subset_rfl Set.subset_union_left).bind fun _ =>
    (Prog.Within.foldlM _ _ fun c i hi => ?_).bind fun c0 =>
    (Prog.Within.foldlM _ _ fun c i hi => ?_).bind fun _ => .pure _
  · rw [List.mem_range] at hi
    exact (hnew i (by omega) _).bind fun _ => (hemit i (by omega) _).bind fun _ => .pure _
  · rw [List.mem_range'_1] at hi
    refine (within_get (show data (i - window) k.w0 ∈ _ from
      Or.inl ⟨i - window, by omega, _, hk.w0_mem, rfl⟩)).bind fun wold =>
      (hnew i (by omega) _).bind fun c1 => ?_
    refine ((gRollOld_within hk lt wold _ _ _).mono
      (Set.union_subset_union (winC_sub_rowsC data (by omega : i - window < n))
        Set.subset_union_left) Set.subset_union_left).bind fun _ =>
      (hemit i (by omega) _).bind fun _ => .pure _

theorem gRollNewVal_within (hk : Footprint k vc) (x : XA) (w : A) (tmp : I → A) (c : ℤ) :
    (k.gRollNewVal x w tmp c).Within (vc x ∪ {w} ∪ winC k tmp) (winC k tmp) := by
  refine (within_get (show w ∈ _ from Or.inl (Or.inr rfl))).bind fun wi => ?_
  split_ifs
  · exact .pure _
  · exact ((hk.getVal x).mono (fun _ h => Or.inl (Or.inl h)) (Set.empty_subset _)).bind fun _ =>
      ((hk.pushVal _ _ _).mono Set.subset_union_right subset_rfl).bind fun _ => .pure _

theorem gRollOldVal_within (hk : Footprint k vc) (lt : V → V → Bool) (wold : V) (x : XA)
    (tmp : I → A) (c : ℤ) :
    (k.gRollOldVal lt wold x tmp c).Within (vc x ∪ winC k tmp) (winC k tmp) := by
  unfold CellKernel.gRollOldVal
  split_ifs
  · exact .pure _
  · refine (within_get (show tmp k.w0 ∈ _ from Or.inr (mem_winC _ hk.w0_mem))).bind fun t => ?_
    cases lt wold t
    · exact (gZero_within k tmp _).bind fun _ => .pure _
    · exact ((hk.getVal x).mono (fun _ h => Or.inl h) (Set.empty_subset _)).bind fun _ =>
        ((hk.pushVal _ _ _).mono Set.subset_union_right subset_rfl).bind fun _ => .pure _

theorem gRollingVals_within (hk : Footprint k vc) (lt : V → V → Bool) (nan : V) (window : ℕ)
    (c : ℤ) (n : ℕ) (x : ℕ → XA) (w : ℕ → A) (tmp : I → A) (out : ℕ → I → A) :
    (k.gRollingVals lt nan window c n x w tmp out).Within
      (vcells vc n x ∪ cells n w ∪ (winC k tmp ∪ rowsC k n out))
      (winC k tmp ∪ rowsC k n out) := by
  have hx : ∀ i < n, vc (x i) ⊆ vcells vc n x := fun i hi _ h => show ∃ _, _ from ⟨i, hi, h⟩
  have hnew : ∀ i < n, ∀ c, (k.gRollNewVal (x i) (w i) tmp c).Within
      (vcells vc n x ∪ cells n w ∪ (winC k tmp ∪ rowsC k n out)) (winC k tmp ∪ rowsC k n out) :=
    fun i hi c => (gRollNewVal_within hk _ _ _ _).mono
      (Set.union_subset_union (Set.union_subset_union (hx i hi)
        (by rintro _ rfl; exact ⟨i, hi, rfl⟩)) Set.subset_union_left) Set.subset_union_left
  have hemit : ∀ i < n, ∀ c', (k.gEmit nan c c' tmp (out i)).Within
      (vcells vc n x ∪ cells n w ∪ (winC k tmp ∪ rowsC k n out)) (winC k tmp ∪ rowsC k n out) :=
    fun i hi c' => (gEmit_within k _ _ _ _ _).mono (fun _ h => Or.inr (Or.inl h))
      (fun _ h => Or.inr (winC_sub_rowsC _ hi h))
  refine ((gZero_within k tmp _).mono subset_rfl Set.subset_union_left).bind fun _ =>
    (Prog.Within.foldlM _ _ fun c i hi => ?_).bind fun c0 =>
    (Prog.Within.foldlM _ _ fun c i hi => ?_).bind fun _ => .pure _
  · rw [List.mem_range] at hi
    exact (hnew i (by omega) _).bind fun _ => (hemit i (by omega) _).bind fun _ => .pure _
  · rw [List.mem_range'_1] at hi
    refine (within_get (show w (i - window) ∈ _ from
      Or.inl (Or.inr ⟨i - window, by omega, rfl⟩))).bind fun wold =>
      (hnew i (by omega) _).bind fun c1 => ?_
    refine ((gRollOldVal_within hk lt wold _ _ _).mono
      (Set.union_subset_union (fun _ h => Or.inl (hx (i - window) (by omega) h))
        Set.subset_union_left) Set.subset_union_left).bind fun _ =>
      (hemit i (by omega) _).bind fun _ => .pure _

theorem gScaleWeight_within (hk : Footprint k vc) (f : V → V) (tmp : I → A) :
    (k.gScaleWeight f tmp).Within (winC k tmp) (winC k tmp) :=
  (within_get (mem_winC _ hk.w0_mem)).bind fun _ => within_put _ (mem_winC _ hk.w0_mem)

theorem gExpNew_within {R W : Set A} {tmp : I → A}
    (hs : ∀ f : V → V, (k.gScaleWeight f tmp).Within R W) (adjust : Bool) (wi a old : V) (c : ℤ)
    {push : Prog A V Unit} (hp : push.Within R W) :
    (k.gExpNew adjust wi a old push tmp c).Within R W := by
  unfold CellKernel.gExpNew
  split_ifs
  · exact .pure _
  · exact hp.bind fun _ => .pure _
  · exact hp.bind fun _ => (hs _).bind fun _ => .pure _

theorem gRollingExpData_within (hk : Footprint k vc) (adjust : Bool) (nan : V) (c : ℤ) (n : ℕ)
    (alpha : ℕ → A) (data : ℕ → I → A) (tmp : I → A) (out : ℕ → I → A) :
    (k.gRollingExpData adjust nan c n alpha data tmp out).Within
      (cells n alpha ∪ rowsC k n data ∪ (winC k tmp ∪ rowsC k n out))
      (winC k tmp ∪ rowsC k n out) := by
  refine ((gZero_within k tmp _).mono subset_rfl Set.subset_union_left).bind fun _ =>
    (Prog.Within.foldlM _ _ fun st i hi => ?_).bind fun _ => .pure _
  rw [List.mem_range] at hi
  have hsc : ∀ f : V → V, (k.gScaleWeight f tmp).Within
      (cells n alpha ∪ rowsC k n data ∪ (winC k tmp ∪ rowsC k n out))
      (winC k tmp ∪ rowsC k n out) := fun f =>
    (gScaleWeight_within hk f tmp).mono (fun _ h => Or.inr (Or.inl h)) Set.subset_union_left
  have hem : ∀ c', (k.gEmit nan c c' tmp (out i)).Within
      (cells n alpha ∪ rowsC k n data ∪ (winC k tmp ∪ rowsC k n out))
      (winC k tmp ∪ rowsC k n out) := fun c' =>
    (gEmit_within k _ _ _ _ _).mono (fun _ h => Or.inr (Or.inl h))
      (fun _ h => Or.inr (winC_sub_rowsC _ hi h))
  refine (within_get (show data i k.w0 ∈ _ from
      Or.inl (Or.inr ⟨i, hi, _, hk.w0_mem, rfl⟩))).bind fun wi =>
    (within_get (show alpha i ∈ _ from Or.inl (Or.inl ⟨i, hi, rfl⟩))).bind fun a =>
    (hsc _).bind fun _ => ?_
  exact (gExpNew_within hsc _ _ _ _ _ ((hk.pushScale _ _ _).mono (Set.union_subset_union
    (fun _ h => Or.inr (winC_sub_rowsC _ hi h)) Set.subset_union_left)
    Set.subset_union_left)).bind fun _ => (hem _).bind fun _ => .pure _

theorem gRollingExpVals_within (hk : Footprint k vc) (adjust : Bool) (nan : V) (c : ℤ) (n : ℕ)
    (alpha : ℕ → A) (x : ℕ → XA) (w : ℕ → A) (tmp : I → A) (out : ℕ → I → A) :
    (k.gRollingExpVals adjust nan c n alpha x w tmp out).Within
      (cells n alpha ∪ (vcells vc n x ∪ cells n w) ∪ (winC k tmp ∪ rowsC k n out))
      (winC k tmp ∪ rowsC k n out) := by
  refine ((gZero_within k tmp _).mono subset_rfl Set.subset_union_left).bind fun _ =>
    (Prog.Within.foldlM _ _ fun st i hi => ?_).bind fun _ => .pure _
  rw [List.mem_range] at hi
  have hsc : ∀ f : V → V, (k.gScaleWeight f tmp).Within
      (cells n alpha ∪ (vcells vc n x ∪ cells n w) ∪ (winC k tmp ∪ rowsC k n out))
      (winC k tmp ∪ rowsC k n out) := fun f =>
    (gScaleWeight_within hk f tmp).mono (fun _ h => Or.inr (Or.inl h)) Set.subset_union_left
  have hem : ∀ c', (k.gEmit nan c c' tmp (out i)).Within
      (cells n alpha ∪ (vcells vc n x ∪ cells n w) ∪ (winC k tmp ∪ rowsC k n out))
      (winC k tmp ∪ rowsC k n out) := fun c' =>
    (gEmit_within k _ _ _ _ _).mono (fun _ h => Or.inr (Or.inl h))
      (fun _ h => Or.inr (winC_sub_rowsC _ hi h))
  have hgv : (k.getVal (x i)).Within
      (cells n alpha ∪ (vcells vc n x ∪ cells n w) ∪ (winC k tmp ∪ rowsC k n out))
      (winC k tmp ∪ rowsC k n out) :=
    (hk.getVal (x i)).mono (fun _ h => Or.inl (Or.inr (Or.inl (show ∃ _, _ from ⟨i, hi, h⟩))))
      (Set.empty_subset _)
  refine (within_get (show w i ∈ _ from Or.inl (Or.inr (Or.inr ⟨i, hi, rfl⟩)))).bind fun wi =>
    (within_get (show alpha i ∈ _ from Or.inl (Or.inl ⟨i, hi, rfl⟩))).bind fun a =>
    (hsc _).bind fun _ => ?_
  exact (gExpNew_within hsc _ _ _ _ _ (hgv.bind fun _ => (hk.pushVal _ _ _).mono
    (fun _ h => Or.inr (Or.inl h)) Set.subset_union_left)).bind fun _ =>
    (hem _).bind fun _ => .pure _

/-! ### Values -/

section values

variable {K M : Type} [DecidableEq A]

omit [Arith V] in
theorem scan_shows {σp σ ι β : Type} {body : σp → ℕ → Prog A V σp} {step : σ → ι → Option σ}
    {emit : σ → β} {f : ℕ → ι} (Inv : (A → V) → σp → σ → Prop) (Row : ℕ → (A → V) → β → Prop)
    (n : ℕ) (l : List ℕ) (hl : ∀ i ∈ l, i < n) (hnd : l.Nodup)
    (h : ∀ i ∈ l, ∀ m sp s s', Inv m sp s → step s (f i) = some s' →
      Inv ((body sp i).run m).2 ((body sp i).run m).1 s' ∧ Row i ((body sp i).run m).2 (emit s'))
    (hkeep : ∀ i < n, ∀ j < n, j ≠ i → ∀ m sp b, Row j m b → Row j ((body sp i).run m).2 b)
    {m : A → V} {sp : σp} {s s' : σ} {rs : List β} (hinv : Inv m sp s)
    (hs : scanEmit step emit (l.map f) s = some (rs, s')) :
    Inv ((l.foldlM body sp).run m).2 ((l.foldlM body sp).run m).1 s' ∧ rs.length = l.length ∧
    (∀ t (ht : t < l.length) (ht' : t < rs.length), Row l[t] ((l.foldlM body sp).run m).2 rs[t]) ∧
    ∀ j < n, j ∉ l → ∀ b, Row j m b → Row j ((l.foldlM body sp).run m).2 b := by
  induction l generalizing m sp s rs with
  | nil =>
    cases hs
    exact ⟨hinv, rfl, fun t ht => by simp at ht, fun j _ _ b hb => hb⟩
  | cons i l ih =>
    rw [List.map_cons] at hs
    unfold scanEmit at hs
    obtain ⟨s1, hs1, hs⟩ := Option.bind_eq_some_iff.1 hs
    obtain ⟨p, hp, hs⟩ := Option.map_eq_some_iff.1 hs
    obtain ⟨rs1, s2⟩ := p
    cases hs
    obtain ⟨hi, hnd⟩ := List.nodup_cons.1 hnd
    obtain ⟨h1, h2⟩ := h i List.mem_cons_self m sp s s1 hinv hs1
    obtain ⟨a, b, c, d⟩ := ih (fun j hj => hl j (List.mem_cons_of_mem _ hj)) hnd
      (fun j hj => h j (List.mem_cons_of_mem _ hj)) h1 hp
    rw [List.foldlM_cons, run_bind]
    refine ⟨a, by simp [b], ?_, ?_⟩
    · intro t ht ht'
      cases t with
      | zero => exact d i (hl i List.mem_cons_self) hi _ h2
      | succ t => exact c t (by simpa using ht) (by simpa using ht')
    · intro j hj hjl b hb
      rw [List.mem_cons, not_or] at hjl
      exact d j hj hjl.2 _ (hkeep i (hl i List.mem_cons_self) j hj hjl.1 _ _ _ hb)

variable [Field K] [LinearOrder K] {ck : CellKernel A K X XA I} {k : Kernel K X M}
  {v : M → I → K} {val : XA → (A → K) → X} {vc : XA → Set A}

/-- The cells `out` hold the row, or `nan` everywhere. -/
def RowShows (ck : CellKernel A K X XA I) (v : M → I → K) (nan : K) (out : I → A) (m : A → K) :
    Option M → Prop
  | some s => ShowsC ck v out m s
  | none => ∀ i ∈ ck.idx, m (out i) = nan

theorem RowShows.keep {nan : K} {out : I → A} {m : A → K} {s : Option M}
    (h : RowShows ck v nan out m s) {R W : Set A}
    {p : Prog A K α} (hp : p.Within R W) (hd : Disjoint (winC ck out) W) :
    RowShows ck v nan out (p.run m).2 s := by
  cases s with
  | some s => exact ShowsC.keep h hp hd
  | none =>
    exact fun i hi => (run_unwritten hp (Set.disjoint_left.1 hd (mem_winC _ hi)) m).trans (h i hi)

theorem gEmit_shows (hn : ck.idx.Nodup) (nan : K) (minCount count : ℤ) {tmp out : I → A}
    (hd : DistinctC ck out) (hsep : Disjoint (winC ck tmp) (winC ck out)) {m : A → K} {s : M}
    (h : ShowsC ck v tmp m s) :
    RowShows ck v nan out
      ((@CellKernel.gEmit A K X XA I ck nan minCount count tmp out).run m).2
      (if count ≥ minCount then some s else none) := by
  unfold CellKernel.gEmit
  split_ifs
  · exact gCopy_shows hn hd hsep h
  · intro i hi
    rw [foldlM_alone (R := fun _ => ∅) (W := fun i => {out i})
      (prog := fun i => put (out i) nan) ck.idx hn ?_ ?_ m hi rfl]
    · simp only [run_put, Function.update_self]
    · exact fun i _ => within_put _ rfl
    · intro x hx y hy hxy
      simp only [Set.empty_union, Set.disjoint_singleton]
      exact fun e => hxy (hd x hx y hy e)

/-- The order test of the exact kernels. -/
def ltK (a b : K) : Bool := decide (a < b)

theorem run_getLt (a : A) (w : K) (p q : Prog A K α) (m : A → K) :
    ((get a >>= fun t => if ltK w t then p else q : Prog A K α)).run m =
      if w < m a then p.run m else q.run m := by
  rw [run_bind]
  change (if decide (w < m a) = true then p else q).run m = _
  by_cases h : w < m a
  · rw [if_pos (decide_eq_true h), if_pos h]
  · rw [if_neg (fun h' => h (of_decide_eq_true h')), if_neg h]

theorem gRollNew_shows (hR : Refines ck k v val vc) {data tmp : I → A} (hd : DistinctC ck tmp)
    (hsep : Disjoint (winC ck data) (winC ck tmp)) {m : A → K} {d : M} {s s' : Kernel.RollState M}
    (hdat : ShowsC ck v data m d) (hs : ShowsC ck v tmp m s.dummy)
    (h : k.rollAdd s d = some s') :
    ShowsC ck v tmp ((@CellKernel.gRollNew A K X XA I (exact K) ck data tmp s.count).run m).2
      s'.dummy ∧
    ((@CellKernel.gRollNew A K X XA I (exact K) ck data tmp s.count).run m).1 = s'.count := by
  unfold CellKernel.gRollNew
  rw [run_getIf, hdat _ hR.foot.w0_mem, hR.weight]
  unfold Kernel.rollAdd at h
  split_ifs at h with hw
  · rw [if_neg hw]
    obtain ⟨r, hr, h⟩ := Option.bind_eq_some_iff.1 h
    cases h
    rw [run_bind]
    exact ⟨hR.pushData hd hsep hdat hs hr, rfl⟩
  · rw [if_pos (not_not.1 hw)]
    cases h
    exact ⟨hs, rfl⟩

theorem gRollOld_shows (hR : Refines ck k v val vc) {data tmp : I → A} (hd : DistinctC ck tmp)
    (hsep : Disjoint (winC ck data) (winC ck tmp)) {m : A → K} {d : M} {s s' : Kernel.RollState M}
    (hdat : ShowsC ck v data m d) (hs : ShowsC ck v tmp m s.dummy)
    (h : (if k.weight d ≠ 0 then
      if k.weight d < k.weight s.dummy then do
        let m ← k.pushScale d (-1) s.dummy
        return ⟨m, s.count - 1⟩
      else return ⟨k.zero, s.count - 1⟩
      else return s : Option (Kernel.RollState M)) = some s') :
    ShowsC ck v tmp ((@CellKernel.gRollOld A K X XA I (exact K) ck ltK (k.weight d) data tmp
      s.count).run m).2 s'.dummy ∧
    ((@CellKernel.gRollOld A K X XA I (exact K) ck ltK (k.weight d) data tmp s.count).run m).1 =
      s'.count := by
  unfold CellKernel.gRollOld
  by_cases hw : k.weight d = 0
  · rw [if_neg (not_not.2 hw)] at h
    cases h
    rw [if_pos (show @Arith.isZero K (exact K) (k.weight d) = true from decide_eq_true hw)]
    exact ⟨hs, rfl⟩
  · rw [if_pos hw] at h
    rw [if_neg (show ¬ @Arith.isZero K (exact K) (k.weight d) = true from
      fun e => hw (of_decide_eq_true e)), run_getLt, hs _ hR.foot.w0_mem, hR.weight]
    split_ifs at h with hlt
    · obtain ⟨r, hr, h⟩ := Option.bind_eq_some_iff.1 h
      cases h
      rw [if_pos hlt, run_bind]
      exact ⟨hR.pushScale _ hd hsep hdat hs hr, rfl⟩
    · cases h
      rw [if_neg hlt, run_bind]
      exact ⟨gZero_shows hR hd m, rfl⟩

/-- Where a rolling kernel keeps its arrays. -/
structure Places (ck : CellKernel A K X XA I) (n : ℕ) (inputs : Set A) (tmp : I → A)
    (out : ℕ → I → A) : Prop where
  rows : RowsDistinct ck n out
  own : DistinctC ck tmp
  tmp_out : Disjoint (winC ck tmp) (rowsC ck n out)
  kept : Disjoint inputs (winC ck tmp ∪ rowsC ck n out)

theorem zip_drop_range {ι : Type} (f : ℕ → ι) (n window : ℕ) :
    ((((List.range n).map f).drop window).zip ((List.range n).map f)) =
      (List.range' window (n - window)).map fun i => (f i, f (i - window)) := by
  apply List.ext_getElem
  · simp
  · intro i h1 h2
    simp

theorem take_range {ι : Type} (f : ℕ → ι) (n window : ℕ) :
    ((List.range n).map f).take window = (List.range (min window n)).map f := by
  rw [← List.map_take, List.take_range]

theorem gRollingData_shows (hR : Refines ck k v val vc) (nan : K) (window : ℕ) (minCount : ℤ)
    {n : ℕ} {data out : ℕ → I → A} {tmp : I → A} (hp : Places ck n (rowsC ck n data) tmp out)
    {m : A → K} {d : ℕ → M} (hdat : ∀ i < n, ShowsC ck v (data i) m (d i)) {rs : List (Option M)}
    (h : k.rollingKernel window minCount ((List.range n).map d) = some rs) :
    rs.length = n ∧ ∀ i (hi : i < rs.length), RowShows ck v nan (out i)
      ((@CellKernel.gRollingData A K X XA I (exact K) ck ltK nan window minCount n data tmp
        out).run m).2 rs[i] := by
  have hdt : ∀ i < n, Disjoint (winC ck (data i)) (winC ck tmp) := fun i hi =>
    (hp.kept.mono_left (winC_sub_rowsC data hi)).mono_right Set.subset_union_left
  have hdo : ∀ i < n, ∀ j < n, Disjoint (winC ck (data i)) (winC ck (out j)) := fun i hi j hj =>
    (hp.kept.mono_left (winC_sub_rowsC data hi)).mono_right
      ((winC_sub_rowsC out hj).trans Set.subset_union_right)
  have hto : ∀ j < n, Disjoint (winC ck tmp) (winC ck (out j)) := fun j hj =>
    hp.tmp_out.mono_right (winC_sub_rowsC out hj)
  have hemit : ∀ i c c', (@CellKernel.gEmit A K X XA I ck nan c c' tmp (out i)).Within
      (winC ck tmp) (winC ck (out i)) := fun i c c' => @gEmit_within A K X XA I (exact K) ck nan c c' _ _
  have hnewW : ∀ i c, (@CellKernel.gRollNew A K X XA I (exact K) ck (data i) tmp c).Within
      (winC ck (data i) ∪ winC ck tmp) (winC ck tmp) := fun i c =>
    @gRollNew_within A K X XA I (exact K) ck vc hR.foot _ _ _
  have holdW : ∀ i c w, (@CellKernel.gRollOld A K X XA I (exact K) ck ltK w (data i) tmp c).Within
      (winC ck (data i) ∪ winC ck tmp) (winC ck tmp) := fun i c w =>
    @gRollOld_within A K X XA I (exact K) ck vc hR.foot _ _ _ _ _
  unfold Kernel.rollingKernel at h
  obtain ⟨first, hfirst, h⟩ := Option.bind_eq_some_iff.1 h
  obtain ⟨rest, hrest, h⟩ := Option.bind_eq_some_iff.1 h
  cases h
  rw [zip_drop_range] at hrest
  rw [take_range] at hfirst
  let Inv : (A → K) → ℤ → Kernel.RollState M → Prop := fun m c s =>
    c = s.count ∧ ShowsC ck v tmp m s.dummy ∧ ∀ i < n, ShowsC ck v (data i) m (d i)
  let Row : ℕ → (A → K) → Option M → Prop := fun j m b => RowShows ck v nan (out j) m b
  unfold CellKernel.gRollingData
  simp only [run_bind, run_pure]
  have h0 : Inv ((@CellKernel.gZero A K X XA I (exact K) ck tmp).run m).2 0 ⟨k.zero, 0⟩ :=
    ⟨rfl, gZero_shows hR hp.own m, fun i hi =>
      (hdat i hi).keep (@gZero_within A K X XA I (exact K) ck tmp ∅) (hdt i hi)⟩
  obtain ⟨a1, b1, c1, -⟩ := scan_shows (V := K) Inv Row n (List.range (min window n))
    (fun i hi => by have := List.mem_range.1 hi; omega) List.nodup_range
    (body := fun count i => do
      let count ← @CellKernel.gRollNew A K X XA I (exact K) ck (data i) tmp count
      ck.gEmit nan minCount count tmp (out i)
      pure count) (f := d) (emit := Kernel.rollEmit minCount)
    (by
      rintro i hi m _ s s' ⟨rfl, hs, hdat⟩ hstep
      have hi : i < n := by have := List.mem_range.1 hi; omega
      obtain ⟨e1, e2⟩ := gRollNew_shows hR hp.own (hdt i hi) (hdat i hi) hs hstep
      simp only [run_bind, run_pure]
      rw [e2]
      refine ⟨⟨rfl, e1.keep (hemit i _ _) (hto i hi), fun j hj => ?_⟩, ?_⟩
      · exact ((hdat j hj).keep (hnewW i _) (hdt j hj)).keep (hemit i _ _) (hdo j hj i hi)
      · exact gEmit_shows hR.foot.nodup nan minCount _ (hp.rows.row hi) (hto i hi) e1)
    (by
      intro i hi j hj hne m sp b hb
      simp only [run_bind, run_pure]
      exact (RowShows.keep hb (hnewW i _) (hto j hj).symm).keep (hemit i _ _)
        (hp.rows.disjoint hj hi hne)) h0 hfirst
  obtain ⟨-, b2, c2, d2⟩ := scan_shows (V := K) Inv Row n (List.range' window (n - window))
    (fun i hi => by have := List.mem_range'_1.1 hi; omega) List.nodup_range'
    (body := fun count i => do
      let wold ← get (data (i - window) ck.w0)
      let count ← @CellKernel.gRollNew A K X XA I (exact K) ck (data i) tmp count
      let count ← @CellKernel.gRollOld A K X XA I (exact K) ck ltK wold (data (i - window)) tmp count
      ck.gEmit nan minCount count tmp (out i)
      pure count) (f := fun i => (d i, d (i - window))) (emit := Kernel.rollEmit minCount)
    (by
      rintro i hi m _ s s' ⟨rfl, hs, hdat⟩ hstep
      have hi : i < n := by have := List.mem_range'_1.1 hi; omega
      have hiw : i - window < n := by omega
      unfold Kernel.rollStep at hstep
      obtain ⟨s1, hs1, hstep⟩ := Option.bind_eq_some_iff.1 hstep
      obtain ⟨e1, e2⟩ := gRollNew_shows hR hp.own (hdt i hi) (hdat i hi) hs hs1
      have hdat1 : ∀ j < n, ShowsC ck v (data j) ((@CellKernel.gRollNew A K X XA I (exact K) ck
        (data i) tmp s.count).run m).2 (d j) := fun j hj => (hdat j hj).keep (hnewW i _) (hdt j hj)
      obtain ⟨f1, f2⟩ := gRollOld_shows hR hp.own (hdt _ hiw) (hdat1 _ hiw) e1 hstep
      simp only [run_bind, run_pure, run_get]
      rw [hdat _ hiw _ hR.foot.w0_mem, hR.weight, e2, f2]
      refine ⟨⟨rfl, f1.keep (hemit i _ _) (hto i hi), fun j hj => ?_⟩, ?_⟩
      · exact ((hdat1 j hj).keep (holdW _ _ _) (hdt j hj)).keep (hemit i _ _) (hdo j hj i hi)
      · exact gEmit_shows hR.foot.nodup nan minCount _ (hp.rows.row hi) (hto i hi) f1)
    (by
      intro i hi j hj hne m sp b hb
      simp only [run_bind, run_pure, run_get]
      exact ((RowShows.keep hb (hnewW i _) (hto j hj).symm).keep (holdW _ _ _)
        (hto j hj).symm).keep (hemit i _ _) (hp.rows.disjoint hj hi hne)) a1 hrest
  rw [List.length_range] at b1
  rw [List.length_range'] at b2
  refine ⟨by rw [List.length_append]; omega, fun i hi => ?_⟩
  rw [List.length_append] at hi
  by_cases hlt : i < first.1.length
  · rw [List.getElem_append_left hlt]
    have := c1 i (by rw [List.length_range]; omega) hlt
    rw [List.getElem_range] at this
    exact d2 i (by omega) (fun hm => by have := List.mem_range'_1.1 hm; omega) _ this
  · rw [List.getElem_append_right (by omega)]
    have := c2 (i - first.1.length) (by rw [List.length_range']; omega) (by omega)
    rw [List.getElem_range'] at this
    have e : window + 1 * (i - first.1.length) = i := by omega
    rw [e] at this
    exact this

theorem gRollNewVal_shows (hR : Refines ck k v val vc) {x : XA} {w : A} {tmp : I → A}
    (hd : DistinctC ck tmp) {m : A → K} {s s' : Kernel.RollState M}
    (hs : ShowsC ck v tmp m s.dummy) (h : k.rollAddVal s (val x m, m w) = some s') :
    ShowsC ck v tmp ((@CellKernel.gRollNewVal A K X XA I (exact K) ck x w tmp s.count).run m).2
      s'.dummy ∧
    ((@CellKernel.gRollNewVal A K X XA I (exact K) ck x w tmp s.count).run m).1 = s'.count := by
  unfold CellKernel.gRollNewVal
  rw [run_getIf]
  unfold Kernel.rollAddVal at h
  split_ifs at h with hw
  · rw [if_neg hw]
    obtain ⟨r, hr, h⟩ := Option.bind_eq_some_iff.1 h
    cases h
    simp only [run_bind, hR.getVal, run_pure]
    exact ⟨hR.pushVal _ _ hd hs hr, trivial⟩
  · rw [if_pos (not_not.1 hw)]
    cases h
    exact ⟨hs, rfl⟩

theorem gRollOldVal_shows (hR : Refines ck k v val vc) {x : XA} {wold : K} {tmp : I → A}
    (hd : DistinctC ck tmp) {m : A → K} {s s' : Kernel.RollState M}
    (hs : ShowsC ck v tmp m s.dummy)
    (h : (if wold ≠ 0 then
      if wold < k.weight s.dummy then do
        let m ← k.pushVal (val x m) (-wold) s.dummy
        return ⟨m, s.count - 1⟩
      else return ⟨k.zero, s.count - 1⟩
      else return s : Option (Kernel.RollState M)) = some s') :
    ShowsC ck v tmp ((@CellKernel.gRollOldVal A K X XA I (exact K) ck ltK wold x tmp
      s.count).run m).2 s'.dummy ∧
    ((@CellKernel.gRollOldVal A K X XA I (exact K) ck ltK wold x tmp s.count).run m).1 =
      s'.count := by
  unfold CellKernel.gRollOldVal
  by_cases hw : wold = 0
  · rw [if_neg (not_not.2 hw)] at h
    cases h
    rw [if_pos (show @Arith.isZero K (exact K) wold = true from decide_eq_true hw)]
    exact ⟨hs, rfl⟩
  · rw [if_pos hw] at h
    rw [if_neg (show ¬ @Arith.isZero K (exact K) wold = true from
      fun e => hw (of_decide_eq_true e)), run_getLt, hs _ hR.foot.w0_mem, hR.weight]
    split_ifs at h with hlt
    · obtain ⟨r, hr, h⟩ := Option.bind_eq_some_iff.1 h
      cases h
      rw [if_pos hlt]
      simp only [run_bind, hR.getVal, run_pure]
      exact ⟨hR.pushVal _ _ hd hs hr, trivial⟩
    · cases h
      rw [if_neg hlt, run_bind]
      exact ⟨gZero_shows hR hd m, rfl⟩

/-- Inputs a program does not write keep their contents. -/
theorem inputs_keep {inputs : Set A} {m m0 : A → K} (h : ∀ a ∈ inputs, m a = m0 a) {R W : Set A}
    {p : Prog A K α} (hp : p.Within R W) (hd : Disjoint inputs W) :
    ∀ a ∈ inputs, (p.run m).2 a = m0 a :=
  fun a ha => (run_unwritten hp (Set.disjoint_left.1 hd ha) m).trans (h a ha)

theorem gRollingVals_shows (hR : Refines ck k v val vc) (nan : K) (window : ℕ) (minCount : ℤ)
    {n : ℕ} {x : ℕ → XA} {w : ℕ → A} {out : ℕ → I → A} {tmp : I → A}
    (hp : Places ck n (vcells vc n x ∪ cells n w) tmp out) {m0 : A → K} {rs : List (Option M)}
    (h : k.rollingValsKernel window minCount ((List.range n).map fun i =>
      (val (x i) m0, m0 (w i))) = some rs) :
    rs.length = n ∧ ∀ i (hi : i < rs.length), RowShows ck v nan (out i)
      ((@CellKernel.gRollingVals A K X XA I (exact K) ck ltK nan window minCount n x w tmp
        out).run m0).2 rs[i] := by
  have hkt : Disjoint (vcells vc n x ∪ cells n w) (winC ck tmp) :=
    hp.kept.mono_right Set.subset_union_left
  have hko : ∀ j < n, Disjoint (vcells vc n x ∪ cells n w) (winC ck (out j)) := fun j hj =>
    hp.kept.mono_right ((winC_sub_rowsC out hj).trans Set.subset_union_right)
  have hto : ∀ j < n, Disjoint (winC ck tmp) (winC ck (out j)) := fun j hj =>
    hp.tmp_out.mono_right (winC_sub_rowsC out hj)
  have hemit : ∀ i c c', (@CellKernel.gEmit A K X XA I ck nan c c' tmp (out i)).Within
      (winC ck tmp) (winC ck (out i)) := fun i c c' =>
    @gEmit_within A K X XA I (exact K) ck nan c c' _ _
  have hnewW : ∀ i c, (@CellKernel.gRollNewVal A K X XA I (exact K) ck (x i) (w i) tmp c).Within
      (vc (x i) ∪ {w i} ∪ winC ck tmp) (winC ck tmp) := fun i c =>
    @gRollNewVal_within A K X XA I (exact K) ck vc hR.foot _ _ _ _
  have holdW : ∀ i c w', (@CellKernel.gRollOldVal A K X XA I (exact K) ck ltK w' (x i) tmp c).Within
      (vc (x i) ∪ winC ck tmp) (winC ck tmp) := fun i c w =>
    @gRollOldVal_within A K X XA I (exact K) ck vc hR.foot _ _ _ _ _
  unfold Kernel.rollingValsKernel at h
  obtain ⟨first, hfirst, h⟩ := Option.bind_eq_some_iff.1 h
  obtain ⟨rest, hrest, h⟩ := Option.bind_eq_some_iff.1 h
  cases h
  rw [zip_drop_range] at hrest
  rw [take_range] at hfirst
  let Inv : (A → K) → ℤ → Kernel.RollState M → Prop := fun m c s =>
    c = s.count ∧ ShowsC ck v tmp m s.dummy ∧ ∀ a ∈ vcells vc n x ∪ cells n w, m a = m0 a
  let Row : ℕ → (A → K) → Option M → Prop := fun j m b => RowShows ck v nan (out j) m b
  have hval : ∀ (m : A → K), (∀ a ∈ vcells vc n x ∪ cells n w, m a = m0 a) → ∀ i < n,
      val (x i) m = val (x i) m0 ∧ m (w i) = m0 (w i) := fun m hm i hi =>
    ⟨hR.val_congr _ _ _ fun a ha => hm a (Or.inl (show ∃ _, _ from ⟨i, hi, ha⟩)),
      hm _ (Or.inr ⟨i, hi, rfl⟩)⟩
  unfold CellKernel.gRollingVals
  simp only [run_bind, run_pure]
  have h0 : Inv ((@CellKernel.gZero A K X XA I (exact K) ck tmp).run m0).2 0 ⟨k.zero, 0⟩ :=
    ⟨rfl, gZero_shows hR hp.own m0, inputs_keep (fun _ _ => rfl)
      (@gZero_within A K X XA I (exact K) ck tmp ∅) hkt⟩
  obtain ⟨a1, b1, c1, -⟩ := scan_shows (V := K) Inv Row n (List.range (min window n))
    (fun i hi => by have := List.mem_range.1 hi; omega) List.nodup_range
    (body := fun count i => do
      let count ← @CellKernel.gRollNewVal A K X XA I (exact K) ck (x i) (w i) tmp count
      ck.gEmit nan minCount count tmp (out i)
      pure count) (f := fun i => (val (x i) m0, m0 (w i))) (emit := Kernel.rollEmit minCount)
    (by
      rintro i hi m _ s s' ⟨rfl, hs, hdat⟩ hstep
      have hi : i < n := by have := List.mem_range.1 hi; omega
      rw [← (hval m hdat i hi).1, ← (hval m hdat i hi).2] at hstep
      obtain ⟨e1, e2⟩ := gRollNewVal_shows hR hp.own hs hstep
      simp only [run_bind, run_pure]
      rw [e2]
      refine ⟨⟨rfl, e1.keep (hemit i _ _) (hto i hi), ?_⟩, ?_⟩
      · exact inputs_keep (inputs_keep hdat (hnewW i _) hkt) (hemit i _ _) (hko i hi)
      · exact gEmit_shows hR.foot.nodup nan minCount _ (hp.rows.row hi) (hto i hi) e1)
    (by
      intro i hi j hj hne m sp b hb
      simp only [run_bind, run_pure]
      exact (RowShows.keep hb (hnewW i _) (hto j hj).symm).keep (hemit i _ _)
        (hp.rows.disjoint hj hi hne)) h0 hfirst
  obtain ⟨-, b2, c2, d2⟩ := scan_shows (V := K) Inv Row n (List.range' window (n - window))
    (fun i hi => by have := List.mem_range'_1.1 hi; omega) List.nodup_range'
    (body := fun count i => do
      let wold ← get (w (i - window))
      let count ← @CellKernel.gRollNewVal A K X XA I (exact K) ck (x i) (w i) tmp count
      let count ← @CellKernel.gRollOldVal A K X XA I (exact K) ck ltK wold (x (i - window)) tmp count
      ck.gEmit nan minCount count tmp (out i)
      pure count)
    (f := fun i => ((val (x i) m0, m0 (w i)), (val (x (i - window)) m0, m0 (w (i - window)))))
    (emit := Kernel.rollEmit minCount)
    (by
      rintro i hi m _ s s' ⟨rfl, hs, hdat⟩ hstep
      have hi : i < n := by have := List.mem_range'_1.1 hi; omega
      have hiw : i - window < n := by omega
      unfold Kernel.rollStepVal at hstep
      obtain ⟨s1, hs1, hstep⟩ := Option.bind_eq_some_iff.1 hstep
      simp only at hs1 hstep
      rw [← (hval m hdat i hi).1, ← (hval m hdat i hi).2] at hs1
      obtain ⟨e1, e2⟩ := gRollNewVal_shows hR hp.own hs hs1
      have hdat1 := inputs_keep hdat (hnewW i s.count) hkt
      rw [← (hval _ hdat1 _ hiw).1] at hstep
      obtain ⟨f1, f2⟩ := gRollOldVal_shows hR hp.own e1 hstep
      simp only [run_bind, run_pure, run_get]
      rw [(hval m hdat _ hiw).2, e2, f2]
      refine ⟨⟨rfl, f1.keep (hemit i _ _) (hto i hi), ?_⟩, ?_⟩
      · exact inputs_keep (inputs_keep hdat1 (holdW _ _ _) hkt) (hemit i _ _) (hko i hi)
      · exact gEmit_shows hR.foot.nodup nan minCount _ (hp.rows.row hi) (hto i hi) f1)
    (by
      intro i hi j hj hne m sp b hb
      simp only [run_bind, run_pure, run_get]
      exact ((RowShows.keep hb (hnewW i _) (hto j hj).symm).keep (holdW _ _ _)
        (hto j hj).symm).keep (hemit i _ _) (hp.rows.disjoint hj hi hne)) a1 hrest
  rw [List.length_range] at b1
  rw [List.length_range'] at b2
  refine ⟨by rw [List.length_append]; omega, fun i hi => ?_⟩
  rw [List.length_append] at hi
  by_cases hlt : i < first.1.length
  · rw [List.getElem_append_left hlt]
    have := c1 i (by rw [List.length_range]; omega) hlt
    rw [List.getElem_range] at this
    exact d2 i (by omega) (fun hm => by have := List.mem_range'_1.1 hm; omega) _ this
  · rw [List.getElem_append_right (by omega)]
    have := c2 (i - first.1.length) (by rw [List.length_range']; omega) (by omega)
    rw [List.getElem_range'] at this
    have e : window + 1 * (i - first.1.length) = i := by omega
    rw [e] at this
    exact this

theorem gScaleWeight_shows (hR : Refines ck k v val vc) {tmp : I → A} (hd : DistinctC ck tmp)
    (f : K → K) (c : K) (hf : ∀ t, f t = t * c) {m : A → K} {s : M} (hs : ShowsC ck v tmp m s) :
    ShowsC ck v tmp ((ck.gScaleWeight f tmp).run m).2 (k.mulWeight s c) := by
  intro i hi
  unfold CellKernel.gScaleWeight
  simp only [run_bind, run_get, run_put]
  by_cases e : i = ck.w0
  · subst e
    rw [Function.update_self, hR.mul_w0, hf, hs _ hi]
  · rw [Function.update_of_ne (fun e' => e (hd _ hi _ hR.foot.w0_mem e')), hR.mul_ne _ _ _ e, hs _ hi]

/-- The body of the exponential loops after the weights have been scaled down. -/
theorem gExpNew_shows (hR : Refines ck k v val vc) {tmp : I → A} (hd : DistinctC ck tmp)
    (adjust : Bool) (wi a : K) {push : Prog A K Unit} {m : A → K} {s s' : Kernel.ExpState K M}
    {pushed : Option M} (hs : ShowsC ck v tmp m s.dummy)
    (hpush : ∀ r, pushed = some r → ShowsC ck v tmp (push.run m).2 r)
    (h : (if wi ≠ 0 then pushed.bind fun r =>
        if !adjust then k.expRenorm a ⟨r, s.count + 1, s.oldWeight⟩
        else some ⟨r, s.count + 1, s.oldWeight⟩
      else some s) = some s') :
    ShowsC ck v tmp ((@CellKernel.gExpNew A K X XA I (exact K) ck adjust wi a s.oldWeight push tmp
      s.count).run m).2 s'.dummy ∧
    ((@CellKernel.gExpNew A K X XA I (exact K) ck adjust wi a s.oldWeight push tmp s.count).run
      m).1 = (s'.count, s'.oldWeight) := by
  unfold CellKernel.gExpNew
  by_cases hw : wi = 0
  · rw [if_neg (not_not.2 hw)] at h
    cases h
    rw [if_pos (show @Arith.isZero K (exact K) wi = true from decide_eq_true hw)]
    exact ⟨hs, rfl⟩
  · rw [if_pos hw] at h
    rw [if_neg (show ¬ @Arith.isZero K (exact K) wi = true from fun e => hw (of_decide_eq_true e))]
    obtain ⟨r, hr, h⟩ := Option.bind_eq_some_iff.1 h
    cases adjust
    · simp only [Bool.not_false, if_true] at h
      unfold Kernel.expRenorm at h
      simp only at h
      split_ifs at h with h0
      cases h
      rw [if_neg (by simp), run_bind, run_bind]
      refine ⟨?_, rfl⟩
      exact gScaleWeight_shows hR hd _ _ (fun t => div_eq_mul_inv _ _) (hpush r hr)
    · simp only [Bool.not_true] at h
      cases h
      rw [if_pos rfl, run_bind]
      exact ⟨hpush r hr, rfl⟩

theorem zip_range {ι κ : Type} (f : ℕ → ι) (g : ℕ → κ) (n : ℕ) :
    ((List.range n).map f).zip ((List.range n).map g) = (List.range n).map fun i => (f i, g i) := by
  apply List.ext_getElem
  · simp
  · intro i h1 h2
    simp

theorem gRollingExpData_shows (hR : Refines ck k v val vc) (adjust : Bool) (nan : K) (minCount : ℤ)
    {n : ℕ} {alpha : ℕ → A} {data out : ℕ → I → A} {tmp : I → A}
    (hp : Places ck n (cells n alpha ∪ rowsC ck n data) tmp out) {m0 : A → K} {d : ℕ → M}
    (hdat : ∀ i < n, ShowsC ck v (data i) m0 (d i)) {rs : List (Option M)}
    {s1 : Kernel.ExpState K M}
    (h : scanEmit (k.expStep adjust) (Kernel.expEmit minCount)
      (((List.range n).map fun i => m0 (alpha i)).zip ((List.range n).map d)) ⟨k.zero, 0, 0⟩ =
      some (rs, s1)) :
    rs.length = n ∧ ∀ i (hi : i < rs.length), RowShows ck v nan (out i)
      ((@CellKernel.gRollingExpData A K X XA I (exact K) ck adjust nan minCount n alpha data tmp
        out).run m0).2 rs[i] := by
  have hkt : Disjoint (cells n alpha ∪ rowsC ck n data) (winC ck tmp) :=
    hp.kept.mono_right Set.subset_union_left
  have hko : ∀ j < n, Disjoint (cells n alpha ∪ rowsC ck n data) (winC ck (out j)) := fun j hj =>
    hp.kept.mono_right ((winC_sub_rowsC out hj).trans Set.subset_union_right)
  have hdt : ∀ i < n, Disjoint (winC ck (data i)) (winC ck tmp) := fun i hi =>
    hkt.mono_left ((winC_sub_rowsC data hi).trans Set.subset_union_right)
  have hto : ∀ j < n, Disjoint (winC ck tmp) (winC ck (out j)) := fun j hj =>
    hp.tmp_out.mono_right (winC_sub_rowsC out hj)
  have hemit : ∀ i c c', (@CellKernel.gEmit A K X XA I ck nan c c' tmp (out i)).Within
      (winC ck tmp) (winC ck (out i)) := fun i c c' =>
    @gEmit_within A K X XA I (exact K) ck nan c c' _ _
  have hscW : ∀ f : K → K, (ck.gScaleWeight f tmp).Within (winC ck tmp) (winC ck tmp) := fun f =>
    @gScaleWeight_within A K X XA I (exact K) ck vc hR.foot _ _
  have hnewW : ∀ i wi a old sc c, (@CellKernel.gExpNew A K X XA I (exact K) ck adjust wi a old
      (ck.pushScale (data i) sc tmp) tmp c).Within (winC ck (data i) ∪ winC ck tmp) (winC ck tmp) :=
    fun i wi a old sc c => @gExpNew_within A K X XA I (exact K) ck _ _ _
      (fun f => (hscW f).mono Set.subset_union_right subset_rfl) _ _ _ _ _ _ (hR.foot.pushScale _ _ _)
  let Inv : (A → K) → ℤ × K → Kernel.ExpState K M → Prop := fun m c s =>
    c = (s.count, s.oldWeight) ∧ ShowsC ck v tmp m s.dummy ∧
      ∀ a ∈ cells n alpha ∪ rowsC ck n data, m a = m0 a
  let Row : ℕ → (A → K) → Option M → Prop := fun j m b => RowShows ck v nan (out j) m b
  have hsh : ∀ (m : A → K), (∀ a ∈ cells n alpha ∪ rowsC ck n data, m a = m0 a) → ∀ i < n,
      ShowsC ck v (data i) m (d i) ∧ m (alpha i) = m0 (alpha i) := fun m hm i hi =>
    ⟨(hdat i hi).congr fun a ha => hm a (Or.inr (winC_sub_rowsC data hi ha)),
      hm _ (Or.inl ⟨i, hi, rfl⟩)⟩
  rw [zip_range] at h
  unfold CellKernel.gRollingExpData
  simp only [run_bind, run_pure]
  have h0 : Inv ((@CellKernel.gZero A K X XA I (exact K) ck tmp).run m0).2 (0, 0) ⟨k.zero, 0, 0⟩ :=
    ⟨rfl, gZero_shows hR hp.own m0, inputs_keep (fun _ _ => rfl)
      (@gZero_within A K X XA I (exact K) ck tmp ∅) hkt⟩
  obtain ⟨-, b1, c1, -⟩ := scan_shows (V := K) Inv Row n (List.range n)
    (fun i hi => List.mem_range.1 hi) List.nodup_range
    (body := fun st i => do
      let wi ← get (data i ck.w0)
      let a ← get (alpha i)
      ck.gScaleWeight (· * (1 - a)) tmp
      let st ← @CellKernel.gExpNew A K X XA I (exact K) ck adjust wi a (st.2 * (1 - a))
        (ck.pushScale (data i) (if adjust then 1 else a) tmp) tmp st.1
      ck.gEmit nan minCount st.1 tmp (out i)
      pure st) (f := fun i => (m0 (alpha i), d i)) (emit := Kernel.expEmit minCount)
    (by
      rintro i hi m _ s s' ⟨rfl, hs, hm⟩ hstep
      have hi : i < n := List.mem_range.1 hi
      obtain ⟨hdi, hai⟩ := hsh m hm i hi
      have e0 := gScaleWeight_shows hR hp.own (· * (1 - m0 (alpha i))) _ (fun t => rfl) hs
      have hm1 := inputs_keep hm (hscW (· * (1 - m0 (alpha i)))) hkt
      obtain ⟨e1, e2⟩ := gExpNew_shows (push := ck.pushScale (data i)
        (if adjust then 1 else m0 (alpha i)) tmp) (pushed := k.pushScale (d i)
        (if adjust then 1 else m0 (alpha i)) (k.mulWeight s.dummy (1 - m0 (alpha i)))) hR hp.own adjust
        (k.weight (d i)) (m0 (alpha i))
        (s := ⟨k.mulWeight s.dummy (1 - m0 (alpha i)), s.count, s.oldWeight * (1 - m0 (alpha i))⟩)
        e0 (fun r hr => hR.pushScale _ hp.own (hdt i hi) (hsh _ hm1 i hi).1 e0 hr) hstep
      simp only [run_bind, run_pure, run_get]
      rw [hai, hdi _ hR.foot.w0_mem, hR.weight]
      refine ⟨⟨e2, e1.keep (hemit i _ _) (hto i hi), ?_⟩, ?_⟩
      · exact inputs_keep (inputs_keep hm1 (hnewW i _ _ _ _ _) hkt) (hemit i _ _) (hko i hi)
      · have e3 := congrArg Prod.fst e2
        simp only at e3
        rw [e3]
        exact gEmit_shows hR.foot.nodup nan minCount _ (hp.rows.row hi) (hto i hi) e1)
    (by
      intro i hi j hj hne m sp b hb
      simp only [run_bind, run_pure, run_get]
      exact ((RowShows.keep hb (hscW _) (hto j hj).symm).keep (hnewW i _ _ _ _ _)
        (hto j hj).symm).keep (hemit i _ _) (hp.rows.disjoint hj hi hne)) h0 h
  rw [List.length_range] at b1
  refine ⟨b1, fun i hi => ?_⟩
  have := c1 i (by rw [List.length_range]; omega) hi
  rw [List.getElem_range] at this
  exact this

theorem gRollingExpVals_shows (hR : Refines ck k v val vc) (adjust : Bool) (nan : K) (minCount : ℤ)
    {n : ℕ} {alpha : ℕ → A} {x : ℕ → XA} {w : ℕ → A} {out : ℕ → I → A} {tmp : I → A}
    (hp : Places ck n (cells n alpha ∪ (vcells vc n x ∪ cells n w)) tmp out) {m0 : A → K}
    {rs : List (Option M)} {s1 : Kernel.ExpState K M}
    (h : scanEmit (k.expStepVal adjust) (Kernel.expEmit minCount)
      (((List.range n).map fun i => m0 (alpha i)).zip
        ((List.range n).map fun i => (val (x i) m0, m0 (w i)))) ⟨k.zero, 0, 0⟩ = some (rs, s1)) :
    rs.length = n ∧ ∀ i (hi : i < rs.length), RowShows ck v nan (out i)
      ((@CellKernel.gRollingExpVals A K X XA I (exact K) ck adjust nan minCount n alpha x w tmp
        out).run m0).2 rs[i] := by
  have hkt : Disjoint (cells n alpha ∪ (vcells vc n x ∪ cells n w)) (winC ck tmp) :=
    hp.kept.mono_right Set.subset_union_left
  have hko : ∀ j < n, Disjoint (cells n alpha ∪ (vcells vc n x ∪ cells n w)) (winC ck (out j)) :=
    fun j hj => hp.kept.mono_right ((winC_sub_rowsC out hj).trans Set.subset_union_right)
  have hto : ∀ j < n, Disjoint (winC ck tmp) (winC ck (out j)) := fun j hj =>
    hp.tmp_out.mono_right (winC_sub_rowsC out hj)
  have hemit : ∀ i c c', (@CellKernel.gEmit A K X XA I ck nan c c' tmp (out i)).Within
      (winC ck tmp) (winC ck (out i)) := fun i c c' =>
    @gEmit_within A K X XA I (exact K) ck nan c c' _ _
  have hscW : ∀ f : K → K, (ck.gScaleWeight f tmp).Within (winC ck tmp) (winC ck tmp) := fun f =>
    @gScaleWeight_within A K X XA I (exact K) ck vc hR.foot _ _
  have hnewW : ∀ i wi a old sc c, (@CellKernel.gExpNew A K X XA I (exact K) ck adjust wi a old
      (do
        let xv ← ck.getVal (x i)
        ck.pushVal xv sc tmp) tmp c).Within (vc (x i) ∪ winC ck tmp) (winC ck tmp) :=
    fun i wi a old sc c => @gExpNew_within A K X XA I (exact K) ck _ _ _
      (fun f => (hscW f).mono Set.subset_union_right subset_rfl) _ _ _ _ _ _
      (((hR.foot.getVal _).mono Set.subset_union_left (Set.empty_subset _)).bind fun _ =>
        (hR.foot.pushVal _ _ _).mono Set.subset_union_right subset_rfl)
  let Inv : (A → K) → ℤ × K → Kernel.ExpState K M → Prop := fun m c s =>
    c = (s.count, s.oldWeight) ∧ ShowsC ck v tmp m s.dummy ∧
      ∀ a ∈ cells n alpha ∪ (vcells vc n x ∪ cells n w), m a = m0 a
  let Row : ℕ → (A → K) → Option M → Prop := fun j m b => RowShows ck v nan (out j) m b
  have hsh : ∀ (m : A → K), (∀ a ∈ cells n alpha ∪ (vcells vc n x ∪ cells n w), m a = m0 a) →
      ∀ i < n, val (x i) m = val (x i) m0 ∧ m (w i) = m0 (w i) ∧ m (alpha i) = m0 (alpha i) :=
    fun m hm i hi =>
    ⟨hR.val_congr _ _ _ fun a ha => hm a (Or.inr (Or.inl (show ∃ _, _ from ⟨i, hi, ha⟩))),
      hm _ (Or.inr (Or.inr ⟨i, hi, rfl⟩)), hm _ (Or.inl ⟨i, hi, rfl⟩)⟩
  rw [zip_range] at h
  unfold CellKernel.gRollingExpVals
  simp only [run_bind, run_pure]
  have h0 : Inv ((@CellKernel.gZero A K X XA I (exact K) ck tmp).run m0).2 (0, 0) ⟨k.zero, 0, 0⟩ :=
    ⟨rfl, gZero_shows hR hp.own m0, inputs_keep (fun _ _ => rfl)
      (@gZero_within A K X XA I (exact K) ck tmp ∅) hkt⟩
  obtain ⟨-, b1, c1, -⟩ := scan_shows (V := K) Inv Row n (List.range n)
    (fun i hi => List.mem_range.1 hi) List.nodup_range
    (body := fun st i => do
      let wi ← get (w i)
      let a ← get (alpha i)
      ck.gScaleWeight (· * (1 - a)) tmp
      let st ← @CellKernel.gExpNew A K X XA I (exact K) ck adjust wi a (st.2 * (1 - a)) (do
        let xv ← ck.getVal (x i)
        ck.pushVal xv (if adjust then wi else wi * a) tmp) tmp st.1
      ck.gEmit nan minCount st.1 tmp (out i)
      pure st) (f := fun i => (m0 (alpha i), val (x i) m0, m0 (w i)))
    (emit := Kernel.expEmit minCount)
    (by
      rintro i hi m _ s s' ⟨rfl, hs, hm⟩ hstep
      have hi : i < n := List.mem_range.1 hi
      obtain ⟨-, hwi, hai⟩ := hsh m hm i hi
      have e0 := gScaleWeight_shows hR hp.own (· * (1 - m0 (alpha i))) _ (fun t => rfl) hs
      have hm1 := inputs_keep hm (hscW (· * (1 - m0 (alpha i)))) hkt
      obtain ⟨e1, e2⟩ := gExpNew_shows (push := do
          let xv ← ck.getVal (x i)
          ck.pushVal xv (if adjust then m0 (w i) else m0 (w i) * m0 (alpha i)) tmp)
        (pushed := k.pushVal (val (x i) m0)
          (if adjust then m0 (w i) else m0 (w i) * m0 (alpha i))
          (k.mulWeight s.dummy (1 - m0 (alpha i)))) hR hp.own adjust (m0 (w i)) (m0 (alpha i))
        (s := ⟨k.mulWeight s.dummy (1 - m0 (alpha i)), s.count, s.oldWeight * (1 - m0 (alpha i))⟩)
        e0 (fun r hr => by
          simp only [run_bind, hR.getVal]
          rw [(hsh _ hm1 i hi).1]
          exact hR.pushVal _ _ hp.own e0 hr) hstep
      simp only [run_bind, run_pure, run_get]
      rw [hai, hwi]
      refine ⟨⟨e2, e1.keep (hemit i _ _) (hto i hi), ?_⟩, ?_⟩
      · exact inputs_keep (inputs_keep hm1 (hnewW i _ _ _ _ _) hkt) (hemit i _ _) (hko i hi)
      · have e3 := congrArg Prod.fst e2
        simp only at e3
        rw [e3]
        exact gEmit_shows hR.foot.nodup nan minCount _ (hp.rows.row hi) (hto i hi) e1)
    (by
      intro i hi j hj hne m sp b hb
      simp only [run_bind, run_pure, run_get]
      exact ((RowShows.keep hb (hscW _) (hto j hj).symm).keep (hnewW i _ _ _ _ _)
        (hto j hj).symm).keep (hemit i _ _) (hp.rows.disjoint hj hi hne)) h0 h
  rw [List.length_range] at b1
  refine ⟨b1, fun i hi => ?_⟩
  have := c1 i (by rw [List.length_range]; omega) hi
  rw [List.getElem_range] at this
  exact this

end values

end Cmomy.Par
