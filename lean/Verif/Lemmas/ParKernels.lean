import Verif.Lemmas.Parallel
import Verif.Lemmas.Push
import Verif.Model.Loops

set_option linter.unusedSectionVars false

/-! The cell-by-cell kernels: footprints, and agreement with the array kernels. -/

namespace Cmomy.Par

variable {A V α β : Type}

/-- The cells of an array of the given order. -/
def win (order : ℕ) (out : ℕ → A) : Set A := {a | ∃ i, i ≤ order ∧ out i = a}

theorem mem_win {order i : ℕ} (out : ℕ → A) (h : i ≤ order) : out i ∈ win order out := ⟨i, h, rfl⟩

section within

variable [Arith V]

theorem pushValP_within {order : ℕ} (ho : 1 ≤ order) (x w : V) (out : ℕ → A) :
    (pushValP order x w out).Within (win order out) (win order out) := by
  unfold pushValP
  split_ifs with h h1
  · exact .pure _
  · refine (within_get (mem_win _ (by omega))).bind fun _ => (within_put _ (mem_win _ (by omega))).bind
      fun _ => (within_get (mem_win _ (by omega))).bind fun _ =>
      (within_get (mem_win _ (by omega))).bind fun _ =>
      (within_get (mem_win _ (by omega))).bind fun _ =>
      (within_put _ (mem_win _ (by omega))).bind fun _ => .pure _
  · refine (within_get (mem_win _ (by omega))).bind fun _ => (within_put _ (mem_win _ (by omega))).bind
      fun _ => (within_get (mem_win _ (by omega))).bind fun _ =>
      (within_get (mem_win _ (by omega))).bind fun _ =>
      (within_get (mem_win _ (by omega))).bind fun _ =>
      (within_put _ (mem_win _ (by omega))).bind fun _ => ?_
    refine (Prog.Within.foldlM _ _ fun _ a ha => ?_).bind fun _ =>
      (within_get (mem_win _ (by omega))).bind fun _ => within_put _ (mem_win _ (by omega))
    rw [mem_rangeDown] at ha
    refine (Prog.Within.foldlM _ _ fun _ b hb => ?_).bind fun _ => within_put _ (mem_win _ ha.2)
    exact (within_get (mem_win _ (by omega))).bind fun _ => .pure _

theorem pushDataBodyP_within {order : ℕ} (ho : 1 ≤ order) (w : V) (data out : ℕ → A) :
    (pushDataBodyP order w data out).Within (win order data ∪ win order out) (win order out) := by
  unfold pushDataBodyP
  have gd : ∀ i, i ≤ order → data i ∈ win order data ∪ win order out :=
    fun i hi => Or.inl (mem_win _ hi)
  have go : ∀ i, i ≤ order → out i ∈ win order data ∪ win order out :=
    fun i hi => Or.inr (mem_win _ hi)
  split_ifs with h h1
  · exact .pure _
  · refine (within_get (go _ (by omega))).bind fun _ => (within_put _ (mem_win _ (by omega))).bind
      fun _ => (within_get (go _ (by omega))).bind fun _ =>
      (within_get (gd _ (by omega))).bind fun _ =>
      (within_get (go _ (by omega))).bind fun _ =>
      (within_get (go _ (by omega))).bind fun _ =>
      (within_put _ (mem_win _ (by omega))).bind fun _ => .pure _
  · refine (within_get (go _ (by omega))).bind fun _ => (within_put _ (mem_win _ (by omega))).bind
      fun _ => (within_get (go _ (by omega))).bind fun _ =>
      (within_get (gd _ (by omega))).bind fun _ =>
      (within_get (go _ (by omega))).bind fun _ =>
      (within_get (go _ (by omega))).bind fun _ =>
      (within_put _ (mem_win _ (by omega))).bind fun _ => ?_
    refine (Prog.Within.foldlM _ _ fun _ a ha => ?_).bind fun _ =>
      (within_get (gd _ (by omega))).bind fun _ =>
      (within_get (go _ (by omega))).bind fun _ => within_put _ (mem_win _ (by omega))
    rw [mem_rangeDown] at ha
    refine (Prog.Within.foldlM _ _ fun _ b hb => ?_).bind fun _ => within_put _ (mem_win _ ha.2)
    exact (within_get (go _ (by omega))).bind fun _ =>
      (within_get (gd _ (by omega))).bind fun _ => .pure _

theorem pushDataP_within {order : ℕ} (ho : 1 ≤ order) (data out : ℕ → A) :
    (pushDataP order data out : Prog A V Unit).Within (win order data ∪ win order out)
      (win order out) :=
  (within_get (show data 0 ∈ _ from Or.inl (mem_win _ (by omega)))).bind fun _ =>
    pushDataBodyP_within ho _ _ _

theorem pushDataScaleP_within {order : ℕ} (ho : 1 ≤ order) (data : ℕ → A) (scale : V)
    (out : ℕ → A) :
    (pushDataScaleP order data scale out).Within (win order data ∪ win order out)
      (win order out) :=
  (within_get (show data 0 ∈ _ from Or.inl (mem_win _ (by omega)))).bind fun _ =>
    pushDataBodyP_within ho _ _ _

end within

section within2

variable [Arith V]

/-! two variables -/

/-- The cells of a comoment array. -/
def win2 (o0 o1 : ℕ) (out : ℕ → ℕ → A) : Set A := {a | ∃ i j, i ≤ o0 ∧ j ≤ o1 ∧ out i j = a}

theorem mem_win2 {o0 o1 i j : ℕ} (out : ℕ → ℕ → A) (hi : i ≤ o0) (hj : j ≤ o1) :
    out i j ∈ win2 o0 o1 out := ⟨i, j, hi, hj, rfl⟩

theorem pushValCovTmpP_within {o0 o1 a0 a1 : ℕ} (h0 : a0 ≤ o0) (h1 : a1 ≤ o1)
    (delta0 delta1 alpha one_alpha : V) (out : ℕ → ℕ → A) {W : Set A} :
    (pushValCovTmpP a0 a1 delta0 delta1 alpha one_alpha out).Within (win2 o0 o1 out) W := by
  refine (Prog.Within.foldlM _ _ fun s b0 _ => ?_).bind fun _ => .pure _
  refine (Prog.Within.foldlM _ _ fun t b1 _ => ?_).bind fun _ => .pure _
  dsimp only
  split_ifs <;> first
    | exact (within_get (mem_win2 _ (by omega) (by omega))).bind fun _ => .pure _
    | exact Prog.Within.bind (.pure _) fun _ => .pure _

theorem pushValCovP_within {o0 o1 : ℕ} (h0 : 1 ≤ o0) (h1 : 1 ≤ o1) (x0 x1 w : V)
    (out : ℕ → ℕ → A) :
    (pushValCovP o0 o1 x0 x1 w out).Within (win2 o0 o1 out) (win2 o0 o1 out) := by
  unfold pushValCovP
  have g : ∀ i j, i ≤ o0 → j ≤ o1 → (get (out i j) : Prog A V V).Within (win2 o0 o1 out)
    (win2 o0 o1 out) := fun i j hi hj => within_get (mem_win2 _ hi hj)
  have p : ∀ i j (v : V), i ≤ o0 → j ≤ o1 → (put (out i j) v).Within (win2 o0 o1 out)
    (win2 o0 o1 out) := fun i j v hi hj => within_put _ (mem_win2 _ hi hj)
  split_ifs
  · exact .pure _
  refine (g 0 0 (by omega) (by omega)).bind fun _ => (p 0 0 _ (by omega) (by omega)).bind fun _ =>
    (g 0 0 (by omega) (by omega)).bind fun _ => (g 1 0 (by omega) (by omega)).bind fun _ =>
    (g 0 1 (by omega) (by omega)).bind fun _ => (g 1 0 (by omega) (by omega)).bind fun _ =>
    (p 1 0 _ (by omega) (by omega)).bind fun _ => (g 0 1 (by omega) (by omega)).bind fun _ =>
    (p 0 1 _ (by omega) (by omega)).bind fun _ => ?_
  refine Prog.Within.foldlM _ _ fun _ a0 ha0 => Prog.Within.foldlM _ _ fun _ a1 ha1 => ?_
  simp only [rangeDownTo, List.mem_map, List.mem_range] at ha0 ha1
  obtain ⟨i, _, rfl⟩ := ha0
  obtain ⟨j, _, rfl⟩ := ha1
  exact (pushValCovTmpP_within (by omega) (by omega) _ _ _ _ _).bind fun _ =>
    p _ _ _ (by omega) (by omega)

theorem pushDataCovTmpP_within {o0 o1 a0 a1 : ℕ} (h0 : a0 ≤ o0) (h1 : a1 ≤ o1)
    (delta0 delta1 alpha one_alpha : V) (data out : ℕ → ℕ → A) {W : Set A} :
    (pushDataCovTmpP a0 a1 delta0 delta1 alpha one_alpha data out).Within
      (win2 o0 o1 data ∪ win2 o0 o1 out) W := by
  refine (Prog.Within.foldlM _ _ fun s b0 _ => ?_).bind fun _ => .pure _
  refine (Prog.Within.foldlM _ _ fun t b1 _ => ?_).bind fun _ => .pure _
  dsimp only
  split_ifs <;> refine Prog.Within.bind ?_ fun _ => Prog.Within.bind ?_ fun _ => .pure _
  all_goals first
    | exact .pure _
    | exact within_get (Or.inr (mem_win2 out (by omega) (by omega)))
    | exact within_get (Or.inl (mem_win2 data (by omega) (by omega)))

theorem pushDataCovBodyP_within {o0 o1 : ℕ} (h0 : 1 ≤ o0) (h1 : 1 ≤ o1) (w : V)
    (data out : ℕ → ℕ → A) :
    (pushDataCovBodyP o0 o1 w data out).Within (win2 o0 o1 data ∪ win2 o0 o1 out)
      (win2 o0 o1 out) := by
  unfold pushDataCovBodyP
  have g : ∀ i j, i ≤ o0 → j ≤ o1 → (get (out i j) : Prog A V V).Within
    (win2 o0 o1 data ∪ win2 o0 o1 out) (win2 o0 o1 out) :=
    fun i j hi hj => within_get (Or.inr (mem_win2 _ hi hj))
  have q : ∀ i j, i ≤ o0 → j ≤ o1 → (get (data i j) : Prog A V V).Within
    (win2 o0 o1 data ∪ win2 o0 o1 out) (win2 o0 o1 out) :=
    fun i j hi hj => within_get (Or.inl (mem_win2 _ hi hj))
  have p : ∀ i j (v : V), i ≤ o0 → j ≤ o1 → (put (out i j) v).Within
    (win2 o0 o1 data ∪ win2 o0 o1 out) (win2 o0 o1 out) :=
    fun i j v hi hj => within_put _ (mem_win2 _ hi hj)
  split_ifs
  · exact .pure _
  refine (g 0 0 (by omega) (by omega)).bind fun _ => (p 0 0 _ (by omega) (by omega)).bind fun _ =>
    (g 0 0 (by omega) (by omega)).bind fun _ => (q 1 0 (by omega) (by omega)).bind fun _ =>
    (g 1 0 (by omega) (by omega)).bind fun _ => (q 0 1 (by omega) (by omega)).bind fun _ =>
    (g 0 1 (by omega) (by omega)).bind fun _ => (g 1 0 (by omega) (by omega)).bind fun _ =>
    (p 1 0 _ (by omega) (by omega)).bind fun _ => (g 0 1 (by omega) (by omega)).bind fun _ =>
    (p 0 1 _ (by omega) (by omega)).bind fun _ => ?_
  refine Prog.Within.foldlM _ _ fun _ a0 ha0 => Prog.Within.foldlM _ _ fun _ a1 ha1 => ?_
  simp only [rangeDownTo, List.mem_map, List.mem_range] at ha0 ha1
  obtain ⟨i, _, rfl⟩ := ha0
  obtain ⟨j, _, rfl⟩ := ha1
  exact (pushDataCovTmpP_within (by omega) (by omega) _ _ _ _ _ _).bind fun _ =>
    p _ _ _ (by omega) (by omega)

theorem pushDataCovP_within {o0 o1 : ℕ} (h0 : 1 ≤ o0) (h1 : 1 ≤ o1) (data out : ℕ → ℕ → A) :
    (pushDataCovP o0 o1 data out : Prog A V Unit).Within (win2 o0 o1 data ∪ win2 o0 o1 out)
      (win2 o0 o1 out) :=
  (within_get (show data 0 0 ∈ _ from Or.inl (mem_win2 _ (by omega) (by omega)))).bind fun _ =>
    pushDataCovBodyP_within h0 h1 _ _ _

theorem pushDataScaleCovP_within {o0 o1 : ℕ} (h0 : 1 ≤ o0) (h1 : 1 ≤ o1) (data : ℕ → ℕ → A)
    (scale : V) (out : ℕ → ℕ → A) :
    (pushDataScaleCovP o0 o1 data scale out).Within (win2 o0 o1 data ∪ win2 o0 o1 out)
      (win2 o0 o1 out) :=
  (within_get (show data 0 0 ∈ _ from Or.inl (mem_win2 _ (by omega) (by omega)))).bind fun _ =>
    pushDataCovBodyP_within h0 h1 _ _ _

end within2

section sim

variable [DecidableEq A]

theorem run_foldlM_read {ι : Type} {f : α → ι → Prog A V α} {g : α → ι → α} {m : A → V}
    (l : List ι) (s : α) (h : ∀ s, ∀ x ∈ l, (f s x).run m = (g s x, m)) :
    (l.foldlM f s).run m = (l.foldl g s, m) := by
  induction l generalizing s with
  | nil => rfl
  | cons x l ih =>
    rw [List.foldlM_cons, run_bind, h s x List.mem_cons_self]
    exact ih _ fun s y hy => h s y (List.mem_cons_of_mem _ hy)

theorem run_foldlM_rel {ι σ : Type} {f : Unit → ι → Prog A V Unit} {g : σ → ι → σ}
    (r : (A → V) → σ → Prop) (l : List ι)
    (h : ∀ m s, ∀ x ∈ l, r m s → r ((f () x).run m).2 (g s x)) (m : A → V) (s : σ) (hr : r m s) :
    r ((l.foldlM f ()).run m).2 (l.foldl g s) := by
  induction l generalizing m s with
  | nil => exact hr
  | cons x l ih =>
    rw [List.foldlM_cons, run_bind]
    exact ih (fun m s y hy => h m s y (List.mem_cons_of_mem _ hy)) _ _
      (h m s x List.mem_cons_self hr)

variable {K : Type} [Field K] [DecidableEq K]

/-- The window holds the array. -/
def Shows (order : ℕ) (out : ℕ → A) (m : A → K) (s : Mom K) : Prop :=
  ∀ i, i ≤ order → m (out i) = s i

/-- Different entries are different cells. -/
def Distinct (order : ℕ) (out : ℕ → A) : Prop :=
  ∀ i j, i ≤ order → j ≤ order → out i = out j → i = j

theorem Shows.update {order : ℕ} {out : ℕ → A} (hd : Distinct order out) {m : A → K} {s : Mom K}
    (h : Shows order out m s) {i : ℕ} (hi : i ≤ order) {v v' : K} (hv : v = v') :
    Shows order out (Function.update m (out i) v) (Function.update s i v') := by
  subst hv
  intro j hj
  by_cases hji : j = i
  · subst hji; simp
  · rw [Function.update_of_ne hji, Function.update_of_ne (fun e => hji (hd j i hj hi e)), h j hj]

theorem pushValP_shows {order : ℕ} (ho : 1 ≤ order) {out : ℕ → A} (hd : Distinct order out)
    (x w : K) {m : A → K} {s r : Mom K} (hs : Shows order out m s)
    (hr : pushVal order x w s = some r) :
    Shows order out ((@pushValP A K (exact K) order x w out).run m).2 r := by
  unfold pushVal at hr
  unfold pushValP
  by_cases hw : w = 0
  · rw [if_pos hw] at hr
    cases hr
    rw [if_pos (show @Arith.isZero K (exact K) w = true from decide_eq_true hw)]
    exact hs
  rw [if_neg hw] at hr
  rw [if_neg (show ¬ @Arith.isZero K (exact K) w = true from fun h => hw (of_decide_eq_true h))]
  simp only [run_bind, run_get, run_put]
  have hs1 : Shows order out (Function.update m (out 0) (m (out 0) + w))
      (Function.update s 0 (s 0 + w)) := hs.update hd (by omega) (by rw [hs 0 (by omega)])
  generalize Function.update m (out 0) (m (out 0) + w) = m1 at *
  generalize Function.update s 0 (s 0 + w) = s1 at *
  by_cases h0 : s1 0 = 0
  · rw [if_pos h0] at hr; cases hr
  rw [if_neg h0] at hr
  rw [hs1 0 (by omega), hs1 1 (by omega)]
  simp only [] at hr
  have hs2 := hs1.update hd (i := 1) ho (v := s1 1 + (x - s1 1) * (w / s1 0)) rfl
  generalize Function.update m1 (out 1) (s1 1 + (x - s1 1) * (w / s1 0)) = m2 at *
  generalize Function.update s1 1 (s1 1 + (x - s1 1) * (w / s1 0)) = s2 at *
  by_cases h1 : order = 1
  · rw [if_pos h1] at hr
    cases hr
    rw [if_pos h1]
    exact hs2
  rw [if_neg h1] at hr
  rw [if_neg h1]
  cases hr
  simp only [run_bind, run_get, run_put]
  have hs3 := run_foldlM_rel (Shows order out) (rangeDown order 2) (m := m2) (s := s2)
    (f := fun _ a => do
        let s ← (List.range (a - 1)).foldlM (fun (s : PAcc K) b => do
          let c := a - b
          let o ← get (out c)
          pure { tmp := s.tmp + binom a b * s.delta_b *
                  (s.minus_b * s.alpha_b * (1 - w / s1 0) * o)
                 delta_b := s.delta_b * (x - s1 1)
                 alpha_b := s.alpha_b * (w / s1 0)
                 one_alpha_b := s.one_alpha_b * (1 - w / s1 0)
                 minus_b := s.minus_b * (-1) }) ⟨0, 1, 1, 1, 1⟩
        put (out a) (s.tmp + (x - s1 1) * (w / s1 0) * (1 - w / s1 0) * s.delta_b *
          (-s.minus_b * s.alpha_b + s.one_alpha_b)))
    (g := fun o a => Function.update o a (pushValTmp a (x - s1 1) (w / s1 0) (1 - w / s1 0) o)) ?_ hs2
  · exact hs3.update hd (by omega) (congrArg
      (fun y => (1 - w / s1 0) * (y + (x - s1 1) * ((x - s1 1) * (w / s1 0)))) (hs3 2 (by omega)))
  · intro m s a ha hs
    rw [mem_rangeDown] at ha
    rw [run_bind, run_foldlM_read (g := pushValInner a (x - s1 1) (w / s1 0) (1 - w / s1 0) s)]
    · exact hs.update hd ha.2 rfl
    · intro p b hb
      simp only [run_bind, run_get, run_pure]
      rw [hs _ (by omega)]
      rfl

/-- Two arrays share no cell. -/
def Separate (order : ℕ) (data out : ℕ → A) : Prop :=
  ∀ i j, i ≤ order → j ≤ order → data i ≠ out j

theorem Shows.update_other {order : ℕ} {data out : ℕ → A} (hsep : Separate order data out)
    {m : A → K} {d : Mom K} (h : Shows order data m d) {i : ℕ} (hi : i ≤ order) (v : K) :
    Shows order data (Function.update m (out i) v) d := by
  intro j hj
  rw [Function.update_of_ne (hsep j i hj hi), h j hj]

theorem pushDataBodyP_shows {order : ℕ} (ho : 1 ≤ order) {data out : ℕ → A}
    (hd : Distinct order out) (hsep : Separate order data out)
    (w : K) {m : A → K} {d s r : Mom K} (hdat : Shows order data m d) (hs : Shows order out m s)
    (hr : pushDataBody order w d s = some r) :
    Shows order out ((@pushDataBodyP A K (exact K) order w data out).run m).2 r := by
  unfold pushDataBody at hr
  unfold pushDataBodyP
  by_cases hw : w = 0
  · rw [if_pos hw] at hr
    cases hr
    rw [if_pos (show @Arith.isZero K (exact K) w = true from decide_eq_true hw)]
    exact hs
  rw [if_neg hw] at hr
  rw [if_neg (show ¬ @Arith.isZero K (exact K) w = true from fun h => hw (of_decide_eq_true h))]
  simp only [run_bind, run_get, run_put]
  have hs1 : Shows order out (Function.update m (out 0) (m (out 0) + w))
      (Function.update s 0 (s 0 + w)) := hs.update hd (by omega) (by rw [hs 0 (by omega)])
  have hd1 := hdat.update_other hsep (i := 0) (by omega) (m (out 0) + w)
  generalize Function.update m (out 0) (m (out 0) + w) = m1 at *
  generalize Function.update s 0 (s 0 + w) = s1 at *
  by_cases h0 : s1 0 = 0
  · rw [if_pos h0] at hr; cases hr
  rw [if_neg h0] at hr
  rw [hs1 0 (by omega), hs1 1 (by omega), hd1 1 (by omega)]
  simp only [] at hr
  have hs2 := hs1.update hd (i := 1) ho (v := s1 1 + (d 1 - s1 1) * (w / s1 0)) rfl
  have hd2 := hd1.update_other hsep (i := 1) ho (s1 1 + (d 1 - s1 1) * (w / s1 0))
  generalize Function.update m1 (out 1) (s1 1 + (d 1 - s1 1) * (w / s1 0)) = m2 at *
  generalize Function.update s1 1 (s1 1 + (d 1 - s1 1) * (w / s1 0)) = s2 at *
  by_cases h1 : order = 1
  · rw [if_pos h1] at hr
    cases hr
    rw [if_pos h1]
    exact hs2
  rw [if_neg h1] at hr
  rw [if_neg h1]
  cases hr
  simp only [run_bind, run_get, run_put]
  have hs3 := run_foldlM_rel (fun m s => Shows order out m s ∧ Shows order data m d)
    (rangeDown order 2) (m := m2) (s := s2)
    (f := fun _ a => do
        let s ← (List.range (a - 1)).foldlM (fun (s : PAcc K) b => do
          let c := a - b
          let o ← get (out c)
          let e ← get (data c)
          pure { tmp := s.tmp + binom a b * s.delta_b *
                  (s.minus_b * s.alpha_b * (1 - w / s1 0) * o + s.one_alpha_b * (w / s1 0) * e)
                 delta_b := s.delta_b * (d 1 - s1 1)
                 alpha_b := s.alpha_b * (w / s1 0)
                 one_alpha_b := s.one_alpha_b * (1 - w / s1 0)
                 minus_b := s.minus_b * (-1) }) ⟨0, 1, 1, 1, 1⟩
        put (out a) (s.tmp + (d 1 - s1 1) * (w / s1 0) * (1 - w / s1 0) * s.delta_b *
          (-s.minus_b * s.alpha_b + s.one_alpha_b)))
    (g := fun o a =>
      Function.update o a (pushDataTmp a (d 1 - s1 1) (w / s1 0) (1 - w / s1 0) d o)) ?_ ⟨hs2, hd2⟩
  · exact hs3.1.update hd (by omega) (congrArg₂
      (fun z y => z * (w / s1 0) + (1 - w / s1 0) * (y + (d 1 - s1 1) * ((d 1 - s1 1) * (w / s1 0))))
      (hs3.2 2 (by omega)) (hs3.1 2 (by omega)))
  · intro m s a ha hs
    rw [mem_rangeDown] at ha
    rw [run_bind, run_foldlM_read (g := pushDataInner a (d 1 - s1 1) (w / s1 0) (1 - w / s1 0) d s)]
    · exact ⟨hs.1.update hd ha.2 rfl, hs.2.update_other hsep ha.2 _⟩
    · intro p b hb
      simp only [run_bind, run_get, run_pure]
      rw [hs.1 _ (by omega), hs.2 _ (by omega)]
      rfl

theorem pushDataP_shows {order : ℕ} (ho : 1 ≤ order) {data out : ℕ → A}
    (hd : Distinct order out) (hsep : Separate order data out)
    {m : A → K} {d s r : Mom K} (hdat : Shows order data m d) (hs : Shows order out m s)
    (hr : pushData order d s = some r) :
    Shows order out ((@pushDataP A K (exact K) order data out).run m).2 r := by
  unfold pushDataP
  rw [run_bind, run_get]
  refine pushDataBodyP_shows ho hd hsep _ hdat hs ?_
  rw [hdat 0 (by omega)]
  exact hr

theorem pushDataScaleP_shows {order : ℕ} (ho : 1 ≤ order) {data out : ℕ → A}
    (hd : Distinct order out) (hsep : Separate order data out) (scale : K)
    {m : A → K} {d s r : Mom K} (hdat : Shows order data m d) (hs : Shows order out m s)
    (hr : pushDataScale order d scale s = some r) :
    Shows order out ((@pushDataScaleP A K (exact K) order data scale out).run m).2 r := by
  unfold pushDataScaleP
  rw [run_bind, run_get]
  refine pushDataBodyP_shows ho hd hsep _ hdat hs ?_
  rw [hdat 0 (by omega)]
  exact hr

/-! loops -/

theorem run_foldlM_opt {ι σ : Type} {f : Unit → ι → Prog A V Unit} {g : σ → ι → Option σ}
    (r : (A → V) → σ → Prop) (l : List ι)
    (h : ∀ m s s', ∀ x ∈ l, r m s → g s x = some s' → r ((f () x).run m).2 s')
    (m : A → V) (s s' : σ) (hr : r m s) (hg : l.foldlM g s = some s') :
    r ((l.foldlM f ()).run m).2 s' := by
  induction l generalizing m s with
  | nil => cases hg; exact hr
  | cons x l ih =>
    rw [List.foldlM_cons] at hg
    rw [List.foldlM_cons, run_bind]
    cases hx : g s x with
    | none => rw [hx] at hg; cases hg
    | some s1 =>
      rw [hx] at hg
      exact ih (fun m s s' y hy => h m s s' y (List.mem_cons_of_mem _ hy)) _ _
        (h m s s1 x List.mem_cons_self hr hx) hg

/-! two variables -/

/-- The window holds the comoment array. -/
def Shows2 (o0 o1 : ℕ) (out : ℕ → ℕ → A) (m : A → K) (s : Com K) : Prop :=
  ∀ i j, i ≤ o0 → j ≤ o1 → m (out i j) = s i j

/-- Different entries are different cells. -/
def Distinct2 (o0 o1 : ℕ) (out : ℕ → ℕ → A) : Prop :=
  ∀ i j i' j', i ≤ o0 → j ≤ o1 → i' ≤ o0 → j' ≤ o1 → out i j = out i' j' → i = i' ∧ j = j'

theorem Shows2.update {o0 o1 : ℕ} {out : ℕ → ℕ → A} (hd : Distinct2 o0 o1 out) {m : A → K}
    {s : Com K} (h : Shows2 o0 o1 out m s) {i j : ℕ} (hi : i ≤ o0) (hj : j ≤ o1) {v v' : K}
    (hv : v = v') : Shows2 o0 o1 out (Function.update m (out i j) v) (setAt s i j v') := by
  subst hv
  intro i' j' hi' hj'
  unfold setAt
  by_cases e : i' = i
  · subst e
    rw [Function.update_self]
    by_cases f : j' = j
    · subst f; simp
    · rw [Function.update_of_ne f,
        Function.update_of_ne (fun e => f (hd _ _ _ _ hi' hj' hi hj e).2), h _ _ hi' hj']
  · rw [Function.update_of_ne e,
      Function.update_of_ne (fun g => e (hd _ _ _ _ hi' hj' hi hj g).1), h _ _ hi' hj']

theorem pushValCovTmpP_run {o0 o1 a0 a1 : ℕ} (h0 : a0 ≤ o0) (h1 : a1 ≤ o1)
    (delta0 delta1 alpha one_alpha : K) {out : ℕ → ℕ → A} {m : A → K} {s : Com K}
    (hs : Shows2 o0 o1 out m s) :
    (@pushValCovTmpP A K (exact K) a0 a1 delta0 delta1 alpha one_alpha out).run m =
      (pushValCovTmp a0 a1 delta0 delta1 alpha one_alpha s, m) := by
  unfold pushValCovTmpP
  rw [run_bind, run_foldlM_read (g := pushValCovInner0 a0 a1 delta0 delta1 alpha one_alpha s)]
  · rfl
  intro p b0 _
  dsimp only
  rw [run_bind, run_foldlM_read
    (g := pushValCovInner1 a0 a1 b0 p.delta0_b0 delta1 alpha one_alpha s)]
  · rfl
  intro q b1 _
  by_cases hc : a0 - b0 + (a1 - b1) ≠ 0 ∧ a0 - b0 + (a1 - b1) ≠ 1
  · rw [if_pos hc, run_bind, run_get, hs _ _ (by omega) (by omega)]
    rfl
  · rw [if_neg hc, run_bind, run_pure, run_pure]
    unfold pushValCovInner1
    simp only
    by_cases hc0 : a0 - b0 + (a1 - b1) = 0
    · rw [if_pos hc0, if_pos hc0]
    · have hc1 : ¬ a0 - b0 + (a1 - b1) ≠ 1 := fun h => hc ⟨hc0, h⟩
      rw [if_neg hc0, if_neg hc0, if_neg hc1, if_neg hc1]

theorem pushValCovP_shows {o0 o1 : ℕ} (h0 : 1 ≤ o0) (h1 : 1 ≤ o1) {out : ℕ → ℕ → A}
    (hd : Distinct2 o0 o1 out) (x0 x1 w : K) {m : A → K} {s r : Com K}
    (hs : Shows2 o0 o1 out m s) (hr : pushValCov o0 o1 x0 x1 w s = some r) :
    Shows2 o0 o1 out ((@pushValCovP A K (exact K) o0 o1 x0 x1 w out).run m).2 r := by
  unfold pushValCov at hr
  unfold pushValCovP
  by_cases hw : w = 0
  · rw [if_pos hw] at hr
    cases hr
    rw [if_pos (show @Arith.isZero K (exact K) w = true from decide_eq_true hw)]
    exact hs
  rw [if_neg hw] at hr
  rw [if_neg (show ¬ @Arith.isZero K (exact K) w = true from fun h => hw (of_decide_eq_true h))]
  simp only [run_bind, run_get, run_put]
  have hs1 : Shows2 o0 o1 out (Function.update m (out 0 0) (m (out 0 0) + w))
      (setAt s 0 0 (s 0 0 + w)) :=
    hs.update hd (by omega) (by omega) (by rw [hs 0 0 (by omega) (by omega)])
  generalize Function.update m (out 0 0) (m (out 0 0) + w) = m1 at *
  generalize setAt s 0 0 (s 0 0 + w) = s1 at *
  by_cases hz : s1 0 0 = 0
  · rw [if_pos hz] at hr; cases hr
  rw [if_neg hz] at hr
  rw [hs1 0 0 (by omega) (by omega), hs1 1 0 (by omega) (by omega), hs1 0 1 (by omega) (by omega)]
  simp only [] at hr
  have hs2 := hs1.update hd (i := 1) (j := 0) (by omega) (by omega)
    (v := s1 1 0 + (x0 - s1 1 0) * (w / s1 0 0)) rfl
  generalize Function.update m1 (out 1 0) (s1 1 0 + (x0 - s1 1 0) * (w / s1 0 0)) = m2 at *
  generalize setAt s1 1 0 (s1 1 0 + (x0 - s1 1 0) * (w / s1 0 0)) = s2 at *
  rw [hs2 0 1 (by omega) (by omega)]
  have hs3 := hs2.update hd (i := 0) (j := 1) (by omega) (by omega)
    (v := s2 0 1 + (x1 - s1 0 1) * (w / s1 0 0)) rfl
  generalize Function.update m2 (out 0 1) (s2 0 1 + (x1 - s1 0 1) * (w / s1 0 0)) = m3 at *
  generalize setAt s2 0 1 (s2 0 1 + (x1 - s1 0 1) * (w / s1 0 0)) = s3 at *
  cases hr
  refine run_foldlM_rel (Shows2 o0 o1 out) _ ?_ _ _ hs3
  intro m s a0 ha0 hs
  refine run_foldlM_rel (Shows2 o0 o1 out) _ ?_ _ _ hs
  intro m s a1 ha1 hs
  simp only [rangeDownTo, List.mem_map, List.mem_range] at ha0 ha1
  obtain ⟨i, _, rfl⟩ := ha0
  obtain ⟨j, _, rfl⟩ := ha1
  rw [run_bind, pushValCovTmpP_run (by omega) (by omega) _ _ _ _ hs]
  exact hs.update hd (by omega) (by omega) rfl

/-- Two comoment arrays share no cell. -/
def Separate2 (o0 o1 : ℕ) (data out : ℕ → ℕ → A) : Prop :=
  ∀ i j i' j', i ≤ o0 → j ≤ o1 → i' ≤ o0 → j' ≤ o1 → data i j ≠ out i' j'

theorem Shows2.update_other {o0 o1 : ℕ} {data out : ℕ → ℕ → A} (hsep : Separate2 o0 o1 data out)
    {m : A → K} {d : Com K} (h : Shows2 o0 o1 data m d) {i j : ℕ} (hi : i ≤ o0) (hj : j ≤ o1)
    (v : K) : Shows2 o0 o1 data (Function.update m (out i j) v) d := by
  intro i' j' hi' hj'
  rw [Function.update_of_ne (hsep i' j' i j hi' hj' hi hj), h _ _ hi' hj']

theorem pushDataCovTmpP_run {o0 o1 a0 a1 : ℕ} (h0 : a0 ≤ o0) (h1 : a1 ≤ o1)
    (delta0 delta1 alpha one_alpha : K) {data out : ℕ → ℕ → A} {m : A → K} {d s : Com K}
    (hdat : Shows2 o0 o1 data m d) (hs : Shows2 o0 o1 out m s) :
    (@pushDataCovTmpP A K (exact K) a0 a1 delta0 delta1 alpha one_alpha data out).run m =
      (pushDataCovTmp a0 a1 delta0 delta1 alpha one_alpha d s, m) := by
  unfold pushDataCovTmpP
  rw [run_bind, run_foldlM_read (g := pushDataCovInner0 a0 a1 delta0 delta1 alpha one_alpha d s)]
  · rfl
  intro p b0 _
  dsimp only
  rw [run_bind, run_foldlM_read
    (g := pushDataCovInner1 a0 a1 b0 p.delta0_b0 delta1 alpha one_alpha d s)]
  · rfl
  intro q b1 _
  by_cases hc : a0 - b0 + (a1 - b1) ≠ 0 ∧ a0 - b0 + (a1 - b1) ≠ 1
  · simp only [if_pos hc, run_bind, run_get, run_pure]
    rw [hs _ _ (by omega) (by omega), hdat _ _ (by omega) (by omega)]
    unfold pushDataCovInner1
    simp only
    rw [if_neg hc.1, if_neg hc.1, if_pos hc.2, if_pos hc.2]
    rfl
  · simp only [if_neg hc, run_bind, run_pure]
    unfold pushDataCovInner1
    simp only
    by_cases hc0 : a0 - b0 + (a1 - b1) = 0
    · rw [if_pos hc0, if_pos hc0]
    · have hc1 : ¬ a0 - b0 + (a1 - b1) ≠ 1 := fun h => hc ⟨hc0, h⟩
      rw [if_neg hc0, if_neg hc0, if_neg hc1, if_neg hc1]

theorem pushDataCovBodyP_shows {o0 o1 : ℕ} (h0 : 1 ≤ o0) (h1 : 1 ≤ o1) {data out : ℕ → ℕ → A}
    (hd : Distinct2 o0 o1 out) (hsep : Separate2 o0 o1 data out) (w : K) {m : A → K}
    {d s r : Com K} (hdat : Shows2 o0 o1 data m d) (hs : Shows2 o0 o1 out m s)
    (hr : pushDataCovBody o0 o1 w d s = some r) :
    Shows2 o0 o1 out ((@pushDataCovBodyP A K (exact K) o0 o1 w data out).run m).2 r := by
  unfold pushDataCovBody at hr
  unfold pushDataCovBodyP
  by_cases hw : w = 0
  · rw [if_pos hw] at hr
    cases hr
    rw [if_pos (show @Arith.isZero K (exact K) w = true from decide_eq_true hw)]
    exact hs
  rw [if_neg hw] at hr
  rw [if_neg (show ¬ @Arith.isZero K (exact K) w = true from fun h => hw (of_decide_eq_true h))]
  simp only [run_bind, run_get, run_put]
  have hs1 : Shows2 o0 o1 out (Function.update m (out 0 0) (m (out 0 0) + w))
      (setAt s 0 0 (s 0 0 + w)) :=
    hs.update hd (by omega) (by omega) (by rw [hs 0 0 (by omega) (by omega)])
  have hd1 := hdat.update_other hsep (i := 0) (j := 0) (by omega) (by omega) (m (out 0 0) + w)
  generalize Function.update m (out 0 0) (m (out 0 0) + w) = m1 at *
  generalize setAt s 0 0 (s 0 0 + w) = s1 at *
  by_cases hz : s1 0 0 = 0
  · rw [if_pos hz] at hr; cases hr
  rw [if_neg hz] at hr
  rw [hs1 0 0 (by omega) (by omega), hs1 1 0 (by omega) (by omega), hs1 0 1 (by omega) (by omega),
    hd1 1 0 (by omega) (by omega), hd1 0 1 (by omega) (by omega)]
  simp only [] at hr
  have hs2 := hs1.update hd (i := 1) (j := 0) (by omega) (by omega)
    (v := s1 1 0 + (d 1 0 - s1 1 0) * (w / s1 0 0)) rfl
  have hd2 := hd1.update_other hsep (i := 1) (j := 0) (by omega) (by omega)
    (s1 1 0 + (d 1 0 - s1 1 0) * (w / s1 0 0))
  generalize Function.update m1 (out 1 0) (s1 1 0 + (d 1 0 - s1 1 0) * (w / s1 0 0)) = m2 at *
  generalize setAt s1 1 0 (s1 1 0 + (d 1 0 - s1 1 0) * (w / s1 0 0)) = s2 at *
  rw [hs2 0 1 (by omega) (by omega)]
  have hs3 := hs2.update hd (i := 0) (j := 1) (by omega) (by omega)
    (v := s2 0 1 + (d 0 1 - s1 0 1) * (w / s1 0 0)) rfl
  have hd3 := hd2.update_other hsep (i := 0) (j := 1) (by omega) (by omega)
    (s2 0 1 + (d 0 1 - s1 0 1) * (w / s1 0 0))
  generalize Function.update m2 (out 0 1) (s2 0 1 + (d 0 1 - s1 0 1) * (w / s1 0 0)) = m3 at *
  generalize setAt s2 0 1 (s2 0 1 + (d 0 1 - s1 0 1) * (w / s1 0 0)) = s3 at *
  cases hr
  refine (run_foldlM_rel (fun m s => Shows2 o0 o1 out m s ∧ Shows2 o0 o1 data m d) _ ?_ _ _
    ⟨hs3, hd3⟩).1
  intro m s a0 ha0 hs
  refine run_foldlM_rel (fun m s => Shows2 o0 o1 out m s ∧ Shows2 o0 o1 data m d) _ ?_ _ _ hs
  intro m s a1 ha1 hs
  simp only [rangeDownTo, List.mem_map, List.mem_range] at ha0 ha1
  obtain ⟨i, _, rfl⟩ := ha0
  obtain ⟨j, _, rfl⟩ := ha1
  rw [run_bind, pushDataCovTmpP_run (by omega) (by omega) _ _ _ _ hs.2 hs.1]
  exact ⟨hs.1.update hd (by omega) (by omega) rfl, hs.2.update_other hsep (by omega) (by omega) _⟩

theorem pushDataCovP_shows {o0 o1 : ℕ} (h0 : 1 ≤ o0) (h1 : 1 ≤ o1) {data out : ℕ → ℕ → A}
    (hd : Distinct2 o0 o1 out) (hsep : Separate2 o0 o1 data out) {m : A → K}
    {d s r : Com K} (hdat : Shows2 o0 o1 data m d) (hs : Shows2 o0 o1 out m s)
    (hr : pushDataCov o0 o1 d s = some r) :
    Shows2 o0 o1 out ((@pushDataCovP A K (exact K) o0 o1 data out).run m).2 r := by
  unfold pushDataCovP
  rw [run_bind, run_get]
  refine pushDataCovBodyP_shows h0 h1 hd hsep _ hdat hs ?_
  rw [hdat 0 0 (by omega) (by omega)]
  exact hr

theorem pushDataScaleCovP_shows {o0 o1 : ℕ} (h0 : 1 ≤ o0) (h1 : 1 ≤ o1) {data out : ℕ → ℕ → A}
    (hd : Distinct2 o0 o1 out) (hsep : Separate2 o0 o1 data out) (scale : K) {m : A → K}
    {d s r : Com K} (hdat : Shows2 o0 o1 data m d) (hs : Shows2 o0 o1 out m s)
    (hr : pushDataScaleCov o0 o1 d scale s = some r) :
    Shows2 o0 o1 out ((@pushDataScaleCovP A K (exact K) o0 o1 data scale out).run m).2 r := by
  unfold pushDataScaleCovP
  rw [run_bind, run_get]
  refine pushDataCovBodyP_shows h0 h1 hd hsep _ hdat hs ?_
  rw [hdat 0 0 (by omega) (by omega)]
  exact hr

end sim

end Cmomy.Par
