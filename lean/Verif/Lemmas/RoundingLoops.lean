import Verif.Lemmas.Rounding

/-!
# What every push keeps, the sample loops keep

For any kernel: if a property of moments holds of zeros and is kept by every push with a weight that is
not negative, then no sample loop fails, and its results have the property.
-/

set_option linter.unusedSectionVars false

namespace Cmomy

open Spec

variable {K V M : Type*} [Field K] [LinearOrder K] [IsStrictOrderedRing K]

theorem readAt_mem {α : Type*} {l : List α} {i : ℤ} {a : α} (e : Indexed.readAt l i = .ok a) : a ∈ l := by
  unfold Indexed.readAt at e
  split_ifs at e
  split at e
  · rename_i a' e'
    obtain rfl := Except.ok.inj e
    exact List.mem_of_getElem? e'
  · cases e

theorem mapM_ok_mem {α β : Type*} {f : α → Py β} {l : List α} {out : List β} (e : l.mapM f = .ok out) :
    ∀ b ∈ out, ∃ a ∈ l, f a = .ok b := by
  induction l generalizing out with
  | nil =>
    obtain rfl := Except.ok.inj e
    intro b hb
    cases hb
  | cons a l ih =>
    rw [List.mapM_cons] at e
    cases e1 : f a with
    | error x => rw [e1] at e; cases e
    | ok b0 =>
      rw [e1] at e
      change (l.mapM f).bind _ = _ at e
      cases e2 : l.mapM f with
      | error x => rw [e2] at e; cases e
      | ok bs =>
        rw [e2] at e
        obtain rfl := Except.ok.inj e
        intro b hb
        rcases List.mem_cons.1 hb with rfl | hb
        · exact ⟨a, List.mem_cons_self, e1⟩
        · obtain ⟨a', ha', e'⟩ := ih e2 b hb
          exact ⟨a', List.mem_cons_of_mem _ ha', e'⟩

/-- A property that pushes keep. `okV` are the values, `okW` the weights. -/
structure Kept (k : Kernel K V M) (setWeight : M → K → M) (okV : V → Prop) (okW : K → Prop)
    (P : M → Prop) : Prop where
  zero : P k.zero
  val : ∀ {x w o}, okV x → okW w → P o → ∃ m, k.pushVal x w o = some m ∧ P m
  data : ∀ {d o}, P d → P o → ∃ m, k.pushData d o = some m ∧ P m
  scale : ∀ {d f o}, P d → okW f → P o → ∃ m, k.pushScale d f o = some m ∧ P m
  mul : ∀ {d f}, P d → okW f → P (k.mulWeight d f)
  set : ∀ {d w}, P d → okW w → (k.weight d = 0 → w = 0) → P (setWeight d w)
  weight : ∀ {d}, P d → okW (k.weight d)

namespace Kept

section loops

variable {k : Kernel K V M} {sw : M → K → M} {okV : V → Prop} {okW : K → Prop} {P : M → Prop}

theorem foldlM {β : Type*} (f : M → β → Option M) (l : List β) (o : M) (ho : P o)
    (hs : ∀ b ∈ l, ∀ o, P o → ∃ m, f o b = some m ∧ P m) : ∃ m, l.foldlM f o = some m ∧ P m := by
  induction l generalizing o with
  | nil => exact ⟨o, rfl, ho⟩
  | cons b l ih =>
    obtain ⟨m, e, hm⟩ := hs b List.mem_cons_self o ho
    rw [List.foldlM_cons, e]
    exact ih m hm fun b hb => hs b (List.mem_cons_of_mem _ hb)

variable (h : Kept k sw okV okW P)
include h

theorem reduceVals {xs : List (V × K)} (hx : ∀ p ∈ xs, okV p.1 ∧ okW p.2) {o : M} (ho : P o) :
    ∃ m, k.reduceVals xs o = some m ∧ P m :=
  foldlM _ xs o ho fun p hp _ ho => h.val (hx p hp).1 (hx p hp).2 ho

theorem reduceData {ds : List M} (hd : ∀ d ∈ ds, P d) {o : M} (ho : P o) :
    ∃ m, k.reduceData ds o = some m ∧ P m :=
  foldlM _ ds o ho fun d hd' _ ho => h.data (hd d hd') ho

theorem cumulative {ds : List M} (hd : ∀ d ∈ ds, P d) :
    ∃ rs, k.cumulative ds = some rs ∧ rs.length = ds.length ∧ ∀ r ∈ rs, P r := by
  have go : ∀ (ds : List M) (prev : M), (∀ d ∈ ds, P d) → P prev →
      ∃ rs, k.cumulativeGo prev ds = some rs ∧ rs.length = ds.length ∧ ∀ r ∈ rs, P r := by
    intro ds
    induction ds with
    | nil => intro prev _ _; exact ⟨[], rfl, rfl, by simp⟩
    | cons d ds ih =>
      intro prev hd hp
      obtain ⟨r, e, hr⟩ := h.data hp (hd d List.mem_cons_self)
      obtain ⟨rs, e', hl, hrs⟩ := ih r (fun d hd' => hd d (List.mem_cons_of_mem _ hd')) hr
      refine ⟨r :: rs, ?_, by simp [hl], by simpa using ⟨hr, hrs⟩⟩
      show (k.pushData prev d).bind (fun r => (k.cumulativeGo r ds).bind fun rs => some (r :: rs)) = _
      rw [e]
      show (k.cumulativeGo r ds).bind _ = _
      rw [e']
      rfl
  cases ds with
  | nil => exact ⟨[], rfl, rfl, by simp⟩
  | cons d ds =>
    have h1 := hd d List.mem_cons_self
    obtain ⟨rs, e, hl, hrs⟩ := go ds d (fun d hd' => hd d (List.mem_cons_of_mem _ hd')) h1
    refine ⟨d :: rs, ?_, by simp [hl], by simpa using ⟨h1, hrs⟩⟩
    show (k.cumulativeGo d ds).bind (fun rs => some (d :: rs)) = _
    rw [e]
    rfl

theorem resampleDataRow {fd : List (K × M)} (hd : ∀ p ∈ fd, okW p.1 ∧ P p.2) :
    ∃ m, k.resampleDataRow fd = some m ∧ P m := by
  induction fd with
  | nil => exact ⟨_, rfl, h.zero⟩
  | cons p fd ih =>
    obtain ⟨f, d⟩ := p
    obtain ⟨hf, hd1⟩ := hd _ List.mem_cons_self
    have hd2 : ∀ p ∈ fd, okW p.1 ∧ P p.2 := fun p hp => hd p (List.mem_cons_of_mem _ hp)
    by_cases h0 : f = 0
    · obtain ⟨m, e, hm⟩ := ih hd2
      refine ⟨m, ?_, hm⟩
      rw [← e]
      show (if f ≠ 0 then _ else _) = _
      rw [if_neg (not_not.2 h0)]
    · obtain ⟨m, e, hm⟩ := foldlM (P := P)
        (fun o (p : K × M) => if p.1 ≠ 0 then k.pushScale p.2 p.1 o else some o) fd (k.mulWeight d f)
        (h.mul hd1 hf) (by
          intro p hp o ho
          by_cases hp0 : p.1 = 0
          · exact ⟨o, by rw [if_neg (not_not.2 hp0)], ho⟩
          · rw [if_pos hp0]
            exact h.scale (hd2 p hp).2 (hd2 p hp).1 ho)
      refine ⟨m, ?_, hm⟩
      rw [← e]
      show (if f ≠ 0 then _ else _) = _
      rw [if_pos h0]
      rfl

theorem resampleData {freq : List (List K)} (hf : ∀ row ∈ freq, ∀ f ∈ row, okW f) {ds : List M}
    (hd : ∀ d ∈ ds, P d) : ∀ r ∈ k.resampleData freq ds, ∃ m, r = some m ∧ P m := by
  intro r hr
  obtain ⟨row, hrow, rfl⟩ := List.mem_map.1 hr
  exact h.resampleDataRow fun p hp =>
    ⟨hf row hrow _ (List.of_mem_zip hp).1, hd _ (List.of_mem_zip hp).2⟩

theorem resampleVals {R : Precision K} (hmul : ∀ {w f}, okW w → okW f → okW (R.lo (w * f)))
    {freq : List (List K)} (hf : ∀ row ∈ freq, ∀ f ∈ row, okW f) {xs : List (V × K)}
    (hx : ∀ p ∈ xs, okV p.1 ∧ okW p.2) : ∀ r ∈ R.resampleVals k freq xs, ∃ m, r = some m ∧ P m := by
  intro r hr
  obtain ⟨row, hrow, rfl⟩ := List.mem_map.1 hr
  refine foldlM _ _ _ h.zero fun p hp o ho => ?_
  have h1 := hf row hrow _ (List.of_mem_zip hp).1
  have h2 := hx _ (List.of_mem_zip hp).2
  by_cases hp0 : p.1 = 0
  · exact ⟨o, by rw [if_pos hp0], ho⟩
  · rw [if_neg hp0]
    exact h.val h2.1 (hmul h2.2 h1) ho

theorem reduceDataGrouped {ds : List M} (hd : ∀ d ∈ ds, P d) {by_ : List ℤ} {nout : Option ℕ}
    {out : List (Option M)} (e : k.reduceDataGrouped ds by_ nout = .ok out) :
    ∀ r ∈ out, ∃ m, r = some m ∧ P m := by
  have key : ∀ (l : List (ℤ × M)) (o : List (Option M)), (∀ p ∈ l, P p.2) →
      (∀ r ∈ o, ∃ m, r = some m ∧ P m) → ∀ r ∈ l.foldl k.groupedStep o, ∃ m, r = some m ∧ P m := by
    intro l
    induction l with
    | nil => intro o _ ho; exact ho
    | cons p l ih =>
      intro o hl ho
      refine ih _ (fun q hq => hl q (List.mem_cons_of_mem _ hq)) ?_
      intro r hr
      unfold Kernel.groupedStep at hr
      split_ifs at hr
      · obtain ⟨i, hi, rfl⟩ := List.getElem_of_mem hr
        rw [List.getElem_modify]
        rw [List.length_modify] at hi
        obtain ⟨m, e, hm⟩ := ho _ (List.getElem_mem hi)
        split_ifs
        · rw [e]
          exact h.data (hl p List.mem_cons_self) hm
        · exact ⟨m, e, hm⟩
      · exact ho r hr
  have run : ∀ n, k.groupedKernel ds by_ (List.replicate n (some k.zero)) = .ok out →
      ∀ r ∈ out, ∃ m, r = some m ∧ P m := by
    intro n e
    unfold Kernel.groupedKernel at e
    split at e
    · cases e
    · split_ifs at e
      obtain rfl := Except.ok.inj e
      refine key _ _ (fun p hp => hd _ (List.of_mem_zip hp).2) fun r hr => ?_
      exact ⟨_, List.eq_of_mem_replicate hr, h.zero⟩
  unfold Kernel.reduceDataGrouped at e
  split_ifs at e
  split at e
  · exact run _ e
  · split at e
    · cases e
    · split_ifs at e
      exact run _ e

theorem indexedRow {ds : List M} (hd : ∀ d ∈ ds, P d) {index : List ℤ} {scale : List K}
    (hs : ∀ f ∈ scale, okW f) {start stop : ℤ} {r : Option M}
    (e : Indexed.row k ds index scale start stop = .ok r) : ∃ m, r = some m ∧ P m := by
  have fold : ∀ (l : List ℕ) (o : Option M), (∃ m, o = some m ∧ P m) →
      l.foldlM (fun o (j : ℕ) => Indexed.rowStep k ds index scale o (start + 1 + j)) o = .ok r →
      ∃ m, r = some m ∧ P m := by
    intro l
    induction l with
    | nil =>
      intro o ho e
      obtain rfl := Except.ok.inj e
      exact ho
    | cons j l ih =>
      rintro _ ⟨m, rfl, hm⟩ e
      rw [List.foldlM_cons] at e
      cases e' : Indexed.rowStep k ds index scale (some m) (start + 1 + j) with
      | error x => rw [e'] at e; cases e
      | ok o' =>
        rw [e'] at e
        refine ih o' ?_ e
        unfold Indexed.rowStep at e'
        cases e1 : Indexed.readAt index (start + 1 + j) with
        | error x => rw [e1] at e'; cases e'
        | ok s =>
          rw [e1] at e'
          change (Indexed.readAt scale (start + 1 + j)).bind _ = _ at e'
          cases e2 : Indexed.readAt scale (start + 1 + j) with
          | error x => rw [e2] at e'; cases e'
          | ok f =>
            rw [e2] at e'
            change (Indexed.readAt ds s).bind _ = _ at e'
            cases e3 : Indexed.readAt ds s with
            | error x => rw [e3] at e'; cases e'
            | ok d =>
              rw [e3] at e'
              obtain rfl := Except.ok.inj e'
              exact h.scale (hd d (readAt_mem e3)) (hs f (readAt_mem e2)) hm
  unfold Indexed.row at e
  split_ifs at e
  · cases e1 : Indexed.readAt index start with
    | error x => rw [e1] at e; cases e
    | ok s =>
      rw [e1] at e
      change (Indexed.readAt scale start).bind _ = _ at e
      cases e2 : Indexed.readAt scale start with
      | error x => rw [e2] at e; cases e
      | ok f =>
        rw [e2] at e
        change (Indexed.readAt ds s).bind _ = _ at e
        cases e3 : Indexed.readAt ds s with
        | error x => rw [e3] at e; cases e
        | ok d =>
          rw [e3] at e
          exact fold _ _ ⟨_, rfl, h.mul (hd d (readAt_mem e3)) (hs f (readAt_mem e2))⟩ e
  · obtain rfl := Except.ok.inj e
    exact ⟨_, rfl, h.zero⟩

theorem reduceDataIndexed (h1 : okW 1) {ds : List M} (hd : ∀ d ∈ ds, P d) {index start stop : List ℤ}
    {scale : Option (List K)} (hs : ∀ l, scale = some l → ∀ f ∈ l, okW f) {out : List (Option M)}
    (e : Indexed.reduceDataIndexed k ds index start stop scale = .ok out) :
    ∀ r ∈ out, ∃ m, r = some m ∧ P m := by
  have run : ∀ sc : List K, (∀ f ∈ sc, okW f) → Indexed.kernel k ds index sc start stop = .ok out →
      ∀ r ∈ out, ∃ m, r = some m ∧ P m := by
    intro sc hsc e r hr
    obtain ⟨p, -, e'⟩ := mapM_ok_mem e r hr
    exact h.indexedRow hd hsc e'
  unfold Indexed.reduceDataIndexed at e
  cases e1 : Indexed.validateIndex ds.length index start stop with
  | error x => rw [e1] at e; cases e
  | ok _ =>
    rw [e1] at e
    cases scale with
    | none => exact run _ (fun f hf => (List.eq_of_mem_replicate hf) ▸ h1) e
    | some sc =>
      change (if _ then _ else _) = _ at e
      split_ifs at e
      exact run sc (hs sc rfl) e

end loops

section exponential

variable {R : Precision K} {k : Kernel K V M} {sw : M → K → M} {okV : V → Prop} {P : M → Prop}

open Kernel (ExpState expEmit)

theorem scanEmit_kept {σ α β : Type*} {step : σ → α → Option σ} {emit : σ → β} (Q : σ → Prop) {l : List α}
    (hs : ∀ a ∈ l, ∀ s, Q s → ∃ s', step s a = some s' ∧ Q s') {s : σ} (h0 : Q s) :
    ∃ out t, scanEmit step emit l s = some (out, t) ∧ out.length = l.length ∧
      ∀ b ∈ out, ∃ s, Q s ∧ b = emit s := by
  induction l generalizing s with
  | nil => exact ⟨[], s, rfl, rfl, by simp⟩
  | cons a l ih =>
    obtain ⟨s', e, hq⟩ := hs a List.mem_cons_self s h0
    obtain ⟨out, t, e', hl, ho⟩ := ih (fun a ha => hs a (List.mem_cons_of_mem _ ha)) hq
    refine ⟨emit s' :: out, t, ?_, by simp [hl], ?_⟩
    · rw [scanEmit, e, Option.bind_some, e']
      rfl
    · intro b hb
      rcases List.mem_cons.1 hb with rfl | hb
      · exact ⟨s', hq, rfl⟩
      · exact ho b hb

/-- The state of the exponential loops. -/
def ExpOk (P : M → Prop) (s : ExpState K M) : Prop := P s.dummy ∧ 0 ≤ s.oldWeight

variable (hR : IsPrecision R) (h : Kept k sw okV (IsWeight R) P)
include hR h

theorem set_mul {d : M} (hd : P d) {f : K} (hf : 0 ≤ f) : P (sw d (R.lo (R.hi (k.weight d * f)))) := by
  refine h.set hd ⟨hR.num_lo _, hR.lo.nonneg (hR.hi.nonneg (mul_nonneg (h.weight hd).2 hf))⟩ fun e => ?_
  rw [e, zero_mul, hR.hi.zero, hR.lo.zero]

theorem set_div {d : M} (hd : P d) {f : K} (hf : 0 ≤ f) : P (sw d (R.lo (R.hi (k.weight d / f)))) := by
  rw [div_eq_mul_inv]
  exact set_mul hR h hd (inv_nonneg.2 hf)

theorem expRenorm {alpha : K} (ha : 0 < alpha) (hn : IsNum R alpha) {s : ExpState K M} (hs : ExpOk P s) :
    ∃ s', R.expRenorm k sw alpha s = some s' ∧ ExpOk P s' := by
  have hpos : 0 < R.hi (s.oldWeight + alpha) := by
    have := hR.hi.mono (show alpha ≤ s.oldWeight + alpha by linarith [hs.2])
    rw [hR.hi_num hn] at this
    exact ha.trans_le this
  refine ⟨⟨_, s.count, 1⟩, ?_, set_div hR h hs.1 hpos.le, zero_le_one⟩
  unfold Precision.expRenorm
  rw [if_neg hpos.ne']

theorem decay {alpha : K} (ha : alpha ≤ 1) {s : ExpState K M} (hs : ExpOk P s) :
    P (sw s.dummy (R.lo (R.hi (k.weight s.dummy * R.hi (1 - alpha))))) ∧
      0 ≤ R.hi (s.oldWeight * R.hi (1 - alpha)) := by
  have hd : 0 ≤ R.hi (1 - alpha) := hR.hi.nonneg (by linarith)
  exact ⟨set_mul hR h hs.1 hd, hR.hi.nonneg (mul_nonneg hs.2 hd)⟩

theorem expStep {adjust : Bool} {s : ExpState K M} (hs : ExpOk P s) {p : K × M}
    (ha : IsWeight R p.1 ∧ p.1 ≤ 1 ∧ (adjust = false → p.1 ≠ 0)) (hp : P p.2) :
    ∃ s', R.expStep k sw adjust s p = some s' ∧ ExpOk P s' := by
  obtain ⟨hd, ho⟩ := decay hR h ha.2.1 hs
  unfold Precision.expStep
  by_cases hw : k.weight p.2 = 0
  · exact ⟨⟨_, s.count, _⟩, by simp only [hw, ne_eq, not_true_eq_false, if_false], hd, ho⟩
  · simp only [ne_eq, hw, not_false_eq_true, if_true]
    cases adjust with
    | true =>
      obtain ⟨m, e, hm⟩ := h.scale hp ⟨hR.num_one, zero_le_one⟩ hd
      exact ⟨⟨m, s.count + 1, R.hi (s.oldWeight * R.hi (1 - p.1))⟩, by simp [e], hm, ho⟩
    | false =>
      obtain ⟨m, e, hm⟩ := h.scale hp ha.1 hd
      obtain ⟨s', e', hs'⟩ := expRenorm hR h (lt_of_le_of_ne ha.1.2 (Ne.symm (ha.2.2 rfl))) ha.1.1
        (s := ⟨m, s.count + 1, R.hi (s.oldWeight * R.hi (1 - p.1))⟩) ⟨hm, ho⟩
      exact ⟨s', by simp [e, e'], hs'⟩

theorem expStepVal {adjust : Bool} {s : ExpState K M} (hs : ExpOk P s) {p : K × V × K}
    (ha : IsWeight R p.1 ∧ p.1 ≤ 1 ∧ (adjust = false → p.1 ≠ 0)) (hp : okV p.2.1 ∧ IsWeight R p.2.2) :
    ∃ s', R.expStepVal k sw adjust s p = some s' ∧ ExpOk P s' := by
  obtain ⟨hd, ho⟩ := decay hR h ha.2.1 hs
  unfold Precision.expStepVal
  by_cases hw : p.2.2 = 0
  · exact ⟨⟨_, s.count, _⟩, by simp only [hw, ne_eq, not_true_eq_false, if_false], hd, ho⟩
  · simp only [ne_eq, hw, not_false_eq_true, if_true]
    cases adjust with
    | true =>
      obtain ⟨m, e, hm⟩ := h.val hp.1 hp.2 hd
      exact ⟨⟨m, s.count + 1, R.hi (s.oldWeight * R.hi (1 - p.1))⟩, by simp [e], hm, ho⟩
    | false =>
      obtain ⟨m, e, hm⟩ := h.val hp.1 (hR.weight_mul hp.2.2 ha.1.2) hd
      obtain ⟨s', e', hs'⟩ := expRenorm hR h (lt_of_le_of_ne ha.1.2 (Ne.symm (ha.2.2 rfl))) ha.1.1
        (s := ⟨m, s.count + 1, R.hi (s.oldWeight * R.hi (1 - p.1))⟩) ⟨hm, ho⟩
      exact ⟨s', by simp [e, e'], hs'⟩

theorem rollingExpData {adjust : Bool} {minPeriods : Option ℤ} {alpha : List K} {ds : List M}
    (ha : ∀ a ∈ alpha, IsWeight R a ∧ a ≤ 1 ∧ (adjust = false → a ≠ 0)) (hd : ∀ d ∈ ds, P d) :
    ∃ rs, R.rollingExpData k sw adjust minPeriods alpha ds = some rs ∧
      rs.length = min alpha.length ds.length ∧ ∀ r ∈ rs, r = none ∨ ∃ m, r = some m ∧ P m := by
  obtain ⟨out, t, e, hl, ho⟩ := scanEmit_kept (emit := expEmit (max (max 1 (minPeriods.getD 1)) 1))
    (step := R.expStep k sw adjust) (ExpOk P) (l := alpha.zip ds)
    (fun p hp s hs => expStep hR h hs (ha _ (List.of_mem_zip hp).1) (hd _ (List.of_mem_zip hp).2))
    (s := ⟨k.zero, 0, 0⟩) ⟨h.zero, le_refl _⟩
  refine ⟨out, by unfold Precision.rollingExpData; simp only [e, Option.map_some], by simpa using hl, fun r hr => ?_⟩
  obtain ⟨s, hs, rfl⟩ := ho r hr
  unfold expEmit
  split_ifs
  · exact .inr ⟨_, rfl, hs.1⟩
  · exact .inl rfl

theorem rollingExpVals {adjust : Bool} {minPeriods : Option ℤ} {alpha : List K} {xs : List (V × K)}
    (ha : ∀ a ∈ alpha, IsWeight R a ∧ a ≤ 1 ∧ (adjust = false → a ≠ 0))
    (hx : ∀ p ∈ xs, okV p.1 ∧ IsWeight R p.2) :
    ∃ rs, R.rollingExpVals k sw adjust minPeriods alpha xs = some rs ∧
      rs.length = min alpha.length xs.length ∧ ∀ r ∈ rs, r = none ∨ ∃ m, r = some m ∧ P m := by
  obtain ⟨out, t, e, hl, ho⟩ := scanEmit_kept (emit := expEmit (max (max 1 (minPeriods.getD 1)) 1))
    (step := R.expStepVal k sw adjust) (ExpOk P) (l := alpha.zip xs)
    (fun p hp s hs => expStepVal hR h hs (ha _ (List.of_mem_zip hp).1) (hx _ (List.of_mem_zip hp).2))
    (s := ⟨k.zero, 0, 0⟩) ⟨h.zero, le_refl _⟩
  refine ⟨out, by unfold Precision.rollingExpVals; simp only [e, Option.map_some], by simpa using hl, fun r hr => ?_⟩
  obtain ⟨s, hs, rfl⟩ := ho r hr
  unfold expEmit
  split_ifs
  · exact .inr ⟨_, rfl, hs.1⟩
  · exact .inl rfl

end exponential

end Kept

section instances

variable {R : Precision K} (h : IsPrecision R)
include h

theorem sound_kept (order : ℕ) :
    Kept (R.kernel1 order) Precision.setWeight1 (fun _ => True) (IsWeight R) (Sound R) where
  zero := ⟨h.weight_zero, le_refl _⟩
  val _ hw ho := by
    obtain ⟨m, e, hm, -⟩ := Precision.pushVal_sound h order _ hw ho
    exact ⟨m, e, hm⟩
  data hd ho := by
    obtain ⟨m, e, hm, -⟩ := Precision.pushDataBody_sound h order hd.weight hd.var ho
    exact ⟨m, e, hm⟩
  scale hd hf ho := by
    obtain ⟨m, e, hm, -⟩ :=
      Precision.pushDataBody_sound h order (h.weight_mul hd.weight.2 hf.2) hd.var ho
    exact ⟨m, e, hm⟩
  mul hd hf := ⟨h.weight_mul hd.weight.2 hf.2, hd.var⟩
  set hd hw _ := ⟨hw, hd.var⟩
  weight hd := hd.weight

theorem constant_kept (order : ℕ) {v : K} (hv : IsNum R v) :
    Kept (R.kernel1 order) Precision.setWeight1 (fun x => x = v) (IsWeight R) (Constant R order v) where
  zero := ⟨h.weight_zero, .inr ⟨rfl, rfl⟩, fun _ _ _ => rfl⟩
  val hx hw ho := by
    subst hx
    obtain ⟨m, e, hm, -⟩ := Precision.pushVal_constant h hv hw ho
    exact ⟨m, e, hm⟩
  data hd ho := by
    obtain ⟨m, e, hm, -⟩ := Precision.pushDataBody_constant h hv hd.weight
      (fun hne => hd.mean.resolve_right fun e => hne e.1) hd.rest ho
    exact ⟨m, e, hm⟩
  scale hd hf ho := by
    obtain ⟨m, e, hm, -⟩ := Precision.pushDataBody_constant h hv (h.weight_mul hd.weight.2 hf.2)
      (fun hne => hd.mean.resolve_right fun e => hne (by rw [e.1, zero_mul, h.lo.zero])) hd.rest ho
    exact ⟨m, e, hm⟩
  mul hd hf := ⟨h.weight_mul hd.weight.2 hf.2,
    hd.mean.imp id fun e => ⟨by
      show R.lo (_ * _) = 0
      rw [e.1, zero_mul, h.lo.zero], e.2⟩,
    fun i hi hi' => by
      show Function.update _ _ _ _ = _
      rw [Function.update_of_ne (by omega)]
      exact hd.rest i hi hi'⟩
  set hd hw h0 := ⟨hw, hd.mean.imp id fun e => ⟨h0 e.1, e.2⟩, fun i hi hi' => by
      show Function.update _ _ _ _ = _
      rw [Function.update_of_ne (by omega)]
      exact hd.rest i hi hi'⟩
  weight hd := hd.weight

theorem soundCov_kept {o0 o1 : ℕ} (h0 : 1 ≤ o0) (h1 : 1 ≤ o1) :
    Kept (R.kernel2 o0 o1) Precision.setWeight2 (fun _ => True) (IsWeight R) (SoundCov R) where
  zero := ⟨h.weight_zero, le_refl _, le_refl _⟩
  val {x w o} _ hw ho := by
    obtain ⟨m, e, hm, -⟩ := Precision.pushDataCovBody_sound h h0 h1 (w := w)
      (data := valToDataCov x.1 x.2 w) hw (by simp [valToDataCov, setAt_apply])
      (by simp [valToDataCov, setAt_apply]) ho
    exact ⟨m, (Precision.pushValCov_eq h _ _ _ _ _ _).trans e, hm⟩
  data hd ho := by
    obtain ⟨m, e, hm, -⟩ := Precision.pushDataCovBody_sound h h0 h1 hd.weight hd.var0 hd.var1 ho
    exact ⟨m, e, hm⟩
  scale hd hf ho := by
    obtain ⟨m, e, hm, -⟩ :=
      Precision.pushDataCovBody_sound h h0 h1 (h.weight_mul hd.weight.2 hf.2) hd.var0 hd.var1 ho
    exact ⟨m, e, hm⟩
  mul hd hf := ⟨by
      simp only [Precision.kernel2, setAt_apply, if_true]
      exact h.weight_mul hd.weight.2 hf.2, hd.var0, hd.var1⟩
  set hd hw _ := ⟨by
      simpa only [Precision.setWeight2, setAt_apply, if_true] using hw, hd.var0, hd.var1⟩
  weight hd := hd.weight

theorem constantCov_kept {o0 o1 : ℕ} (h0 : 1 ≤ o0) (h1 : 1 ≤ o1) {v0 v1 : K} (hv0 : IsNum R v0)
    (hv1 : IsNum R v1) : Kept (R.kernel2 o0 o1) Precision.setWeight2 (fun x => x = (v0, v1)) (IsWeight R)
      (ConstantCov R o0 o1 v0 v1) where
  zero := ⟨h.weight_zero, .inr ⟨rfl, rfl, rfl⟩, fun _ _ _ _ _ => rfl⟩
  val {x w o} hx hw ho := by
    subst hx
    obtain ⟨m, e, hm, -⟩ := Precision.pushDataCovBody_constant h h0 h1 hv0 hv1 (w := w)
      (data := valToDataCov v0 v1 w) hw (fun _ => by simp [valToDataCov, setAt_apply])
      (fun i j hij _ _ => by
        unfold valToDataCov
        simp only [setAt_apply, Prod.mk.injEq]
        rw [if_neg (by omega), if_neg (by omega), if_neg (by omega)]) ho
    exact ⟨m, (Precision.pushValCov_eq h _ _ _ _ _ _).trans e, hm⟩
  data hd ho := by
    obtain ⟨m, e, hm, -⟩ := Precision.pushDataCovBody_constant h h0 h1 hv0 hv1 hd.weight
      (fun hne => hd.mean.resolve_right fun e => hne e.1) hd.rest ho
    exact ⟨m, e, hm⟩
  scale hd hf ho := by
    obtain ⟨m, e, hm, -⟩ := Precision.pushDataCovBody_constant h h0 h1 hv0 hv1
      (h.weight_mul hd.weight.2 hf.2)
      (fun hne => hd.mean.resolve_right fun e => hne (by rw [e.1, zero_mul, h.lo.zero])) hd.rest ho
    exact ⟨m, e, hm⟩
  mul {d f} hd hf := by
    have key : ∀ i j, (i, j) ≠ (0, 0) → (R.kernel2 o0 o1).mulWeight d f i j = d i j := by
      intro i j hij
      show setAt _ _ _ _ _ _ = _
      rw [setAt_apply, if_neg hij]
    have k0 : (R.kernel2 o0 o1).mulWeight d f 0 0 = R.lo (d 0 0 * f) := by
      simp only [Precision.kernel2, setAt_apply, if_true]
    refine ⟨by rw [k0]; exact h.weight_mul hd.weight.2 hf.2, ?_, fun i j hij hi hj => ?_⟩
    · rw [k0, key 1 0 (by simp), key 0 1 (by simp)]
      exact hd.mean.imp id fun e => ⟨by rw [e.1, zero_mul, h.lo.zero], e.2⟩
    · rw [key i j (by simp only [ne_eq, Prod.mk.injEq]; omega)]
      exact hd.rest i j hij hi hj
  set {d w} hd hw hz := by
    have key : ∀ i j, (i, j) ≠ (0, 0) → Precision.setWeight2 d w i j = d i j := by
      intro i j hij
      show setAt _ _ _ _ _ _ = _
      rw [setAt_apply, if_neg hij]
    have k0 : Precision.setWeight2 d w 0 0 = w := by
      simp only [Precision.setWeight2, setAt_apply, if_true]
    refine ⟨by rw [k0]; exact hw, ?_, fun i j hij hi hj => ?_⟩
    · rw [k0, key 1 0 (by simp), key 0 1 (by simp)]
      exact hd.mean.imp id fun e => ⟨hz e.1, e.2⟩
    · rw [key i j (by simp only [ne_eq, Prod.mk.injEq]; omega)]
      exact hd.rest i j hij hi hj
  weight hd := hd.weight

/-- Averages in the interval, and what a value or record of it has to be. -/
theorem within_kept (order : ℕ) {a b : K} (hs : ExactSub R a b) :
    Kept (R.kernel1 order) Precision.setWeight1 (fun x => IsNum R x ∧ a ≤ x ∧ x ≤ b) (IsWeight R)
      (MeanWithin R a b) where
  zero := ⟨h.weight_zero, .inr ⟨rfl, rfl⟩⟩
  val {x w o} hx hw ho := by
    by_cases hne : w = 0
    · exact ⟨o, by show Precision.pushVal _ _ _ _ _ = _; unfold Precision.pushVal; rw [if_pos hne], ho⟩
    obtain ⟨h1, h2, h3, h4, h5, h6, h7, h8⟩ := h.push_numbers ho.weight hw hne
    obtain ⟨m, e, e0, e1, -⟩ := Precision.pushVal_cases order x w o hne h4.ne'
    exact ⟨m, e, e0 ▸ h1, .inl (by
      rw [e1]
      exact Precision.mean_within h hs hx.1 hx.2.1 hx.2.2 hw hne ho.weight ho.mean)⟩
  data {d o} hd ho := by
    by_cases hne : d 0 = 0
    · exact ⟨o, by
        show Precision.pushDataBody _ _ _ _ _ = _
        unfold Precision.pushDataBody
        rw [if_pos hne], ho⟩
    obtain ⟨h1, h2, h3, h4, h5, h6, h7, h8⟩ := h.push_numbers ho.weight hd.weight hne
    obtain ⟨m, e, e0, e1, -⟩ := Precision.pushDataBody_cases order (d 0) d o hne h4.ne'
    have hx := hd.mean.resolve_right fun e => hne e.1
    exact ⟨m, e, e0 ▸ h1, .inl (by
      rw [e1]
      exact Precision.mean_within h hs hx.1 hx.2.1 hx.2.2 hd.weight hne ho.weight ho.mean)⟩
  scale {d f o} hd hf ho := by
    have hw := h.weight_mul hd.weight.2 hf.2
    by_cases hne : R.lo (d 0 * f) = 0
    · exact ⟨o, by
        show Precision.pushDataBody _ _ _ _ _ = _
        unfold Precision.pushDataBody
        rw [if_pos hne], ho⟩
    obtain ⟨h1, h2, h3, h4, h5, h6, h7, h8⟩ := h.push_numbers ho.weight hw hne
    obtain ⟨m, e, e0, e1, -⟩ := Precision.pushDataBody_cases order (R.lo (d 0 * f)) d o hne h4.ne'
    have hx := hd.mean.resolve_right fun e => hne (by rw [e.1, zero_mul, h.lo.zero])
    exact ⟨m, e, e0 ▸ h1, .inl (by
      rw [e1]
      exact Precision.mean_within h hs hx.1 hx.2.1 hx.2.2 hw hne ho.weight ho.mean)⟩
  mul hd hf := ⟨h.weight_mul hd.weight.2 hf.2, hd.mean.imp id fun e => ⟨by
      show R.lo (_ * _) = 0
      rw [e.1, zero_mul, h.lo.zero], e.2⟩⟩
  set hd hw h0 := ⟨hw, hd.mean.imp id fun e => ⟨h0 e.1, e.2⟩⟩
  weight hd := hd.weight

end instances

end Cmomy
