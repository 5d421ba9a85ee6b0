import Verif.Lemmas.Rolling

/-!
# Exponential averages: the recursive state has the coefficients of the specification
-/

set_option linter.unusedSectionVars false

namespace Cmomy

open Spec

section coefs

variable {K : Type*} [Field K]

theorem decayCoefs_length (l : List K) : (decayCoefs l).length = l.length := by
  induction l with
  | nil => rfl
  | cons a l ih => simp [decayCoefs, ih]

theorem decayCoefs_snoc (l : List K) (a : K) :
    decayCoefs (l ++ [a]) = (decayCoefs l).map (fun c => c * (1 - a)) ++ [1] := by
  induction l with
  | nil => simp [decayCoefs]
  | cons b l ih => simp [decayCoefs, ih]

theorem unadjustedCoefs_snoc (l : List (K × Bool)) (p : K × Bool) :
    (l ++ [p]).foldl unadjustedStep ([], 0) = unadjustedStep (l.foldl unadjustedStep ([], 0)) p := by
  rw [List.foldl_append]; rfl

theorem unadjusted_length (l : List (K × Bool)) :
    (l.foldl unadjustedStep (([] : List K), 0)).1.length = l.length := by
  induction l using List.reverseRecOn with
  | nil => rfl
  | append_singleton l p ih =>
    rw [unadjustedCoefs_snoc, unadjustedStep]
    split <;> simp [ih]

theorem unadjusted_rem_valid (l : List (K × Bool)) (a : K) :
    ((l ++ [(a, true)]).foldl unadjustedStep (([] : List K), 0)).2 = 1 := by
  rw [unadjustedCoefs_snoc, unadjustedStep]; simp

/-- After a valid sample, a further valid sample gives the plain recursion. -/
theorem unadjustedCoefs_recursion (l : List (K × Bool)) (b a : K) :
    unadjustedCoefs (l ++ [(b, true)] ++ [(a, true)]) =
      (unadjustedCoefs (l ++ [(b, true)])).map (fun c => c * (1 - a)) ++ [a] := by
  unfold unadjustedCoefs
  rw [unadjustedCoefs_snoc (l ++ [(b, true)]), unadjustedStep, unadjusted_rem_valid]
  simp

theorem unadjustedCoefs_gap (l : List (K × Bool)) (a : K) :
    unadjustedCoefs (l ++ [(a, false)]) =
      (unadjustedCoefs l).map (fun c => c * (1 - a)) ++ [0] := by
  unfold unadjustedCoefs
  rw [unadjustedCoefs_snoc, unadjustedStep]; simp

theorem unadjusted_sum (l : List (K × Bool))
    (hne : ∀ pre a, (∃ post, l = pre ++ (a, true) :: post) →
      (pre.foldl unadjustedStep (([] : List K), 0)).2 * (1 - a) + a ≠ 0) :
    (l.foldl unadjustedStep (([] : List K), 0)).1.sum =
      (l.foldl unadjustedStep (([] : List K), 0)).2 := by
  induction l using List.reverseRecOn with
  | nil => rfl
  | append_singleton l p ih =>
    have ih' := ih (fun pre a ⟨post, e⟩ => hne pre a ⟨post ++ [p], by simp [e]⟩)
    rw [unadjustedCoefs_snoc, unadjustedStep]
    obtain ⟨a, v⟩ := p
    cases v with
    | false => simp [List.sum_map_mul_right, ih']
    | true =>
      have h0 := hne l a ⟨[], rfl⟩
      simp only [if_true, div_eq_mul_inv, List.sum_map_mul_right, List.sum_append, ih',
        List.map_id', List.sum_cons, List.sum_nil, add_zero]
      exact mul_inv_cancel₀ h0

/-- Without gaps: `Π (1 - alpha_k)` for the first sample, `alpha_j Π (1 - alpha_k)` for the
others. -/
theorem unadjustedCoefs_all_valid (a : K) (ha : a ≠ 0) (as : List K) :
    unadjustedCoefs ((a :: as).map (fun x => (x, true))) =
      List.zipWith (fun c d => c * d) (1 :: as) (decayCoefs (a :: as)) := by
  induction as using List.reverseRecOn with
  | nil => simp [unadjustedCoefs, unadjustedStep, decayCoefs, ha]
  | append_singleton as b ih =>
    have hne : (a :: as).map (fun x => (x, true)) ≠ [] := by simp
    obtain ⟨l, c, hl⟩ : ∃ l c, (a :: as).map (fun x => (x, true)) = l ++ [(c, true)] := by
      refine ⟨((a :: as).map (fun x => (x, true))).dropLast, (a :: as).getLast (by simp), ?_⟩
      rw [← List.dropLast_append_getLast hne]
      congr 1
      · simp
      · rw [List.getLast_map]
    have e : (a :: (as ++ [b])).map (fun x => (x, true)) = l ++ [(c, true)] ++ [(b, true)] := by
      rw [← hl]; simp
    rw [e, unadjustedCoefs_recursion, ← hl, ih]
    rw [show a :: (as ++ [b]) = (a :: as) ++ [b] from rfl,
      show (1 : K) :: (as ++ [b]) = (1 :: as) ++ [b] from rfl, decayCoefs_snoc,
      List.zipWith_append (by simp [decayCoefs_length])]
    simp [List.map_zipWith, List.zipWith_map_right, mul_assoc]

end coefs

namespace Kernel

variable {K V M ι : Type*} [Field K] [LinearOrder K] [IsStrictOrderedRing K] {k : Kernel K V M}

/-- Coefficients and remaining past weight after some samples, as the specification says. -/
def expCoefs (adjust : Bool) (l : List (K × Bool)) : List K :=
  if adjust then decayCoefs (l.map Prod.fst) else unadjustedCoefs l

variable (h : Lawful k ι)

/-- The state describes the samples seen so far. -/
def ExpGood (adjust : Bool) (l : List (K × M)) (s : ExpState K M) : Prop :=
  let v := l.map (fun p => (p.1, decide (k.weight p.2 ≠ 0)))
  h.raw s.dummy = h.rtot ((expCoefs adjust v).zip (l.map Prod.snd)) ∧
    s.count = nz k (l.map Prod.snd) ∧ 0 ≤ k.weight s.dummy ∧ 0 ≤ s.oldWeight ∧
    (adjust = false → s.oldWeight = (v.foldl unadjustedStep ([], 0)).2)

include h

theorem rtot_zip_snoc (cs : List K) (ds : List M) (hl : cs.length = ds.length) (f c : K) (d : M) :
    h.rtot ((cs.map (fun x => x * f) ++ [c]).zip (ds ++ [d])) =
      f • h.rtot (cs.zip ds) + c • h.raw d := by
  rw [List.zip_append (by simpa using hl), h.rtot_append]
  congr 1
  · induction cs generalizing ds with
    | nil => simp [h.rtot_nil]
    | cons c' cs ih =>
      cases ds with
      | nil => simp at hl
      | cons d' ds =>
        simp only [List.map_cons, List.zip_cons_cons, h.rtot_cons]
        rw [ih ds (by simpa using hl), smul_add, smul_smul, mul_comm]
  · simp [h.rtot_cons, h.rtot_nil]

theorem rtot_zip_map_mul (cs : List K) (ds : List M) (f : K) :
    h.rtot ((cs.map (fun x => x * f)).zip ds) = f • h.rtot (cs.zip ds) := by
  induction cs generalizing ds with
  | nil => simp [h.rtot_nil]
  | cons c' cs ih =>
    cases ds with
    | nil => simp [h.rtot_nil]
    | cons d' ds =>
      simp only [List.map_cons, List.zip_cons_cons, h.rtot_cons]
      rw [ih ds, smul_add, smul_smul, mul_comm]

theorem expStep_good (adjust : Bool) {l : List (K × M)} {p : K × M} (hp : 0 ≤ k.weight p.2)
    (ha1 : p.1 ≤ 1) (hpos : adjust = false → 0 < p.1) {s : ExpState K M}
    (g : ExpGood h adjust l s) :
    ∃ s', k.expStep adjust s p = some s' ∧ ExpGood h adjust (l ++ [p]) s' := by
  obtain ⟨graw, gcount, gw, gow, gcoef⟩ := g
  have hdec : 0 ≤ 1 - p.1 := sub_nonneg.2 ha1
  set v := l.map (fun p => (p.1, decide (k.weight p.2 ≠ 0))) with hv
  have hvl : v.length = l.length := by simp [hv]
  have hv' : (l ++ [p]).map (fun p => (p.1, decide (k.weight p.2 ≠ 0))) =
      v ++ [(p.1, decide (k.weight p.2 ≠ 0))] := by simp [hv]
  have hcl : (expCoefs adjust v).length = (l.map Prod.snd).length := by
    unfold expCoefs unadjustedCoefs
    cases adjust <;> simp [decayCoefs_length, unadjusted_length, hvl]
  have hmap : (l ++ [p]).map Prod.snd = l.map Prod.snd ++ [p.2] := by simp
  have hwm : k.weight (k.mulWeight s.dummy (1 - p.1)) = k.weight s.dummy * (1 - p.1) :=
    h.weight_mul _ _
  have hwm0 : 0 ≤ k.weight (k.mulWeight s.dummy (1 - p.1)) := by
    rw [hwm]; exact mul_nonneg gw hdec
  have hrm : h.raw (k.mulWeight s.dummy (1 - p.1)) =
      (1 - p.1) • h.rtot ((expCoefs adjust v).zip (l.map Prod.snd)) := by
    rw [h.raw_mul, graw]
  by_cases hw : k.weight p.2 = 0
  · -- a gap
    refine ⟨⟨k.mulWeight s.dummy (1 - p.1), s.count, s.oldWeight * (1 - p.1)⟩, ?_, ?_, ?_, hwm0,
      mul_nonneg gow hdec, ?_⟩
    · simp [expStep, hw]
    · simp only [hv', hmap]
      rw [hrm]
      have hraw0 : h.raw p.2 = 0 := h.raw_of_weight_zero hw
      cases adjust with
      | true =>
        simp only [expCoefs, if_true, List.map_append, List.map_cons, List.map_nil]
        simp only [expCoefs, if_true] at hcl
        rw [decayCoefs_snoc, rtot_zip_snoc h _ _ hcl, hraw0, smul_zero, add_zero]
      | false =>
        simp only [expCoefs, unadjustedCoefs, unadjustedCoefs_snoc, unadjustedStep, hw]
        simp only [expCoefs, unadjustedCoefs] at hcl
        simp only [ne_eq, not_true_eq_false, decide_false, Bool.false_eq_true, if_false] at hcl ⊢
        rw [rtot_zip_snoc h _ _ hcl, hraw0, smul_zero, add_zero]
    · simp only [hmap, nz_append, nz_cons, nz_nil, hw, gcount]; simp
    · intro hadj
      simp only [hv', unadjustedCoefs_snoc, unadjustedStep, hw, gcoef hadj]
      simp
  · have hwpos : 0 < k.weight p.2 := lt_of_le_of_ne hp (Ne.symm hw)
    cases adjust with
    | true =>
      obtain ⟨m, em⟩ := h.pushScale_exists (d := p.2) (s := 1)
        (o := k.mulWeight s.dummy (1 - p.1))
        (Or.inr (by rw [mul_one]; exact (add_pos_of_nonneg_of_pos hwm0 hwpos).ne'))
      have hmw := h.pushScale_weight em
      refine ⟨⟨m, s.count + 1, s.oldWeight * (1 - p.1)⟩, ?_, ?_, ?_, ?_, mul_nonneg gow hdec,
        by simp⟩
      · simp [expStep, hw, em]
      · simp only [hv', hmap, expCoefs, if_true, List.map_append, List.map_cons, List.map_nil]
        simp only [expCoefs, if_true] at hcl hrm
        rw [decayCoefs_snoc, rtot_zip_snoc h _ _ hcl, h.pushScale_raw em, hrm]
      · simp only [hmap, nz_append, nz_cons, nz_nil, gcount]; simp [hw]
      · simp only [hmw, mul_one]; exact (add_pos_of_nonneg_of_pos hwm0 hwpos).le
    | false =>
      have ha := hpos rfl
      have hsw : 0 < k.weight p.2 * p.1 := mul_pos hwpos ha
      obtain ⟨m, em⟩ := h.pushScale_exists (d := p.2) (s := p.1)
        (o := k.mulWeight s.dummy (1 - p.1))
        (Or.inr (add_pos_of_nonneg_of_pos hwm0 hsw).ne')
      have hmw := h.pushScale_weight em
      have how : 0 < s.oldWeight * (1 - p.1) + p.1 :=
        add_pos_of_nonneg_of_pos (mul_nonneg gow hdec) ha
      have hco := gcoef rfl
      refine ⟨⟨k.mulWeight m (s.oldWeight * (1 - p.1) + p.1)⁻¹, s.count + 1, 1⟩, ?_, ?_, ?_, ?_,
        zero_le_one, ?_⟩
      · simp [expStep, hw, em, expRenorm, how.ne']
      · simp only [hv', hmap]
        simp only [expCoefs, unadjustedCoefs, Bool.false_eq_true, if_false] at hcl hrm ⊢
        rw [unadjustedCoefs_snoc]
        simp only [unadjustedStep, ne_eq, hw, not_false_eq_true, decide_true, if_true]
        rw [h.raw_mul, h.pushScale_raw em, hrm, ← hco]
        simp only [div_eq_mul_inv]
        rw [rtot_zip_map_mul h, rtot_zip_snoc h _ _ hcl]
      · simp only [hmap, nz_append, nz_cons, nz_nil, gcount]; simp [hw]
      · simp only [h.weight_mul m, hmw]
        exact mul_nonneg (add_pos_of_nonneg_of_pos hwm0 hsw).le (inv_nonneg.2 how.le)
      · intro _
        simp only [hv', unadjustedCoefs_snoc, unadjustedStep]
        simp [hw]

theorem rollingExpData_spec (adjust : Bool) (minPeriods : Option ℤ) (alpha : List K)
    (data : List M) (hlen : alpha.length = data.length) (hd : ∀ d ∈ data, 0 ≤ k.weight d)
    (ha : ∀ a ∈ alpha, a ≤ 1 ∧ (adjust = false → 0 < a)) :
    ∃ rows, k.rollingExpData adjust minPeriods alpha data = some rows ∧
      rows.length = data.length ∧
      ∀ i, i < data.length → ∃ s, ExpGood h adjust ((alpha.zip data).take (i + 1)) s ∧
        rows[i]? = some (expEmit (max (minPeriods.getD 1) 1) s) := by
  have hlz : (alpha.zip data).length = data.length := by simp [hlen]
  obtain ⟨p, ep, hl, -, hrows⟩ := scanEmit_spec (step := k.expStep adjust)
    (emit := expEmit (max (max 1 (minPeriods.getD 1)) 1))
    (alpha.zip data) (fun i s => ExpGood h adjust ((alpha.zip data).take i) s) ⟨k.zero, 0, 0⟩
    ⟨by simp [h.raw_zero, Lawful.rtot], by simp [nz_nil], by simp [h.weight_zero], le_rfl,
      fun _ => by simp⟩ (by
      intro i hi s hs
      have hmem := List.of_mem_zip (a := (alpha.zip data)[i].1) (b := (alpha.zip data)[i].2)
        (List.getElem_mem hi)
      obtain ⟨a1, a2⟩ := ha _ hmem.1
      have := expStep_good h adjust (hd _ hmem.2) a1 a2 hs
      rw [← List.take_succ_eq_append_getElem hi] at this
      exact this)
  refine ⟨p.1, ?_, by rw [hl, hlz], fun i hi => ?_⟩
  · unfold rollingExpData; simp only [ep, Option.map_some]
  · obtain ⟨s, gs, es⟩ := hrows i (by omega)
    refine ⟨s, gs, ?_⟩
    rw [es]
    congr 2
    omega

/-- `(alpha, valid)` for the samples up to and including `i`. -/
def flags (k : Kernel K V M) (alpha : List K) (data : List M) (i : ℕ) : List (K × Bool) :=
  (alpha.zip (data.map (fun d => decide (k.weight d ≠ 0)))).take (i + 1)

omit h in
theorem flags_eq (alpha : List K) (data : List M) (i : ℕ) :
    flags k alpha data i =
      ((alpha.zip data).take (i + 1)).map (fun p => (p.1, decide (k.weight p.2 ≠ 0))) := by
  unfold flags
  rw [List.zip_map_right, List.map_take]; rfl

omit h in
theorem flags_fst (alpha : List K) (data : List M) (hlen : alpha.length = data.length) (i : ℕ) :
    (flags k alpha data i).map Prod.fst = alpha.take (i + 1) := by
  unfold flags
  rw [List.map_take, List.map_fst_zip (by simp [hlen])]

omit h in
theorem flags_succ (alpha : List K) (data : List M) (i : ℕ) (ha : i + 1 < alpha.length)
    (hd : i + 1 < data.length) :
    flags k alpha data (i + 1) =
      flags k alpha data i ++ [(alpha[i + 1], decide (k.weight data[i + 1] ≠ 0))] := by
  unfold flags
  rw [List.take_succ_eq_append_getElem (by simp; omega)]
  simp

theorem rollingExpData_rows (adjust : Bool) (minPeriods : Option ℤ) (alpha : List K)
    (data : List M) (hlen : alpha.length = data.length) (hd : ∀ d ∈ data, 0 ≤ k.weight d)
    (ha : ∀ a ∈ alpha, a ≤ 1 ∧ (adjust = false → 0 < a)) :
    ∃ rows, k.rollingExpData adjust minPeriods alpha data = some rows ∧
      RowsSpec data.length
        (fun i => max (minPeriods.getD 1) 1 ≤ (nz k (data.take (i + 1)) : ℤ))
        (fun i r => h.raw r =
          h.rtot ((expCoefs adjust (flags k alpha data i)).zip (data.take (i + 1)))) rows := by
  obtain ⟨rows, e, hl, hrows⟩ := rollingExpData_spec h adjust minPeriods alpha data hlen hd ha
  refine ⟨rows, e, hl, fun i hi => ?_⟩
  obtain ⟨s, ⟨g1, g2, -⟩, es⟩ := hrows i hi
  have hmap : ((alpha.zip data).take (i + 1)).map Prod.snd = data.take (i + 1) := by
    rw [List.map_take, List.map_snd_zip (by omega)]
  rw [hmap] at g2 g1
  rw [← flags_eq] at g1
  by_cases hc : max (minPeriods.getD 1) 1 ≤ (nz k (data.take (i + 1)) : ℤ)
  · exact Or.inl ⟨hc, s.dummy, by rw [es, expEmit, if_pos (by rw [g2]; exact hc)], g1⟩
  · exact Or.inr ⟨hc, by rw [es, expEmit, if_neg (by rw [g2]; exact hc)]⟩

/-- The unadjusted recursion between consecutive valid samples. -/
theorem unadjusted_raw_step (alpha : List K) (data : List M) (i : ℕ)
    (hlen : alpha.length = data.length) (hd : i + 1 < data.length)
    (hv : k.weight data[i] ≠ 0) (hv' : k.weight data[i + 1] ≠ 0) :
    h.rtot ((expCoefs false (flags k alpha data (i + 1))).zip (data.take (i + 1 + 1))) =
      (1 - alpha[i + 1]) • h.rtot ((expCoefs false (flags k alpha data i)).zip (data.take (i + 1)))
        + alpha[i + 1] • h.raw data[i + 1] := by
  have hlast : ∃ l b, flags k alpha data i = l ++ [(b, true)] := by
    unfold flags
    rw [List.take_succ_eq_append_getElem (by simp; omega)]
    refine ⟨(alpha.zip (data.map (fun d => decide (k.weight d ≠ 0)))).take i, alpha[i], ?_⟩
    simp [hv]
  obtain ⟨l, b, hl⟩ := hlast
  rw [flags_succ alpha data i (by omega) hd, hl]
  simp only [expCoefs, Bool.false_eq_true, if_false, hv', ne_eq, not_false_eq_true, decide_true]
  rw [unadjustedCoefs_recursion, ← hl, List.take_succ_eq_append_getElem hd, rtot_zip_snoc h]
  unfold unadjustedCoefs
  rw [unadjusted_length]
  simp [flags, hlen]

theorem rollingExpVals_eq (adjust : Bool) (minPeriods : Option ℤ) (alpha : List K)
    (xs : List (V × K)) :
    k.rollingExpVals adjust minPeriods alpha xs =
      k.rollingExpData adjust minPeriods alpha (xs.map (fun p => k.ofVal p.1 p.2)) := by
  have e1 : ∀ s (p : K × V × K),
      k.expStep adjust s (p.1, k.ofVal p.2.1 p.2.2) = k.expStepVal adjust s p := by
    intro s p
    unfold expStep expStepVal
    simp only [h.weight_ofVal]
    have hpush : ∀ o, k.pushScale (k.ofVal p.2.1 p.2.2) (if adjust = true then 1 else p.1) o =
        k.pushVal p.2.1 (if adjust = true then p.2.2 else p.2.2 * p.1) o := by
      intro o
      rw [← h.val_eq]
      congr 1
      cases adjust <;> simp
    simp only [hpush]
  unfold rollingExpVals rollingExpData
  have hz : alpha.zip (xs.map (fun p => k.ofVal p.1 p.2)) =
      (alpha.zip xs).map (fun p => (p.1, k.ofVal p.2.1 p.2.2)) := by
    rw [List.zip_map_right]; rfl
  simp only
  rw [hz, scanEmit_map _ _ _ _ e1]

end Kernel

section bias

variable {K : Type*} [Field K] [LinearOrder K] [IsStrictOrderedRing K]

/-- `Σ c^n w`. -/
def coefSum (n : ℕ) (cs ws : List K) : K := (List.zipWith (fun c w => c ^ n * w) cs ws).sum

omit [LinearOrder K] [IsStrictOrderedRing K] in
theorem coefSum_snoc (n : ℕ) (cs ws : List K) (hl : cs.length = ws.length) (f c w : K) :
    coefSum n (cs.map (fun x => x * f) ++ [c]) (ws ++ [w]) =
      coefSum n cs ws * f ^ n + c ^ n * w := by
  unfold coefSum
  rw [List.zipWith_append (by simpa using hl), List.sum_append]
  congr 1
  · induction cs generalizing ws with
    | nil => simp
    | cons c' cs ih =>
      cases ws with
      | nil => simp at hl
      | cons d' ds =>
        simp only [List.map_cons, List.zipWith_cons_cons, List.sum_cons]
        rw [ih ds (by simpa using hl), mul_pow]
        ring
  · simp

omit [LinearOrder K] [IsStrictOrderedRing K] in
theorem coefSum_mul (n : ℕ) (cs ws : List K) (f : K) :
    coefSum n (cs.map (fun x => x * f)) ws = coefSum n cs ws * f ^ n := by
  unfold coefSum
  induction cs generalizing ws with
  | nil => simp
  | cons c' cs ih =>
    cases ws with
    | nil => simp
    | cons d' ds =>
      simp only [List.map_cons, List.zipWith_cons_cons, List.sum_cons]
      rw [ih ds, mul_pow]
      ring

/-- The state describes the weights seen so far. -/
def BiasGood (adjust : Bool) (l : List (K × K)) (s : BiasState K) : Prop :=
  let v := l.map (fun p => (p.1, decide (p.2 ≠ 0)))
  s.sumWeight = coefSum 1 (Kernel.expCoefs adjust v) (l.map Prod.snd) ∧
    s.sumWeight2 = coefSum 2 (Kernel.expCoefs adjust v) (l.map Prod.snd) ∧
    (adjust = false → 0 ≤ s.oldWeight ∧ s.oldWeight = (v.foldl unadjustedStep ([], 0)).2)

theorem biasStep_good (adjust : Bool) {l : List (K × K)} {p : K × K}
    (ha : adjust = false → 0 < p.1 ∧ p.1 ≤ 1) {s : BiasState K} (g : BiasGood adjust l s) :
    ∃ s', biasStep adjust s p = some s' ∧ BiasGood adjust (l ++ [p]) s' := by
  obtain ⟨g1, g2, gow⟩ := g
  set v := l.map (fun p => (p.1, decide (p.2 ≠ 0))) with hv
  have hvl : v.length = l.length := by simp [hv]
  have hv' : (l ++ [p]).map (fun p => (p.1, decide (p.2 ≠ 0))) =
      v ++ [(p.1, decide (p.2 ≠ 0))] := by simp [hv]
  have hcl : (Kernel.expCoefs adjust v).length = (l.map Prod.snd).length := by
    unfold Kernel.expCoefs unadjustedCoefs
    cases adjust <;> simp [decayCoefs_length, unadjusted_length, hvl]
  have hmap : (l ++ [p]).map Prod.snd = l.map Prod.snd ++ [p.2] := by simp
  by_cases hw : p.2 = 0
  · refine ⟨⟨s.sumWeight * (1 - p.1), s.sumWeight2 * ((1 - p.1) * (1 - p.1)),
      s.oldWeight * (1 - p.1)⟩, by simp [biasStep, hw], ?_, ?_, ?_⟩
    · simp only [hv', hmap, g1]
      cases adjust with
      | true =>
        simp only [Kernel.expCoefs, if_true, List.map_append, List.map_cons, List.map_nil] at hcl ⊢
        rw [decayCoefs_snoc, coefSum_snoc _ _ _ hcl, hw]; ring
      | false =>
        simp only [Kernel.expCoefs, unadjustedCoefs, unadjustedCoefs_snoc, unadjustedStep, hw,
          ne_eq, not_true_eq_false, decide_false, Bool.false_eq_true, if_false] at hcl ⊢
        rw [coefSum_snoc _ _ _ hcl]; ring
    · simp only [hv', hmap, g2]
      cases adjust with
      | true =>
        simp only [Kernel.expCoefs, if_true, List.map_append, List.map_cons, List.map_nil] at hcl ⊢
        rw [decayCoefs_snoc, coefSum_snoc _ _ _ hcl, hw]; ring
      | false =>
        simp only [Kernel.expCoefs, unadjustedCoefs, unadjustedCoefs_snoc, unadjustedStep, hw,
          ne_eq, not_true_eq_false, decide_false, Bool.false_eq_true, if_false] at hcl ⊢
        rw [coefSum_snoc _ _ _ hcl]; ring
    · intro hadj
      obtain ⟨o1, o2⟩ := gow hadj
      refine ⟨mul_nonneg o1 (sub_nonneg.2 (ha hadj).2), ?_⟩
      simp only [hv', unadjustedCoefs_snoc, unadjustedStep, hw, o2]
      simp
  · cases adjust with
    | true =>
      refine ⟨⟨s.sumWeight * (1 - p.1) + p.2 * 1, s.sumWeight2 * ((1 - p.1) * (1 - p.1)) + p.2 * 1,
        s.oldWeight * (1 - p.1)⟩, by simp [biasStep, hw], ?_, ?_, by simp⟩
      · simp only [Kernel.expCoefs, if_true] at hcl g1
        simp only [hv', hmap, g1, Kernel.expCoefs, if_true, List.map_append, List.map_cons,
          List.map_nil]
        rw [decayCoefs_snoc, coefSum_snoc _ _ _ hcl]; ring
      · simp only [Kernel.expCoefs, if_true] at hcl g2
        simp only [hv', hmap, g2, Kernel.expCoefs, if_true, List.map_append, List.map_cons,
          List.map_nil]
        rw [decayCoefs_snoc, coefSum_snoc _ _ _ hcl]; ring
    | false =>
      obtain ⟨o1, o2⟩ := gow rfl
      obtain ⟨ha0, ha1⟩ := ha rfl
      have how : 0 < s.oldWeight * (1 - p.1) + p.1 :=
        add_pos_of_nonneg_of_pos (mul_nonneg o1 (sub_nonneg.2 ha1)) ha0
      refine ⟨⟨(s.sumWeight * (1 - p.1) + p.2 * p.1) / (s.oldWeight * (1 - p.1) + p.1),
        (s.sumWeight2 * ((1 - p.1) * (1 - p.1)) + p.2 * p.1 ^ 2) /
          (s.oldWeight * (1 - p.1) + p.1) ^ 2, 1⟩, by simp [biasStep, hw, how.ne'], ?_, ?_, ?_⟩
      · simp only [Kernel.expCoefs, unadjustedCoefs, Bool.false_eq_true, if_false] at hcl g1
        simp only [hv', hmap, g1, Kernel.expCoefs, unadjustedCoefs, unadjustedCoefs_snoc,
          unadjustedStep, ne_eq, hw, not_false_eq_true, decide_true, if_true, Bool.false_eq_true,
          if_false]
        rw [← o2]
        simp only [div_eq_mul_inv]
        rw [coefSum_mul, coefSum_snoc _ _ _ hcl]; ring
      · simp only [Kernel.expCoefs, unadjustedCoefs, Bool.false_eq_true, if_false] at hcl g2
        simp only [hv', hmap, g2, Kernel.expCoefs, unadjustedCoefs, unadjustedCoefs_snoc,
          unadjustedStep, ne_eq, hw, not_false_eq_true, decide_true, if_true, Bool.false_eq_true,
          if_false]
        rw [← o2]
        simp only [div_eq_mul_inv]
        rw [coefSum_mul, coefSum_snoc _ _ _ hcl, inv_pow]; ring
      · intro _
        refine ⟨zero_le_one, ?_⟩
        simp only [hv', unadjustedCoefs_snoc, unadjustedStep]
        simp [hw]

theorem biasCorrection_spec (adjust : Bool) (alpha weight : List K)
    (hlen : alpha.length = weight.length) (ha : adjust = false → ∀ a ∈ alpha, 0 < a ∧ a ≤ 1) :
    ∃ rows, biasCorrection adjust alpha weight = some rows ∧ rows.length = weight.length ∧
      ∀ i, i < weight.length → ∃ s, BiasGood adjust ((alpha.zip weight).take (i + 1)) s ∧
        rows[i]? = some (biasEmit s) := by
  have hlz : (alpha.zip weight).length = weight.length := by simp [hlen]
  obtain ⟨p, ep, hl, -, hrows⟩ := scanEmit_spec (step := biasStep adjust)
    (emit := biasEmit) (alpha.zip weight)
    (fun i s => BiasGood adjust ((alpha.zip weight).take i) s) ⟨0, 0, 0⟩
    ⟨by simp [coefSum], by simp [coefSum], fun _ => by simp⟩ (by
      intro i hi s hs
      have hmem := List.of_mem_zip (a := (alpha.zip weight)[i].1) (b := (alpha.zip weight)[i].2)
        (List.getElem_mem hi)
      have := biasStep_good adjust (p := (alpha.zip weight)[i]) (fun h => ha h _ hmem.1) hs
      rw [← List.take_succ_eq_append_getElem hi] at this
      exact this)
  refine ⟨p.1, ?_, by rw [hl, hlz], fun i hi => ?_⟩
  · unfold biasCorrection; simp only [ep, Option.map_some]
  · obtain ⟨s, gs, es⟩ := hrows i (by omega)
    exact ⟨s, gs, es⟩

end bias

end Cmomy
