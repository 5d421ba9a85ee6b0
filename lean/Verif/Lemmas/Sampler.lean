import Verif.Spec.Sampler
import Verif.Lemmas.Freq

/-!
# Sampler objects: reads
-/

namespace Cmomy.Sampler

open Freq Random Spec

theorem rows_spec {α β : Type} {f : α → Option β} {l : List α} {m : List β}
    (h : rows f l = some m) : List.Forall₂ (fun a b => f a = some b) l m := by
  induction l generalizing m with
  | nil => simp [rows] at h; subst h; exact .nil
  | cons a as ih =>
    unfold rows at h
    cases ha : f a with
    | none => rw [ha] at h; simp at h
    | some b =>
      cases hb : rows f as with
      | none => rw [ha, hb] at h; simp at h
      | some bs =>
        rw [ha, hb] at h
        simp only [Option.some.injEq] at h
        subst h
        exact .cons ha (ih hb)

theorem indicesToFreq_ok {idx : List (List ℤ)} {nsamp n : ℕ} {f : List (List ℕ)}
    (h : indicesToFreq idx nsamp (some n) = .ok f) :
    List.Forall₂ (fun r c => (∀ x ∈ r, -(n : ℤ) ≤ x ∧ x < n) ∧
      c = counts n (r.map (fun x => (x % (n : ℤ)).toNat))) idx f := by
  unfold indicesToFreq at h
  simp only [Option.getD_some] at h
  split_ifs at h with h1 h2
  cases hr : rows (fun r => indicesToFreqRow r (List.replicate n 0)) idx with
  | none => rw [hr] at h; simp at h
  | some m =>
    rw [hr] at h
    simp only [Except.ok.injEq] at h
    subst h
    have hs := rows_spec hr
    have hlt : ∀ r ∈ idx, ∀ x ∈ r, x < (n : ℤ) := by
      intro r hr x hx
      by_contra hc
      apply h2
      rw [List.any_eq_true]
      exact ⟨x, List.mem_flatten.2 ⟨r, hr, hx⟩, by simpa using hc⟩
    clear hr h1 h2
    induction hs with
    | nil => exact .nil
    | @cons r c rs cs hrc _ ih =>
      refine .cons ?_ (ih (fun r' h' => hlt r' (List.mem_cons_of_mem _ h')))
      have hr : ∀ x ∈ r, -(n : ℤ) ≤ x ∧ x < n := by
        intro x hx
        refine ⟨?_, hlt r List.mem_cons_self x hx⟩
        by_contra hc
        rw [not_le] at hc
        rw [indicesToFreqRow_none (n := n) r _ (by simp)
          (fun i hi => hlt r List.mem_cons_self i hi) ⟨x, hx, hc⟩] at hrc
        simp at hrc
      refine ⟨hr, ?_⟩
      rw [indicesToFreqRow_zero r hr] at hrc
      exact (Option.some.inj hrc).symm

theorem indicesToFreqTab_ok {i : IdxTab} {n : ℕ} {f : FreqTab} (h : indicesToFreqTab i n = .ok f) :
    SameDraw i f ∧ f.rows.length = i.rows.length ∧ (f.ndat = n ∨ f.labelled = true ∧ n = 0) := by
  unfold indicesToFreqTab at h
  simp only at h
  cases hr : indicesToFreq i.rows i.nsamp
      (some (if i.labelled = true ∧ n = 0 then i.nsamp else n)) with
  | error err => rw [hr] at h; simp at h
  | ok rows =>
    rw [hr] at h
    simp only [Except.ok.injEq] at h
    subst h
    have := indicesToFreq_ok hr
    refine ⟨this, this.length_eq.symm, ?_⟩
    simp only
    split_ifs with hc
    · exact Or.inr hc
    · exact Or.inl rfl

theorem freqToIndices_cases (rows : List (List ℕ)) :
    (∃ err, ∀ junk, freqToIndices junk rows = .error err) ∨
    ((∀ f ∈ rows, f.sum = (rows.headD []).sum) ∧
      ∀ junk, freqToIndices junk rows = .ok (rows.map positions)) := by
  cases rows with
  | nil => exact Or.inl ⟨_, fun junk => rfl⟩
  | cons f0 fs =>
    by_cases hany : ((f0 :: fs).map List.sum).any (fun n => decide (n ≠ f0.sum)) = true
    · refine Or.inl ⟨.valueError, fun junk => ?_⟩
      unfold freqToIndices
      simp only [List.map_cons] at hany ⊢
      rw [if_pos hany]
    · right
      have hs : ∀ f ∈ f0 :: fs, f.sum = f0.sum := by
        intro f hf
        by_contra hc
        apply hany
        rw [List.any_eq_true]
        exact ⟨f.sum, List.mem_map_of_mem hf, by simpa using hc⟩
      refine ⟨hs, fun junk => ?_⟩
      unfold freqToIndices
      simp only [List.map_cons] at hany ⊢
      rw [if_neg hany]
      congr 1
      rw [← List.map_cons]
      apply List.ext_getElem
      · simp
      · intro i h1 h2
        simp only [List.getElem_mapIdx, List.getElem_map]
        rw [freqToIndicesRow_eq]
        have hm := hs _ (List.getElem_mem (by simpa using h1))
        simp [hm]

theorem validateRng_indep (rng : RngArg) (w w' : World) :
    (∃ err, (validateRng rng w).1 = .error err ∧ (validateRng rng w').1 = .error err) ∨
    (∃ g g', (validateRng rng w).1 = .ok g ∧ (validateRng rng w').1 = .ok g') := by
  cases rng with
  | none =>
    right
    have : ∀ w : World, ∃ g, (validateRng .none w).1 = .ok g := by
      intro w
      cases hs : w.shared with
      | none => exact ⟨_, by simp [validateRng, defaultRng, missingInternalRng, hs, npDefaultRng,
          setFrom, setInternalRng, getInternalRng]; rfl⟩
      | some g => exact ⟨g, by simp [validateRng, defaultRng, missingInternalRng, hs,
          getInternalRng]⟩
    obtain ⟨g, h⟩ := this w
    obtain ⟨g', h'⟩ := this w'
    exact ⟨g, g', h, h'⟩
  | gen g => right; exact ⟨g, g, rfl, rfl⟩
  | seed z =>
    by_cases hz : z < 0
    · left; exact ⟨.valueError, by simp [validateRng, npDefaultRng, hz],
        by simp [validateRng, npDefaultRng, hz]⟩
    · right; exact ⟨w.gens.length, w'.gens.length, by simp [validateRng, npDefaultRng, hz],
        by simp [validateRng, npDefaultRng, hz]⟩

/-- Whether making the indices fails, and how, does not depend on the environment. -/
theorem freqToIndicesShuffled_error {e : Env} {f : FreqTab} {sh : Bool} {rng : RngArg} {err : PyErr}
    (h : freqToIndicesShuffled e f sh rng = .error err) (e' : Env) :
    freqToIndicesShuffled e' f sh rng = .error err := by
  rcases freqToIndices_cases f.rows with ⟨er, hj⟩ | ⟨-, hj⟩
  · simp only [freqToIndicesShuffled, hj] at h ⊢
    exact h
  · cases sh with
    | false => simp [freqToIndicesShuffled, hj] at h
    | true =>
      rcases validateRng_indep rng e.world e'.world with ⟨er, h1, h2⟩ | ⟨g, g', h1, h2⟩
      · simp only [freqToIndicesShuffled, hj, h1, h2, if_true] at h ⊢
        exact h
      · simp [freqToIndicesShuffled, hj, h1] at h

theorem counts_cast_mod {n : ℕ} {l : List ℕ} (h : ∀ x ∈ l, x < n) :
    (l.map Int.ofNat).map (fun x => (x % (n : ℤ)).toNat) = l := by
  rw [List.map_map]
  conv_rhs => rw [← List.map_id l]
  refine List.map_congr_left fun i hi => ?_
  have hi' := h i hi
  simp only [Function.comp_apply, Int.ofNat_eq_natCast, id]
  rw [Int.emod_eq_of_lt (by omega) (by omega)]
  simp

theorem positions_lt {f : List ℕ} {n : ℕ} (hn : f.length = n) : ∀ x ∈ positions f, x < n := by
  intro i hi
  rw [positions_eq] at hi
  have := (mem_posFrom hi).2
  omega

theorem length_positions (f : List ℕ) : (positions f).length = f.sum := by
  rw [positions_eq, length_posFrom]

theorem getD_perm (r : List ℕ) {o : List ℕ} (h : o.Perm (List.range r.length)) :
    (o.map (fun j => r.getD j 0)).Perm r := by
  refine (h.map _).trans ?_
  have : (List.range r.length).map (fun j => r.getD j 0) = r := by
    apply List.ext_getElem
    · simp
    · intro i h1 h2
      simp [h2]
  rw [this]

theorem freqToIndicesShuffled_ok {e : Env} (he : GoodOrder e) {f : FreqTab} (hf : FreqShape f)
    {sh : Bool} {rng : RngArg} {i : IdxTab} (h : freqToIndicesShuffled e f sh rng = .ok i) :
    SameDraw i f ∧ IdxShape i ∧ i.rows.length = f.rows.length := by
  have key : ∀ (g : List ℕ → List ℕ) (lab : Bool), (∀ c ∈ f.rows, (g c).Perm (positions c)) →
      (∀ c ∈ f.rows, c.sum = (f.rows.headD []).sum) →
      i = ⟨(f.rows.headD []).sum, f.rows.map (fun c => (g c).map Int.ofNat), lab⟩ →
      SameDraw i f ∧ IdxShape i ∧ i.rows.length = f.rows.length := by
    intro g lab hg hs hi
    subst hi
    refine ⟨?_, ?_, by simp⟩
    · unfold SameDraw
      simp only
      rw [List.forall₂_map_left_iff]
      refine List.forall₂_same.2 (fun c hc => ?_)
      have hlt : ∀ x ∈ g c, x < f.ndat := fun x hx =>
        positions_lt (hf c hc) x ((hg c hc).mem_iff.1 hx)
      refine ⟨?_, ?_⟩
      · intro x hx
        obtain ⟨y, hy, rfl⟩ := List.mem_map.1 hx
        have := hlt y hy
        simp only [Int.ofNat_eq_natCast]
        omega
      · rw [counts_cast_mod hlt, counts_perm (hg c hc)]
        have := counts_positions c
        rw [hf c hc] at this
        exact this.symm
    · intro r hr
      obtain ⟨c, hc, rfl⟩ := List.mem_map.1 hr
      rw [List.length_map, (hg c hc).length_eq, length_positions, hs c hc]
  rcases freqToIndices_cases f.rows with ⟨er, hj⟩ | ⟨hs, hj⟩
  · simp [freqToIndicesShuffled, hj] at h
  · cases sh with
    | false =>
      simp only [freqToIndicesShuffled, hj, Bool.false_eq_true, if_false, Except.ok.injEq] at h
      refine key positions f.labelled (fun c _ => List.Perm.refl _) hs ?_
      rw [← h, List.map_map]
      rfl
    | true =>
      cases hv : (validateRng rng e.world).1 with
      | error er => simp [freqToIndicesShuffled, hj, hv] at h
      | ok g =>
        simp only [freqToIndicesShuffled, hj, hv, if_true, Except.ok.injEq] at h
        refine key (fun c => (e.order (f.rows.headD []).sum).map (fun j => (positions c).getD j 0))
          f.labelled (fun c hc => getD_perm _ ?_) hs ?_
        · rw [length_positions, hs c hc]; exact he _
        · rw [← h, List.map_map]
          simp [Function.comp_def, List.map_map]

/-! ## Reads -/

/-- Attribute `a` is settled: any read of it, in any environment, gives `r`. -/
def Settled (a : Attr) (r : Py Val) (s : S) : Prop := ∀ e, (readAttr e a s).1 = r

theorem settled_self (e : Env) (a : Attr) (s : S) : Settled a (readAttr e a s).1 (readAttr e a s).2 := by
  intro e'
  obtain ⟨idx, frq, nd, sh, rng⟩ := s
  cases a with
  | freq =>
    cases frq with
    | some f => rfl
    | none =>
      cases idx with
      | none => rfl
      | some i =>
        cases h : indicesToFreqTab i (nd.getD i.nsamp) with
        | error er => simp [readAttr, getFreq, h]
        | ok f => simp [readAttr, getFreq, h]
  | indices =>
    cases idx with
    | some f => rfl
    | none =>
      cases frq with
      | none => rfl
      | some f =>
        cases h : freqToIndicesShuffled e f sh rng with
        | error er =>
          simp [readAttr, getIndices, h, freqToIndicesShuffled_error h e']
        | ok f => simp [readAttr, getIndices, h]
  | ndat =>
    cases nd <;> cases frq <;> cases idx <;> rfl
  | nrep =>
    cases frq <;> cases idx <;> rfl

theorem getIndices_ndat (e : Env) (idx : Option IdxTab) (frq : Option FreqTab) (n n' : Option ℕ)
    (sh : Bool) (rng : RngArg) :
    (getIndices e ⟨idx, frq, n, sh, rng⟩).1 = (getIndices e ⟨idx, frq, n', sh, rng⟩).1 := by
  cases idx with
  | some i => rfl
  | none =>
    cases frq with
    | none => rfl
    | some f => cases h : freqToIndicesShuffled e f sh rng <;> simp [getIndices, h]

theorem settled_keep {a : Attr} {r : Py Val} {s : S} (h : Settled a r s) (e : Env) (b : Attr) :
    Settled a r (readAttr e b s).2 := by
  intro e'
  have h' := h e'
  obtain ⟨idx, frq, nd, sh, rng⟩ := s
  cases b with
  | freq =>
    cases frq with
    | some f => exact h'
    | none =>
      cases idx with
      | none => exact h'
      | some i =>
        cases hc : indicesToFreqTab i (nd.getD i.nsamp) with
        | error er =>
          cases a <;> cases nd <;> simp only [Option.getD_none, Option.getD_some] at hc <;>
            simpa [readAttr, getFreq, getIndices, getNdat, getNrep, hc] using h'
        | ok f =>
          have hl := (indicesToFreqTab_ok hc).2.1
          cases a <;> cases nd <;> simp only [Option.getD_none, Option.getD_some] at hc <;>
            simpa [readAttr, getFreq, getIndices, getNdat, getNrep, hc, hl] using h'
  | indices =>
    cases idx with
    | some f => exact h'
    | none =>
      cases frq with
      | none => exact h'
      | some f =>
        cases hc : freqToIndicesShuffled e f sh rng with
        | error er => simpa [readAttr, getIndices, hc] using h'
        | ok i =>
          cases a with
          | indices =>
            have := h e
            simpa [readAttr, getIndices, hc] using this
          | freq => simpa [readAttr, getFreq, getIndices, hc] using h'
          | ndat => cases nd <;> simpa [readAttr, getNdat, getIndices, hc] using h'
          | nrep => simpa [readAttr, getNrep, getIndices, hc] using h'
  | ndat =>
    cases a with
    | indices =>
      have hn : (readAttr e .ndat ⟨idx, frq, nd, sh, rng⟩).2 =
          ⟨idx, frq, (readAttr e .ndat ⟨idx, frq, nd, sh, rng⟩).2.ndat, sh, rng⟩ := by
        cases nd <;> cases frq <;> cases idx <;> rfl
      rw [hn, ← h']
      exact congrArg (Except.map Val.indices) (getIndices_ndat e' idx frq nd _ sh rng).symm
    | freq => cases nd <;> cases frq <;> cases idx <;> simpa [readAttr, getFreq, getNdat] using h'
    | ndat => cases nd <;> cases frq <;> cases idx <;> simpa [readAttr, getNdat] using h'
    | nrep => cases nd <;> cases frq <;> cases idx <;> simpa [readAttr, getNrep, getNdat] using h'
  | nrep =>
    cases frq <;> cases idx <;> simpa [readAttr, getNrep] using h'

theorem settled_reads {a : Attr} {r : Py Val} {s : S} (h : Settled a r s) (l : List (Env × Attr)) :
    (∀ r', (a, r') ∈ (reads s l).1 → r' = r) ∧ Settled a r (reads s l).2 := by
  induction l generalizing s with
  | nil => exact ⟨by simp [reads], h⟩
  | cons p l ih =>
    obtain ⟨e, b⟩ := p
    have hk := ih (settled_keep h e b)
    refine ⟨?_, hk.2⟩
    intro r' hr'
    simp only [reads, List.mem_cons, Prod.mk.injEq] at hr'
    rcases hr' with ⟨rfl, rfl⟩ | hr'
    · exact h e
    · exact hk.1 r' hr'

/-- Reads other than of `indices` do not depend on the environment at all. -/
theorem reads_eq {s : S} {l : List (Env × Attr)} {a : Attr} {r : Py Val} (ha : a ≠ .indices)
    (h : (a, r) ∈ (reads s l).1) (e : Env) : r = (readAttr e a s).1 := by
  refine (settled_reads (s := s) ?_ l).1 r h
  intro e'
  cases a with
  | indices => exact absurd rfl ha
  | freq => rfl
  | ndat => rfl
  | nrep => rfl

/-- The tables an object holds are tables, and describe the same draw. -/
def Inv (s : S) : Prop :=
  (∀ i, s.indices = some i → IdxShape i) ∧ (∀ f, s.freq = some f → FreqShape f) ∧
    ∀ i f, s.indices = some i → s.freq = some f → SameDraw i f

theorem SameDraw.shape {i : IdxTab} {f : FreqTab} (h : SameDraw i f) : FreqShape f := by
  intro c hc
  unfold SameDraw at h
  generalize i.rows = rs at h
  generalize f.rows = cs at h hc
  induction h with
  | nil => simp at hc
  | cons hx _ ih =>
    rcases List.mem_cons.1 hc with rfl | hc
    · rw [hx.2]; simp [counts]
    · exact ih hc

theorem inv_read {s : S} (h : Inv s) {e : Env} (he : GoodOrder e) (a : Attr) :
    Inv (readAttr e a s).2 ∧
    (∀ i, s.indices = some i → (readAttr e a s).2.indices = some i) ∧
    (∀ f, s.freq = some f → (readAttr e a s).2.freq = some f) ∧
    (∀ f, (readAttr e a s).1 = .ok (.freq f) → (readAttr e a s).2.freq = some f) ∧
    (∀ i, (readAttr e a s).1 = .ok (.indices i) → (readAttr e a s).2.indices = some i) := by
  obtain ⟨idx, frq, nd, sh, rng⟩ := s
  obtain ⟨hi, hf, hd⟩ := h
  simp only at hi hf hd
  cases a with
  | freq =>
    cases frq with
    | some f =>
      refine ⟨⟨hi, hf, hd⟩, fun i h => h, fun f h => h, ?_, ?_⟩
      · intro f' h'; simpa [readAttr, getFreq, Except.map] using h'
      · intro f' h'; simp [readAttr, getFreq, Except.map] at h'
    | none =>
      cases idx with
      | none =>
        refine ⟨⟨hi, hf, hd⟩, fun i h => h, fun f h => h, ?_, ?_⟩ <;>
          · intro f' h'; simp [readAttr, getFreq, Except.map] at h'
      | some i =>
        cases hc : indicesToFreqTab i (nd.getD i.nsamp) with
        | error er =>
          simp only [readAttr, getFreq, hc, Except.map]
          refine ⟨⟨hi, by simp, by simp⟩, by simp, by simp, by simp, by simp⟩
        | ok f =>
          have hsd := (indicesToFreqTab_ok hc).1
          simp only [readAttr, getFreq, hc, Except.map]
          refine ⟨⟨hi, ?_, ?_⟩, by simp, by simp, by simp, by simp⟩
          · intro f' h'
            simp only [Option.some.injEq] at h'
            subst h'
            exact SameDraw.shape hsd
          · intro i' f' hi' hf'
            simp only [Option.some.injEq] at hi' hf'
            subst hi' hf'
            exact hsd
  | indices =>
    cases idx with
    | some i =>
      refine ⟨⟨hi, hf, hd⟩, fun i h => h, fun f h => h, ?_, ?_⟩
      · intro f' h'; simp [readAttr, getIndices, Except.map] at h'
      · intro f' h'; simpa [readAttr, getIndices, Except.map] using h'
    | none =>
      cases frq with
      | none =>
        refine ⟨⟨hi, hf, hd⟩, fun i h => h, fun f h => h, ?_, ?_⟩ <;>
          · intro f' h'; simp [readAttr, getIndices, Except.map] at h'
      | some f =>
        cases hc : freqToIndicesShuffled e f sh rng with
        | error er =>
          simp only [readAttr, getIndices, hc, Except.map]
          refine ⟨⟨by simp, hf, by simp⟩, by simp, by simp, by simp, by simp⟩
        | ok i =>
          have hsd := freqToIndicesShuffled_ok he (hf f rfl) hc
          simp only [readAttr, getIndices, hc, Except.map]
          refine ⟨⟨?_, hf, ?_⟩, by simp, by simp, by simp, by simp⟩
          · intro i' h'
            simp only [Option.some.injEq] at h'
            subst h'
            exact hsd.2.1
          · intro i' f' hi' hf'
            simp only [Option.some.injEq] at hi' hf'
            subst hi' hf'
            exact hsd.1
  | ndat =>
    cases nd <;> cases frq <;> cases idx <;>
      simp_all [readAttr, getNdat, Except.map, Inv]
  | nrep =>
    cases frq <;> cases idx <;>
      simp_all [readAttr, getNrep, Except.map, Inv]

theorem inv_reads {s : S} (h : Inv s) (l : List (Env × Attr)) (he : ∀ p ∈ l, GoodOrder p.1) :
    Inv (reads s l).2 ∧
    (∀ i, s.indices = some i → (reads s l).2.indices = some i) ∧
    (∀ f, s.freq = some f → (reads s l).2.freq = some f) ∧
    (∀ f, (Attr.freq, .ok (.freq f)) ∈ (reads s l).1 → (reads s l).2.freq = some f) ∧
    (∀ i, (Attr.indices, .ok (.indices i)) ∈ (reads s l).1 → (reads s l).2.indices = some i) := by
  induction l generalizing s with
  | nil => exact ⟨h, fun i h => h, fun f h => h, by simp [reads], by simp [reads]⟩
  | cons p l ih =>
    obtain ⟨e, b⟩ := p
    have hr := inv_read h (he (e, b) List.mem_cons_self) b
    obtain ⟨h1, h2, h3, h4, h5⟩ := ih hr.1 (fun p hp => he p (List.mem_cons_of_mem _ hp))
    refine ⟨h1, fun i hi => h2 i (hr.2.1 i hi), fun f hf => h3 f (hr.2.2.1 f hf), ?_, ?_⟩
    · intro f hf
      simp only [reads, List.mem_cons, Prod.mk.injEq] at hf
      rcases hf with ⟨-, hf⟩ | hf
      · exact h3 f (hr.2.2.2.1 f hf.symm)
      · exact h4 f hf
    · intro f hf
      simp only [reads, List.mem_cons, Prod.mk.injEq] at hf
      rcases hf with ⟨-, hf⟩ | hf
      · exact h2 f (hr.2.2.2.2 f hf.symm)
      · exact h5 f hf

end Cmomy.Sampler
