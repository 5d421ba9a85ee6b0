import Verif.Lemmas.Sampler
import Mathlib.Data.List.Nodup

/-!
# C46: the sampler object
-/

namespace Cmomy

open Spec Sampler Freq Random

/-- An environment for the examples: nothing drawn yet, memory full of sevens, columns reversed,
every drawn table counts 0, 1, 2, ... -/
private def exE : Env := ⟨⟨[], none⟩, fun _ _ => 7, fun n => (List.range n).reverse,
  fun ndat nrep nsamp _ => (List.range nrep).map (fun r =>
    (List.range nsamp).map (fun c => (r * nsamp + c) % ndat))⟩

private theorem ex_order : GoodOrder exE := fun _ => List.reverse_perm _

private theorem ex_choice : GoodChoice exE := by
  intro ndat nrep nsamp replace
  refine ⟨by simp [exE], ?_, ?_⟩
  · intro r hr
    simp only [exE, List.mem_map, List.mem_range] at hr
    obtain ⟨q, -, rfl⟩ := hr
    refine ⟨by simp, ?_⟩
    intro hn x hx
    simp only [List.mem_map, List.mem_range] at hx
    obtain ⟨c, -, rfl⟩ := hx
    exact Nat.mod_lt _ hn
  · intro _ hle
    rw [List.nodup_flatten]
    simp only [exE]
    constructor
    · intro l hl
      simp only [List.mem_map, List.mem_range] at hl
      obtain ⟨q, hq, rfl⟩ := hl
      refine List.Nodup.map_on ?_ List.nodup_range
      intro x hx y hy h
      rw [List.mem_range] at hx hy
      have : (q + 1) * nsamp ≤ nrep * nsamp := Nat.mul_le_mul_right _ hq
      rw [Nat.add_mul, Nat.one_mul] at this
      rw [Nat.mod_eq_of_lt (by omega), Nat.mod_eq_of_lt (by omega)] at h
      omega
    · rw [List.pairwise_map]
      refine List.Pairwise.imp_of_mem ?_ List.pairwise_lt_range
      intro a b ha hb hab
      rw [List.mem_range] at ha hb
      intro x hx hy
      simp only [List.mem_map, List.mem_range] at hx hy
      obtain ⟨c, hc, rfl⟩ := hx
      obtain ⟨d, hd, h⟩ := hy
      have h1 : (b + 1) * nsamp ≤ nrep * nsamp := Nat.mul_le_mul_right _ hb
      have h2 : (a + 1) * nsamp ≤ b * nsamp := Nat.mul_le_mul_right _ hab
      rw [Nat.add_mul, Nat.one_mul] at h1 h2
      rw [Nat.mod_eq_of_lt (by omega), Nat.mod_eq_of_lt (by omega)] at h
      omega

private def exFreq : FreqTab := ⟨3, [[2, 0, 1], [0, 3, 0]], false⟩
private def exIdx : IdxTab := ⟨2, [[0, 2], [1, -1]], false⟩

/-- **C46.** Reading is repeatable: whatever is read in between, in whatever order and whatever
happens elsewhere, two reads of the same attribute give the same answer (or fail alike). For every
object, however it was made. -/
theorem C46_stable (s : S) (h : List (Env × Attr)) (a : Attr) (r r' : Py Val)
    (h1 : (a, r) ∈ (reads s h).1) (h2 : (a, r') ∈ (reads s h).1) : r = r' := by
  induction h generalizing s with
  | nil => simp [reads] at h1
  | cons p l ih =>
    obtain ⟨e, b⟩ := p
    simp only [reads, List.mem_cons, Prod.mk.injEq] at h1 h2
    rcases h1 with ⟨rfl, rfl⟩ | h1
    · rcases h2 with ⟨-, rfl⟩ | h2
      · rfl
      · exact ((settled_reads (settled_self e a s) l).1 r' h2).symm
    · rcases h2 with ⟨rfl, rfl⟩ | h2
      · exact (settled_reads (settled_self e a s) l).1 r h1
      · exact ih _ h1 h2

example : (reads ⟨none, some exFreq, none, true, .none⟩
    [(exE, .nrep), (exE, .indices), (exE, .freq), (exE, .indices)]).1 =
    [(.nrep, .ok (.num 2)), (.indices, .ok (.indices ⟨3, [[2, 0, 0], [1, 1, 1]], false⟩)),
     (.freq, .ok (.freq exFreq)),
     (.indices, .ok (.indices ⟨3, [[2, 0, 0], [1, 1, 1]], false⟩))] := by decide +kernel

/-- **C46.** An object made from one table: whenever both tables have been read, in any order and
any number of times, they describe the same draw. -/
theorem C46_same_draw (indices : Option IdxTab) (freq : Option FreqTab) (ndat : Option ℕ)
    (shuffle : Bool) (rng : RngArg) (fastpath : Bool) (ht : OneTable indices freq) (s : S)
    (hs : Sampler.new indices freq ndat shuffle rng fastpath = .ok s) (h : List (Env × Attr))
    (he : ∀ p ∈ h, GoodOrder p.1) (i : IdxTab) (f : FreqTab)
    (h1 : (Attr.indices, .ok (.indices i)) ∈ (reads s h).1)
    (h2 : (Attr.freq, .ok (.freq f)) ∈ (reads s h).1) :
    SameDraw i f ∧ IdxShape i ∧ FreqShape f := by
  have hse : s = ⟨indices, freq, ndat, shuffle, rng⟩ := by
    unfold Sampler.new at hs
    split_ifs at hs
    · simpa using hs.symm
    · cases hc : check ⟨indices, freq, ndat, shuffle, rng⟩ with
      | error er => simp [hc] at hs
      | ok u => simp [hc] at hs; exact hs.symm
  have hinv : Inv s := by
    subst hse
    refine ⟨ht.2.1, ht.2.2, ?_⟩
    intro i f hi hf
    simp only at hi hf
    rcases ht.1 with h | h
    · rw [h] at hi; simp at hi
    · rw [h] at hf; simp at hf
  obtain ⟨⟨g1, g2, g3⟩, -, -, g4, g5⟩ := inv_reads hinv h he
  exact ⟨g3 i f (g5 i h1) (g4 f h2), g1 i (g5 i h1), g2 f (g4 f h2)⟩

example : OneTable none (some exFreq) := by
  refine ⟨Or.inl rfl, by simp, ?_⟩
  intro f hf r hr
  simp only [Option.some.injEq] at hf
  subst hf
  simp [exFreq] at hr
  rcases hr with rfl | rfl <;> rfl

example : Sampler.new none (some exFreq) (some 3) true .none false =
    .ok ⟨none, some exFreq, some 3, true, .none⟩ := by decide +kernel

/-- **C46.** `nrep` is the number of rows and `ndat` the number of columns of the frequency table,
whichever was read first.
The one exception is `ndat = 0` for labelled indices. -/
theorem C46_shape (indices : Option IdxTab) (freq : Option FreqTab) (ndat : Option ℕ)
    (shuffle : Bool) (rng : RngArg) (s : S)
    (hs : Sampler.new indices freq ndat shuffle rng false = .ok s) (h : List (Env × Attr))
    (f : FreqTab) (h2 : (Attr.freq, .ok (.freq f)) ∈ (reads s h).1) (n : ℕ) :
    ((Attr.nrep, .ok (.num n)) ∈ (reads s h).1 → n = f.rows.length) ∧
    ((Attr.ndat, .ok (.num n)) ∈ (reads s h).1 → n = f.ndat ∨ (n = 0 ∧ f.labelled = true)) := by
  have hse : s = ⟨indices, freq, ndat, shuffle, rng⟩ ∧
      check ⟨indices, freq, ndat, shuffle, rng⟩ = .ok () := by
    unfold Sampler.new at hs
    cases hc : check ⟨indices, freq, ndat, shuffle, rng⟩ with
    | error er => simp [hc] at hs
    | ok u => simp [hc] at hs; exact ⟨hs.symm, rfl⟩
  obtain ⟨rfl, hc⟩ := hse
  have e1 := reads_eq (by decide) h2 exE
  have e2 := fun hn : (Attr.nrep, (.ok (.num n) : Py Val)) ∈
    (reads ⟨indices, freq, ndat, shuffle, rng⟩ h).1 => reads_eq (by decide) hn exE
  have e3 := fun hn : (Attr.ndat, (.ok (.num n) : Py Val)) ∈
    (reads ⟨indices, freq, ndat, shuffle, rng⟩ h).1 => reads_eq (by decide) hn exE
  cases freq with
  | some f' =>
    have hf : f = f' := by simpa [readAttr, getFreq, Except.map] using e1
    subst hf
    refine ⟨fun hn => ?_, fun hn => ?_⟩
    · simpa [readAttr, getNrep, Except.map] using e2 hn
    · left
      have := e3 hn
      cases ndat with
      | none => simpa [readAttr, getNdat, Except.map] using this
      | some m =>
        have hm : f.ndat = m := by
          by_contra hne
          simp [check, hne] at hc
        rw [hm]
        simpa [readAttr, getNdat, Except.map] using this
  | none =>
    cases indices with
    | none => simp [check] at hc
    | some i =>
      cases ht : indicesToFreqTab i (ndat.getD i.nsamp) with
      | error er => simp [readAttr, getFreq, Except.map, ht] at e1
      | ok f' =>
        have hf : f = f' := by simpa [readAttr, getFreq, Except.map, ht] using e1
        subst hf
        obtain ⟨-, hl, hn'⟩ := indicesToFreqTab_ok ht
        refine ⟨fun hn => ?_, fun hn => ?_⟩
        · rw [hl]; simpa [readAttr, getNrep, Except.map] using e2 hn
        · have hn2 : n = ndat.getD i.nsamp := by
            cases ndat <;> simpa [readAttr, getNdat, Except.map] using e3 hn
          rw [hn2]
          rcases hn' with h | h
          · exact Or.inl h.symm
          · exact Or.inr ⟨h.2, h.1⟩

example : (reads ⟨some exIdx, none, some 3, false, .none⟩
    [(exE, .nrep), (exE, .ndat), (exE, .freq)]).1 =
    [(.nrep, .ok (.num 2)), (.ndat, .ok (.num 3)),
     (.freq, .ok (.freq ⟨3, [[1, 0, 1], [0, 1, 1]], false⟩))] := by decide +kernel

open Classical in
/-- **C46.** What the constructor refuses: neither table, or an `ndat` that is not the width of the
frequency table. Everything else is accepted. -/
theorem C46_rejects (indices : Option IdxTab) (freq : Option FreqTab) (ndat : Option ℕ)
    (shuffle : Bool) (rng : RngArg) :
    Sampler.new indices freq ndat shuffle rng false =
      if (indices = none ∧ freq = none) ∨ (∃ n f, ndat = some n ∧ freq = some f ∧ f.ndat ≠ n)
      then .error .valueError else .ok ⟨indices, freq, ndat, shuffle, rng⟩ := by
  unfold Sampler.new check
  simp only [Bool.false_eq_true, if_false]
  cases freq with
  | none => cases indices <;> cases ndat <;> simp
  | some f =>
    cases ndat with
    | none => simp
    | some n => by_cases hn : f.ndat = n <;> simp [hn]

example : Sampler.new none (some exFreq) (some 4) true .none false = .error .valueError := by
  decide +kernel

/-- **C46.** An object the constructor accepted never recurses for ever, and reads of `ndat` and
`nrep` always succeed. -/
theorem C46_never_recurses (indices : Option IdxTab) (freq : Option FreqTab) (ndat : Option ℕ)
    (shuffle : Bool) (rng : RngArg) (s : S)
    (hs : Sampler.new indices freq ndat shuffle rng false = .ok s) (h : List (Env × Attr))
    (a : Attr) (r : Py Val) (h1 : (a, r) ∈ (reads s h).1) :
    r ≠ .error .recursion ∧ ((a = .ndat ∨ a = .nrep) → ∃ n, r = .ok (.num n)) := by
  rw [C46_rejects] at hs
  split_ifs at hs with hc
  simp only [Except.ok.injEq] at hs
  have hne : ¬ (s.indices = none ∧ s.freq = none) := by
    rw [← hs]; exact fun h => hc (Or.inl h)
  clear hs hc
  induction h generalizing s with
  | nil => simp [reads] at h1
  | cons p l ih =>
    obtain ⟨e, b⟩ := p
    simp only [reads, List.mem_cons, Prod.mk.injEq] at h1
    have key : (readAttr e b s).1 ≠ .error .recursion ∧
        ((b = .ndat ∨ b = .nrep) → ∃ n, (readAttr e b s).1 = .ok (.num n)) ∧
        ¬ ((readAttr e b s).2.indices = none ∧ (readAttr e b s).2.freq = none) := by
      obtain ⟨idx, frq, nd, sh, rng⟩ := s
      cases b with
      | ndat => cases nd <;> cases frq <;> cases idx <;>
          simp_all [readAttr, getNdat, Except.map]
      | nrep => cases frq <;> cases idx <;> simp_all [readAttr, getNrep, Except.map]
      | freq =>
        cases frq with
        | some f => simp [readAttr, getFreq, Except.map]
        | none =>
          cases idx with
          | none => simp at hne
          | some i =>
            cases ht : indicesToFreqTab i (nd.getD i.nsamp) with
            | error er =>
              have : er ≠ .recursion := by
                rintro rfl
                unfold indicesToFreqTab at ht
                simp only at ht
                generalize (if i.labelled = true ∧ nd.getD i.nsamp = 0 then i.nsamp
                  else nd.getD i.nsamp) = m at ht
                unfold indicesToFreq at ht
                simp only at ht
                split at ht
                · rename_i heq
                  simp only [Except.error.injEq] at ht
                  subst ht
                  split_ifs at heq
                  · simp at heq
                  · simp at heq
                  · split at heq <;> simp at heq
                · simp at ht
              simp [readAttr, getFreq, Except.map, ht, this]
            | ok f => simp [readAttr, getFreq, Except.map, ht]
      | indices =>
        cases idx with
        | some f => simp [readAttr, getIndices, Except.map]
        | none =>
          cases frq with
          | none => simp at hne
          | some f =>
            cases ht : freqToIndicesShuffled e f sh rng with
            | error er =>
              have : er ≠ .recursion := by
                rintro rfl
                unfold freqToIndicesShuffled freqToIndices at ht
                have hv : (validateRng rng e.world).1 ≠ .error .recursion := by
                  cases rng with
                  | none =>
                    cases hw : e.world.shared <;> simp [validateRng, defaultRng,
                      missingInternalRng, hw, npDefaultRng, setFrom, setInternalRng, getInternalRng]
                  | gen g => simp [validateRng, npDefaultRng]
                  | seed z => by_cases hz : z < 0 <;> simp [validateRng, npDefaultRng, hz]
                cases hr : f.rows with
                | nil => simp [hr] at ht
                | cons f0 fs =>
                  simp only [hr, List.map_cons] at ht
                  split at ht
                  · rename_i heq
                    split_ifs at heq
                    simp only [Except.error.injEq] at heq ht; rw [← heq] at ht; simp at ht
                  · split_ifs at ht
                    split at ht
                    · rename_i heq
                      simp only [Except.error.injEq] at ht
                      subst ht
                      exact hv heq
                    · simp at ht
              simp [readAttr, getIndices, Except.map, ht, this]
            | ok f => simp [readAttr, getIndices, Except.map, ht]
    rcases h1 with ⟨rfl, rfl⟩ | h1
    · exact ⟨key.1, key.2.1⟩
    · exact ih _ h1 key.2.2

/-- Without that check (`fastpath=True`) an object with neither table does recurse for ever. -/
theorem C46_fastpath_recurses :
    ∃ s, Sampler.new none none none false .none true = .ok s ∧
      ∀ e, (readAttr e .freq s).1 = .error .recursion := ⟨_, rfl, fun _ => rfl⟩

/-- Given both tables, the constructor does not compare them: here the indices draw sample 0 twice
while the frequencies say sample 1. -/
theorem C46_both_tables_unchecked :
    ∃ s, Sampler.new (some ⟨2, [[0, 0]], false⟩) (some ⟨2, [[0, 2]], false⟩) none false .none false
        = .ok s ∧
      ∀ e, (readAttr e .indices s).1 = .ok (.indices ⟨2, [[0, 0]], false⟩) ∧
        (readAttr e .freq s).1 = .ok (.freq ⟨2, [[0, 2]], false⟩) := ⟨_, rfl, fun _ => ⟨rfl, rfl⟩⟩

/-- **C46.** An object made from a frequency table can deliver indices exactly if there is at least
one row, all rows have the same sum and (for shuffling) the generator argument is usable; the
indices have that sum as width. -/
theorem C46_indices_succeed (f : FreqTab) (hf : FreqShape f) (ndat : Option ℕ) (shuffle : Bool)
    (rng : RngArg) (e : Env) (he : GoodOrder e) :
    (∃ i, (readAttr e .indices ⟨none, some f, ndat, shuffle, rng⟩).1 = .ok (.indices i) ∧
        i.rows.length = f.rows.length ∧ ∀ c ∈ f.rows, c.sum = i.nsamp) ↔
    (f.rows ≠ [] ∧ (∃ n, ∀ c ∈ f.rows, c.sum = n) ∧
      (shuffle = true → ∀ z, rng = .seed z → 0 ≤ z)) := by
  have hv : (∃ g, (validateRng rng e.world).1 = .ok g) ↔ ∀ z, rng = .seed z → 0 ≤ z := by
    cases rng with
    | none =>
      simp only [reduceCtorEq, false_implies, implies_true, iff_true]
      rcases validateRng_indep .none e.world e.world with ⟨er, h1, -⟩ | ⟨g, -, h1, -⟩
      · cases hw : e.world.shared <;> simp [validateRng, defaultRng,
          missingInternalRng, hw, npDefaultRng, setFrom, setInternalRng, getInternalRng] at h1
      · exact ⟨g, h1⟩
    | gen g => simp [validateRng, npDefaultRng]
    | seed z =>
      by_cases hz : z < 0
      · simp [validateRng, npDefaultRng, hz]
      · simp [validateRng, npDefaultRng, hz]; omega
  constructor
  · rintro ⟨i, hi, hl, hs⟩
    refine ⟨?_, ⟨_, hs⟩, ?_⟩
    · intro h0
      simp [readAttr, getIndices, freqToIndicesShuffled, h0, freqToIndices, Except.map] at hi
    · intro hsh
      rw [← hv]
      subst hsh
      cases hr : (validateRng rng e.world).1 with
      | ok g => exact ⟨g, rfl⟩
      | error er =>
        cases hq : freqToIndices e.junk f.rows <;>
          simp [readAttr, getIndices, freqToIndicesShuffled, hr, hq, Except.map] at hi
  · rintro ⟨h0, ⟨n, hn⟩, hsh⟩
    rcases freqToIndices_cases f.rows with ⟨er, hj⟩ | ⟨hs, hj⟩
    · exfalso
      obtain ⟨f0, fs, hr⟩ := List.exists_cons_of_ne_nil h0
      have := hj e.junk
      rw [hr] at this hn
      unfold freqToIndices at this
      simp only [List.map_cons] at this
      rw [if_neg] at this
      · simp at this
      · rw [List.any_eq_true]
        rintro ⟨m, hm, hne⟩
        rw [← List.map_cons] at hm
        obtain ⟨c, hc, rfl⟩ := List.mem_map.1 hm
        rw [hn c hc, hn f0 List.mem_cons_self] at hne
        simp at hne
    · have : ∃ i, freqToIndicesShuffled e f shuffle rng = .ok i ∧
          i.nsamp = (f.rows.headD []).sum := by
        cases shuffle with
        | false => simp [freqToIndicesShuffled, hj]
        | true =>
          obtain ⟨g, hg⟩ := hv.2 (hsh rfl)
          simp [freqToIndicesShuffled, hj, hg]
      obtain ⟨i, hi, hw⟩ := this
      refine ⟨i, by simp [readAttr, getIndices, hi, Except.map], (freqToIndicesShuffled_ok he hf hi).2.2,
        fun c hc => ?_⟩
      rw [hw, hs c hc]

example : FreqShape exFreq ∧ GoodOrder exE ∧ exFreq.rows ≠ [] ∧
    (∃ n, ∀ c ∈ exFreq.rows, c.sum = n) := by
  refine ⟨?_, ex_order, by simp [exFreq], 3, ?_⟩ <;>
  · intro c hc
    simp [exFreq] at hc
    rcases hc with rfl | rfl <;> rfl

/-- **C46.** An object made from an index table can deliver frequencies exactly if the table has an
entry and all entries are below `ndat` (and none reaches back before the first sample, where
compiled code would write outside the array). -/
theorem C46_freq_succeeds (i : IdxTab) (ndat : ℕ) (h0 : ndat ≠ 0) (shuffle : Bool)
    (rng : RngArg) (e : Env) :
    (∃ f, (readAttr e .freq ⟨some i, none, some ndat, shuffle, rng⟩).1 = .ok (.freq f)) ↔
      (i.rows.flatten ≠ [] ∧ ∀ r ∈ i.rows, ∀ x ∈ r, -(ndat : ℤ) ≤ x ∧ x < ndat) := by
  constructor
  · rintro ⟨f, hf⟩
    cases ht : indicesToFreqTab i ndat with
    | error er => simp [readAttr, getFreq, ht, Except.map] at hf
    | ok f' =>
      obtain ⟨hs, -, hn⟩ := indicesToFreqTab_ok ht
      have hn' : f'.ndat = ndat := hn.resolve_right (fun h => h0 h.2)
      refine ⟨?_, ?_⟩
      · intro hemp
        simp [indicesToFreqTab, indicesToFreq, hemp] at ht
      · unfold SameDraw at hs
        rw [hn'] at hs
        intro r hr x hx
        generalize i.rows = rs at hs hr
        generalize f'.rows = cs at hs
        induction hs with
        | nil => simp at hr
        | cons hxx _ ih =>
          rcases List.mem_cons.1 hr with rfl | hr
          · exact hxx.1 x hx
          · exact ih hr
  · rintro ⟨hne, hr⟩
    have : ∃ f, indicesToFreqTab i ndat = .ok f := by
      unfold indicesToFreqTab indicesToFreq
      simp only [h0, and_false, if_false, Option.getD_some, hne]
      rw [if_neg, rows_eq_some (fun r h => indicesToFreqRow_zero r (hr r h))]
      · exact ⟨_, rfl⟩
      · simp only [List.any_eq_true, decide_eq_true_eq, not_exists, not_and]
        intro x hx
        obtain ⟨r, hr', hx⟩ := List.mem_flatten.1 hx
        have := hr r hr' x hx
        omega
    obtain ⟨f, hf⟩ := this
    exact ⟨f, by simp [readAttr, getFreq, hf, Except.map]⟩

/-- **C46.** `from_params`: the drawn object has `nrep` rows, every index is a sample number, and
frequencies, if asked for, have rows summing to the number of samples drawn. Without replacement no
sample is drawn twice, in the whole table. -/
theorem C46_from_params (e : Env) (hc : GoodChoice e) (nrep ndat : ℕ) (nsamp : Option ℕ)
    (rng : RngArg) (replace : Bool) (s : S) (hs : fromParams e nrep ndat nsamp rng replace = .ok s) :
    ∃ i, s.indices = some i ∧ s.freq = none ∧ s.ndat = some ndat ∧ i.rows.length = nrep ∧
      i.nsamp = nsamp.getD ndat ∧ IdxShape i ∧ (∀ r ∈ i.rows, ∀ x ∈ r, 0 ≤ x ∧ x < ndat) ∧
      (replace = false → i.rows.flatten.Nodup) := by
  unfold fromParams randomIndices rngChoice at hs
  simp only at hs
  cases hv : (validateRng rng e.world).1 with
  | error er => simp [hv] at hs
  | ok g =>
    simp only [hv] at hs
    split_ifs at hs with h1 h2
    simp only [Except.ok.injEq] at hs
    subst hs
    obtain ⟨c1, c2, c3⟩ := hc ndat nrep (nsamp.getD ndat) replace
    refine ⟨_, rfl, rfl, rfl, by simpa using c1, rfl, ?_, ?_, ?_⟩
    · intro r hr
      obtain ⟨q, hq, rfl⟩ := List.mem_map.1 hr
      simpa using (c2 q hq).1
    · intro r hr x hx
      obtain ⟨q, hq, rfl⟩ := List.mem_map.1 hr
      obtain ⟨y, hy, rfl⟩ := List.mem_map.1 hx
      have hnd : 0 < ndat := by
        by_contra h0
        have h0' : ndat = 0 := by omega
        have : nrep * nsamp.getD ndat = 0 := by
          by_contra hne
          exact h1 ⟨h0', hne⟩
        rcases Nat.mul_eq_zero.1 this with h | h
        · have c1' := c1.trans h
          rw [List.length_eq_zero_iff] at c1'
          rw [c1'] at hq
          simp at hq
        · have := (c2 q hq).1
          rw [h] at this
          rw [List.length_eq_zero_iff.1 this] at hy
          simp at hy
      have := (c2 q hq).2 hnd y hy
      simp only [Int.ofNat_eq_natCast]
      omega
    · intro hr
      simp only
      have := c3 hr (by by_contra hlt; exact h2 ⟨hr, by omega⟩)
      rw [← List.map_flatten]
      exact this.map (fun a b h => by simpa using h)

example : GoodChoice exE := ex_choice

example : fromParams exE 2 5 (some 2) .none false =
    .ok ⟨some ⟨2, [[0, 1], [2, 3]], false⟩, none, some 5, false, .none⟩ := by decide +kernel

/-- Asking for more than one replicate without replacement at the default sample size always fails:
the whole table is drawn at once. -/
theorem C46_no_replacement_fails (e : Env) (nrep ndat : ℕ) (rng : RngArg) (h1 : 2 ≤ nrep)
    (h2 : 0 < ndat) : fromParams e nrep ndat none rng false = .error .valueError ∨
      ∃ z, rng = .seed z ∧ z < 0 := by
  have hlt : ndat < nrep * ndat := by
    calc ndat < 2 * ndat := by omega
      _ ≤ nrep * ndat := Nat.mul_le_mul_right _ h1
  unfold fromParams randomIndices rngChoice
  simp only [Option.getD_none]
  cases hv : (validateRng rng e.world).1 with
  | ok g =>
    left
    have : ndat ≠ 0 := by omega
    simp [this, hlt]
  | error er =>
    right
    cases rng with
    | none =>
      cases hw : e.world.shared <;> simp [validateRng, defaultRng,
        missingInternalRng, hw, npDefaultRng, setFrom, setInternalRng, getInternalRng] at hv
    | gen g => simp [validateRng, npDefaultRng] at hv
    | seed z =>
      by_cases hz : z < 0
      · exact ⟨z, rfl, hz⟩
      · simp [validateRng, npDefaultRng, hz] at hv

/-- For labelled data the argument `replace` has no effect. -/
theorem C46_labelled_ignores_replace (e : Env) (d : DataArg) (hd : d.labelled = true) (nrep : ℕ)
    (nsamp : Option ℕ) (rng : RngArg) :
    fromData e d nrep nsamp rng false = fromData e d nrep nsamp rng true := by
  simp [fromData, hd]

/-- For plain data `from_data` is `from_params` at the length of the data. -/
theorem C46_from_data (e : Env) (ndat nrep : ℕ) (nsamp : Option ℕ) (rng : RngArg)
    (replace : Bool) :
    fromData e ⟨false, .ok ndat⟩ nrep nsamp rng replace =
      fromParams e nrep ndat nsamp rng replace := by
  simp [fromData, fromParams]

/-- **C46.** `factory_sampler`: a sampler is passed through; an array is taken as frequencies; a
number is the number of replicates drawn for `data`; a mapping is taken apart, and the other
keyword arguments are then not looked at. -/
theorem C46_factory (e : Env) (a : Args) (data : Option DataArg) :
    (∀ s, factorySampler e (.inst s) a data = .ok s) ∧
    (∀ f, factorySampler e (.array f) a data = Sampler.new none (some f) a.ndat a.shuffle a.rng false) ∧
    (∀ n d, data = some d → factorySampler e (.int n) a data = fromData e d n none .none true) ∧
    (∀ n, data = none → factorySampler e (.int n) a data = .error .valueError) ∧
    (∀ m, factorySampler e (.mapping m false false) a data = factorySampler e .none m data) ∧
    (a.freq = none → a.indices = none → a.nrep = none →
      factorySampler e .none a data = .error .valueError) ∧
    (∀ nrep ndat, a.freq = none → a.indices = none → a.nrep = some nrep → a.ndat = some ndat →
      factorySampler e .none a data = fromParams e nrep ndat a.nsamp a.rng a.replace) ∧
    (∀ nrep d, a.freq = none → a.indices = none → a.nrep = some nrep → a.ndat = none →
      data = some d → factorySampler e .none a data = fromData e d nrep a.nsamp a.rng a.replace) := by
  refine ⟨fun s => rfl, fun f => rfl, ?_, ?_, fun m => by simp [factorySampler], ?_, ?_, ?_⟩
  · rintro n d rfl; simp [factorySampler, factoryNone]
  · rintro n rfl; simp [factorySampler, factoryNone]
  · intro h1 h2 h3; simp [factorySampler, factoryNone, h1, h2, h3]
  · intro nrep ndat h1 h2 h3 h4; simp [factorySampler, factoryNone, h1, h2, h3, h4]
  · rintro nrep d h1 h2 h3 h4 rfl; simp [factorySampler, factoryNone, h1, h2, h3, h4]

/-- The keyword `shuffle` reaches the object when an array is passed as `sampler`, but not when the
same array is passed as `freq`. -/
theorem C46_factory_shuffle_lost (e : Env) (f : FreqTab) (data : Option DataArg) :
    factorySampler e (.array f) { shuffle := true } data =
      .ok ⟨none, some f, none, true, .none⟩ ∧
    factorySampler e .none { freq := some f, shuffle := true } data =
      .ok ⟨none, some f, none, false, .none⟩ := by
  constructor
  · simp [factorySampler, Sampler.new, check]
  · simp [factorySampler, factoryNone, Sampler.new, check]

/-- **C46.** Whatever `factory_sampler` makes (from at most one table) keeps frequencies and indices
consistent through any history of reads. -/
theorem C46_factory_same_draw (e : Env) (hc : GoodChoice e) (sampler : SamplerArg) (a : Args)
    (data : Option DataArg) (hsam : ∀ s, sampler ≠ .inst s)
    (hm : ∀ m c u, sampler = .mapping m c u → OneTable m.indices m.freq)
    (ha : sampler = .none → OneTable a.indices a.freq)
    (hf : ∀ f, sampler = .array f → FreqShape f) (s : S)
    (hs : factorySampler e sampler a data = .ok s) (h : List (Env × Attr))
    (he : ∀ p ∈ h, GoodOrder p.1) (i : IdxTab) (f : FreqTab)
    (h1 : (Attr.indices, .ok (.indices i)) ∈ (reads s h).1)
    (h2 : (Attr.freq, .ok (.freq f)) ∈ (reads s h).1) :
    SameDraw i f ∧ IdxShape i ∧ FreqShape f := by
  have hof : ∀ (nsamp ndat nrep : ℕ) (lab repl : Bool),
      Inv (ofIndices nsamp ndat lab (e.choice ndat nrep nsamp repl)) := by
    intro nsamp ndat nrep lab repl
    refine ⟨?_, by simp [ofIndices], by simp [ofIndices]⟩
    intro i hi r hr
    simp only [ofIndices, Option.some.injEq] at hi
    subst hi
    obtain ⟨q, hq, rfl⟩ := List.mem_map.1 hr
    simpa using ((hc ndat nrep nsamp repl).2.1 q hq).1
  have hri : ∀ (nrep ndat : ℕ) (nsamp : Option ℕ) (rng : RngArg) (repl : Bool) (rows : List (List ℕ)),
      randomIndices e nrep ndat nsamp rng repl = .ok rows →
      rows = e.choice ndat nrep (nsamp.getD ndat) repl := by
    intro nrep ndat nsamp rng repl rows hr
    unfold randomIndices rngChoice at hr
    simp only at hr
    cases hv : (validateRng rng e.world).1 with
    | error er => simp [hv] at hr
    | ok g =>
      simp only [hv] at hr
      split_ifs at hr
      simpa using hr.symm
  have hnone : ∀ b : Args, OneTable b.indices b.freq → ∀ s, factoryNone e b data = .ok s → Inv s := by
    intro b hb s hs
    unfold factoryNone at hs
    split_ifs at hs with hcond
    · rw [C46_rejects] at hs
      split_ifs at hs
      simp only [Except.ok.injEq] at hs
      subst hs
      refine ⟨hb.2.1, hb.2.2, ?_⟩
      intro i f hi hf
      simp only at hi hf
      rcases hb.1 with h | h
      · rw [h] at hi; simp at hi
      · rw [h] at hf; simp at hf
    · have hp : ∀ nrep ndat, fromParams e nrep ndat b.nsamp b.rng b.replace = .ok s → Inv s := by
        intro nrep ndat hs
        unfold fromParams at hs
        cases hr : randomIndices e nrep ndat b.nsamp b.rng b.replace with
        | error er => simp [hr] at hs
        | ok rows =>
          simp only [hr, Except.ok.injEq] at hs
          rw [← hs, hri _ _ _ _ _ _ hr]
          exact hof _ _ _ _ _
      cases h3 : b.nrep with
      | none => simp [h3] at hs
      | some nrep =>
        cases h4 : b.ndat with
        | some ndat => rw [h3, h4] at hs; exact hp nrep ndat hs
        | none =>
          cases data with
          | none => simp [h3, h4] at hs
          | some d =>
            rw [h3, h4] at hs
            simp only [fromData] at hs
            cases hd : d.ndat with
            | error er => simp [hd] at hs
            | ok ndat =>
              simp only [hd] at hs
              split at hs
              · simp at hs
              · rename_i rows hr
                simp only [Except.ok.injEq] at hs
                rw [← hs, hri _ _ _ _ _ _ hr]
                exact hof _ _ _ _ _
  have hinv : Inv s := by
    cases sampler with
    | none => exact hnone a (ha rfl) s hs
    | inst s' => exact absurd rfl (hsam s')
    | array f' =>
      simp only [factorySampler] at hs
      rw [C46_rejects] at hs
      split_ifs at hs
      simp only [Except.ok.injEq] at hs
      subst hs
      refine ⟨by simp, ?_, by simp⟩
      intro f'' h''
      simp only [Option.some.injEq] at h''
      subst h''
      exact hf _ rfl
    | int n =>
      refine hnone { nrep := some n } ⟨Or.inl rfl, by simp, by simp⟩ s ?_
      simpa [factorySampler] using hs
    | mapping m c u =>
      simp only [factorySampler] at hs
      split_ifs at hs
      exact hnone m (hm m c u rfl) s hs
    | other => simp [factorySampler] at hs
  obtain ⟨⟨g1, g2, g3⟩, -, -, g4, g5⟩ := inv_reads hinv h he
  exact ⟨g3 i f (g5 i h1) (g4 f h2), g1 i (g5 i h1), g2 f (g4 f h2)⟩

example : (factorySampler exE (.mapping { nrep := some 2, nsamp := some 2 } false false) {}
      (some ⟨false, .ok 3⟩)).map
    (fun s => (reads s [(exE, .freq), (exE, .indices)]).1) =
    .ok [(.freq, .ok (.freq ⟨3, [[1, 1, 0], [1, 0, 1]], false⟩)),
      (.indices, .ok (.indices ⟨2, [[0, 1], [2, 0]], false⟩))] := by decide +kernel

end Cmomy
