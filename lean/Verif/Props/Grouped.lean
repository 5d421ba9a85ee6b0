import Verif.Lemmas.Indexed
import Verif.Lemmas.Factor
import Verif.Lemmas.Block
import Verif.Props.Resample

/-!
# C31-C36, C52: grouped and indexed reduction, block labels, factorisation
-/

set_option linter.unusedSectionVars false

namespace Cmomy

open Spec

/-! ## C31: grouped reduction -/

section grouped

variable {K V M : Type*} [Field K] [DecidableEq K]

/-- **C31.** Row `g` of the grouped reduction is the reduction, in order, of the samples labelled
`g`: same numbers, same divisions by zero. Holds for both kernels (`kernel1`, `kernel2`). -/
theorem C31_grouped_rows (k : Kernel K V M) (data : List M) (labels : List ℤ) (n : ℕ)
    (hl : labels.length = data.length) (hne : labels ≠ []) (hn : ∀ l ∈ labels, l < n) :
    k.reduceDataGrouped data labels (some n) =
      .ok ((List.range n).map (fun g : ℕ => k.reduceDataFromZero (groupRows g labels data))) := by
  unfold Kernel.reduceDataGrouped
  rw [if_neg (not_not.2 hl)]
  cases hm : labels.max? with
  | none => exact absurd (by simpa using hm) hne
  | some m => exact groupedKernel_rows k data labels n hm (hn m (max?_mem hm))

/-- **C31.** Without `out`, the result has one row per label `0 .. max`. -/
theorem C31_grouped_rows_default (k : Kernel K V M) (data : List M) (labels : List ℤ) (m : ℤ)
    (hl : labels.length = data.length) (hm : m ∈ labels) (hmax : ∀ l ∈ labels, l ≤ m)
    (h1 : -1 ≤ m) :
    k.reduceDataGrouped data labels none =
      .ok ((List.range (m + 1).toNat).map
        (fun g : ℕ => k.reduceDataFromZero (groupRows g labels data))) := by
  have hmx : labels.max? = some m := by
    cases h : labels.max? with
    | none =>
      have : labels = [] := by simpa using h
      rw [this] at hm; simp at hm
    | some m' =>
      have h1 := max?_le h m hm
      have h2 := hmax m' (max?_mem h)
      rw [le_antisymm h1 h2]
  unfold Kernel.reduceDataGrouped
  rw [if_neg (not_not.2 hl)]
  simp only [hmx]
  rw [if_neg (by omega)]
  exact groupedKernel_rows k data labels _ hmx (by omega)

/-- **C31.** A group without samples is all zeros, and samples with negative labels play no role:
replacing them changes nothing. -/
theorem C31_empty_and_negative (k : Kernel K V M) (data data' : List M) (labels : List ℤ)
    (n : ℕ) (hl : labels.length = data.length) (hl' : labels.length = data'.length)
    (hne : labels ≠ []) (hn : ∀ l ∈ labels, l < n)
    (hsame : ∀ i (hi : i < labels.length), 0 ≤ labels[i] → data[i]? = data'[i]?) :
    k.reduceDataGrouped data labels (some n) = k.reduceDataGrouped data' labels (some n) ∧
    ∃ rows, k.reduceDataGrouped data labels (some n) = .ok rows ∧ rows.length = n ∧
      ∀ g : ℕ, g < n → (g : ℤ) ∉ labels → rows[g]? = some (some k.zero) := by
  rw [C31_grouped_rows k data labels n hl hne hn, C31_grouped_rows k data' labels n hl' hne hn]
  refine ⟨?_, _, rfl, by simp, ?_⟩
  · congr 1
    refine List.map_congr_left fun g _ => ?_
    congr 1
    clear hne hn
    induction labels generalizing data data' with
    | nil => rfl
    | cons l labels ih =>
      cases data with
      | nil => simp at hl
      | cons d data =>
        cases data' with
        | nil => simp at hl'
        | cons d' data' =>
          have ih := ih data data' (by simpa using hl) (by simpa using hl') (fun i hi h0 => by
            have := hsame (i + 1) (by simpa using hi) (by simpa using h0)
            simpa using this)
          unfold groupRows at ih ⊢
          simp only [List.zip_cons_cons, List.filterMap_cons]
          by_cases hg : l = (g : ℤ)
          · have := hsame 0 (by simp) (by simp; omega)
            simp only [List.getElem?_cons_zero, Option.some.injEq] at this
            simp only [hg, if_true, this, ih]
          · simp only [hg, if_false, ih]
  · intro g hg hnot
    rw [List.getElem?_map, List.getElem?_range hg, Option.map_some]
    have : groupRows (g : ℤ) labels data = [] := by
      unfold groupRows
      rw [List.filterMap_eq_nil_iff]
      intro p hp
      have := (List.of_mem_zip (a := p.1) (b := p.2) hp).1
      rw [if_neg]
      rintro h
      exact hnot (h ▸ this)
    rw [this]
    rfl

/-- **C31.** What is rejected: labels of the wrong length, no labels, a label beyond a given
output, and (without `out`) only labels below `-1`. -/
theorem C31_rejections (k : Kernel K V M) (data : List M) (labels : List ℤ) :
    (labels.length ≠ data.length → ∀ nout,
      k.reduceDataGrouped data labels nout = .error .valueError) ∧
    (data = [] → labels = [] → ∀ nout,
      k.reduceDataGrouped data labels nout = .error .valueError) ∧
    (labels.length = data.length → ∀ n : ℕ, (∃ l ∈ labels, (n : ℤ) ≤ l) →
      k.reduceDataGrouped data labels (some n) = .error .assertion) ∧
    (labels.length = data.length → (∀ l ∈ labels, l < -1) →
      k.reduceDataGrouped data labels none = .error .valueError) := by
  refine ⟨?_, ?_, ?_, ?_⟩
  · intro h nout
    simp [Kernel.reduceDataGrouped, h]
  · rintro rfl rfl nout
    cases nout <;> simp [Kernel.reduceDataGrouped, Kernel.groupedKernel]
  · rintro hl n ⟨l, hlm, hln⟩
    unfold Kernel.reduceDataGrouped Kernel.groupedKernel
    rw [if_neg (not_not.2 hl)]
    cases h : labels.max? with
    | none =>
      have : labels = [] := by simpa using h
      rw [this] at hlm; simp at hlm
    | some m =>
      have := max?_le h l hlm
      simp only [List.length_replicate]
      rw [if_neg (by omega)]
  · intro hl h
    unfold Kernel.reduceDataGrouped
    rw [if_neg (not_not.2 hl)]
    cases hm : labels.max? with
    | none => rfl
    | some m =>
      have := h m (max?_mem hm)
      simp only
      rw [if_pos (by omega)]

end grouped

/-! ## C33: block labels -/

open Block in
/-- **C33.** One label per sample. With `q = ndat / block` full blocks and `r = ndat % block`
left over: sample `i` belongs to block `i / block`, except that the last `r` samples (`*_last`)
or the first `r` samples (`*_first`) are dropped (label `-1`) or join the nearest block. -/
theorem C33_labels (ndat block : ℕ) (h1 : 1 ≤ block) (h2 : block ≤ ndat) :
    (∃ labels, blockBy ndat block .dropLast = .ok labels ∧ labels.length = ndat ∧
      ∀ i, i < ndat → labels[i]? =
        some (if i < ndat / block * block then ((i / block : ℕ) : ℤ) else -1)) ∧
    (∃ labels, blockBy ndat block .expandLast = .ok labels ∧ labels.length = ndat ∧
      ∀ i, i < ndat → labels[i]? =
        some (if i < ndat / block * block then ((i / block : ℕ) : ℤ)
          else ((ndat / block - 1 : ℕ) : ℤ))) ∧
    (∃ labels, blockBy ndat block .dropFirst = .ok labels ∧ labels.length = ndat ∧
      ∀ i, i < ndat → labels[i]? =
        some (if i < ndat % block then -1 else (((i - ndat % block) / block : ℕ) : ℤ))) ∧
    (∃ labels, blockBy ndat block .expandFirst = .ok labels ∧ labels.length = ndat ∧
      ∀ i, i < ndat → labels[i]? =
        some (if i < ndat % block then 0 else (((i - ndat % block) / block : ℕ) : ℤ))) := by
  have hdm := Nat.div_add_mod ndat block
  rw [Nat.mul_comm] at hdm
  have hfirst : ∀ v : ℤ, ∀ i, i < ndat →
      (List.replicate (ndat % block) v ++ arangeRepeat (ndat / block) block)[i]? =
        some (if i < ndat % block then v else (((i - ndat % block) / block : ℕ) : ℤ)) := by
    intro v i hi
    by_cases h : i < ndat % block
    · rw [List.getElem?_append_left (by simpa using h), List.getElem?_replicate, if_pos h, if_pos h]
    · rw [List.getElem?_append_right (by simpa using h), List.length_replicate,
        getElem?_arangeRepeat _ _ _ h1 (by omega), if_neg h]
  have hlast : ∀ v : ℤ, ∀ i, i < ndat →
      (arangeRepeat (ndat / block) block ++ List.replicate (ndat % block) v)[i]? =
        some (if i < ndat / block * block then ((i / block : ℕ) : ℤ) else v) := by
    intro v i hi
    by_cases h : i < ndat / block * block
    · rw [List.getElem?_append_left (by rw [length_arangeRepeat]; exact h), if_pos h,
        getElem?_arangeRepeat _ _ _ h1 h]
    · rw [List.getElem?_append_right (by rw [length_arangeRepeat]; omega), length_arangeRepeat,
        if_neg h, List.getElem?_replicate, if_pos (by omega)]
  refine ⟨⟨_, blockBy_eq ndat block _ h1 h2 (by decide), ?_, hlast _⟩,
    ⟨_, blockBy_eq ndat block _ h1 h2 (by decide), ?_, hlast _⟩,
    ⟨_, blockBy_eq ndat block _ h1 h2 (by decide), ?_, hfirst _⟩,
    ⟨_, blockBy_eq ndat block _ h1 h2 (by decide), ?_, hfirst _⟩⟩
  all_goals
    simp only [List.length_append, List.length_replicate, length_arangeRepeat]
    omega

open Block in
/-- **C33.** Block sizes: every block has exactly `block` samples, the absorbing block `r` more;
no other label occurs; `r` samples are dropped in the drop modes. Kept labels never decrease. -/
theorem C33_block_sizes (ndat block : ℕ) (mode : Mode) (h1 : 1 ≤ block) (h2 : block ≤ ndat)
    (hm : mode ≠ .unknown) :
    ∃ labels, blockBy ndat block mode = .ok labels ∧
      (∀ b : ℕ, labels.count (b : ℤ) = if b < ndat / block then
        block + (if (mode = .expandFirst ∧ b = 0) ∨ (mode = .expandLast ∧ b = ndat / block - 1)
          then ndat % block else 0) else 0) ∧
      (∀ v : ℤ, v < 0 → labels.count v = if v = -1 ∧ (mode = .dropFirst ∨ mode = .dropLast)
        then ndat % block else 0) ∧
      (labels.filter (fun l => decide (0 ≤ l))).Pairwise (· ≤ ·) := by
  have hpos : 0 < ndat / block := Nat.div_pos h2 h1
  have hsort : (arangeRepeat (ndat / block) block).Pairwise (· ≤ ·) := by
    generalize ndat / block = n
    induction n with
    | zero => simp [arangeRepeat]
    | succ n ih =>
      rw [arangeRepeat_succ, List.pairwise_append]
      refine ⟨ih, List.pairwise_replicate.2 (Or.inr le_rfl), ?_⟩
      intro a ha b hb
      rw [List.eq_of_mem_replicate hb]
      have hc : 0 < (arangeRepeat n block).count a := List.count_pos_iff.2 ha
      rw [count_arangeRepeat] at hc
      split_ifs at hc with h
      · omega
      · omega
  have hmem : ∀ a ∈ arangeRepeat (ndat / block) block, 0 ≤ a ∧ a < ((ndat / block : ℕ) : ℤ) := by
    intro a ha
    have hc : 0 < (arangeRepeat (ndat / block) block).count a := List.count_pos_iff.2 ha
    rw [count_arangeRepeat] at hc
    split_ifs at hc with h
    · exact h
    · omega
  refine ⟨_, blockBy_eq ndat block mode h1 h2 hm, ?_, ?_, ?_⟩
  · intro b
    have hc := count_arangeRepeat (ndat / block) block (b : ℤ)
    have hb : (0 ≤ (b : ℤ) ∧ (b : ℤ) < ((ndat / block : ℕ) : ℤ)) ↔ b < ndat / block := by omega
    simp only [hb] at hc
    have e1 : ((-1 : ℤ) == (b : ℤ)) = false := by
      rw [beq_eq_false_iff_ne]; omega
    have e2 : ((0 : ℤ) == (b : ℤ)) = decide (b = 0) := by
      rw [Bool.eq_iff_iff]; simp; omega
    have e3 : (((ndat / block - 1 : ℕ) : ℤ) == (b : ℤ)) = decide (b = ndat / block - 1) := by
      rw [Bool.eq_iff_iff]; simp only [beq_iff_eq, decide_eq_true_eq]; omega
    cases mode with
    | unknown => exact absurd rfl hm
    | dropFirst => simp [List.count_append, List.count_replicate, hc, e1]
    | dropLast => simp [List.count_append, List.count_replicate, hc, e1]
    | expandFirst =>
      simp only [List.count_append, List.count_replicate, hc, e2, decide_eq_true_eq, true_and,
        reduceCtorEq, false_and, or_false]
      split_ifs <;> omega
    | expandLast =>
      simp only [List.count_append, List.count_replicate, hc, e3, decide_eq_true_eq, true_and,
        reduceCtorEq, false_and, false_or]
      split_ifs <;> omega
  · intro v hv
    have hc := count_arangeRepeat (ndat / block) block v
    rw [if_neg (by omega)] at hc
    have e1 : ((-1 : ℤ) == v) = decide (v = -1) := by
      rw [Bool.eq_iff_iff]; simp only [beq_iff_eq, decide_eq_true_eq]; omega
    have e2 : ((0 : ℤ) == v) = false := by rw [beq_eq_false_iff_ne]; omega
    have e3 : (((ndat / block - 1 : ℕ) : ℤ) == v) = false := by rw [beq_eq_false_iff_ne]; omega
    cases mode with
    | unknown => exact absurd rfl hm
    | dropFirst => simp [List.count_append, List.count_replicate, hc, e1]
    | dropLast => simp [List.count_append, List.count_replicate, hc, e1]
    | expandFirst => simp [List.count_append, List.count_replicate, hc, e2]
    | expandLast => simp [List.count_append, List.count_replicate, hc, e3]
  · cases mode with
    | unknown => exact absurd rfl hm
    | dropFirst =>
      simp only [List.filter_append, List.filter_replicate]
      simpa using hsort.filter _
    | dropLast =>
      simp only [List.filter_append, List.filter_replicate]
      simpa using hsort.filter _
    | expandFirst =>
      refine List.Pairwise.filter _ ?_
      rw [List.pairwise_append]
      refine ⟨List.pairwise_replicate.2 (Or.inr le_rfl), hsort, ?_⟩
      intro a ha b hb
      rw [List.eq_of_mem_replicate ha]
      exact (hmem b hb).1
    | expandLast =>
      refine List.Pairwise.filter _ ?_
      rw [List.pairwise_append]
      refine ⟨hsort, List.pairwise_replicate.2 (Or.inr le_rfl), ?_⟩
      intro a ha b hb
      rw [List.eq_of_mem_replicate hb]
      have := (hmem a ha).2
      omega

open Block in
/-- **C33.** Degenerate arguments: `block ≤ 0` or `block = ndat` puts every sample in block 0,
without looking at `mode` (even an unknown one); a block larger than the data and, otherwise,
an unknown mode are errors. -/
theorem C33_degenerate (ndat : ℕ) (block : ℤ) (mode : Mode) :
    (block ≤ 0 ∨ block = ndat → blockBy ndat block mode = .ok (List.replicate ndat 0)) ∧
    (0 < block → (ndat : ℤ) < block → blockBy ndat block mode = .error .valueError) ∧
    (0 < block → block < ndat → blockBy ndat block .unknown = .error .valueError) := by
  refine ⟨?_, ?_, ?_⟩
  · intro h
    simp only [blockBy, h, if_true]
  · intro h1 h2
    unfold blockBy
    rw [if_neg (by omega), if_pos h2]
  · intro h1 h2
    unfold blockBy
    rw [if_neg (by omega), if_neg (by omega), if_pos rfl]

example : Block.blockBy 5 2 .dropFirst = .ok [-1, 0, 0, 1, 1] := by decide +kernel
example : Block.blockBy 5 2 .dropLast = .ok [0, 0, 1, 1, -1] := by decide +kernel
example : Block.blockBy 5 2 .expandFirst = .ok [0, 0, 0, 1, 1] := by decide +kernel
example : Block.blockBy 5 2 .expandLast = .ok [0, 0, 1, 1, 1] := by decide +kernel
example : Block.blockBy 3 0 .unknown = .ok [0, 0, 0] := by decide +kernel

/-! ## C34: factorisation -/

open Factor in
/-- **C34.** `factor_by` on integer labels: a sample has a negative code exactly when its label is missing
(`None`, or negative unless the labels come as an index object); otherwise its code is the
position of its label among the groups. The groups are exactly the labels that occur, without
repetition, in increasing order when `sort` is on. -/
theorem C34_codes (sort isIndex : Bool) (xs : List (Option ℤ)) :
    ∃ groups codes, factorBy sort isIndex xs = (groups, codes) ∧
      groups.Nodup ∧ (sort = true → groups.Pairwise (· < ·)) ∧
      (∀ z : ℤ, z ∈ groups ↔ some z ∈ xs ∧ (isIndex = true ∨ 0 ≤ z)) ∧
      codes.length = xs.length ∧
      ∀ i (hi : i < xs.length) (hc : i < codes.length),
        ((xs[i] = none ∨ isIndex = false ∧ ∃ z, xs[i] = some z ∧ z < 0) → codes[i] = -1) ∧
        (∀ z : ℤ, xs[i] = some z → (isIndex = true ∨ 0 ≤ z) →
          0 ≤ codes[i] ∧ groups[codes[i].toNat]? = some z) := by
  set ys := if isIndex then xs else dropNegative xs with hys
  have hylen : ys.length = xs.length := by
    rw [hys]; split_ifs <;> simp [dropNegative]
  have hy : ∀ i (hi : i < xs.length), ys[i]'(by omega) =
      xs[i].bind (fun z => if isIndex = false ∧ z < 0 then none else some z) := by
    intro i hi
    cases isIndex with
    | true =>
      simp only [hys, if_true, Bool.true_eq_false, false_and, if_false]
      cases xs[i] <;> rfl
    | false => simp [hys, dropNegative]
  refine ⟨(factorize sort ys).2, (factorize sort ys).1, rfl, nodup_groups sort ys, ?_, ?_, ?_, ?_⟩
  · rintro rfl
    exact sorted_groups ys
  · intro z
    rw [mem_groups]
    cases isIndex with
    | true => simp [hys]
    | false =>
      simp only [hys, Bool.false_eq_true, if_false, dropNegative, List.mem_map, false_or]
      constructor
      · rintro ⟨x, hx, e⟩
        cases x with
        | none => simp at e
        | some w =>
          simp only [Option.bind_some] at e
          split_ifs at e with hw
          cases e
          exact ⟨hx, by omega⟩
      · rintro ⟨hx, hz⟩
        exact ⟨some z, hx, by simp; omega⟩
  · rw [length_codes, hylen]
  · intro i hi hc
    have hi' : i < ys.length := by omega
    have hcode : (factorize sort ys).1[i] = codeOf (factorize sort ys).2 ys[i] :=
      List.getElem_map ..
    have hyi := hy i hi
    constructor
    · intro h
      have : ys[i] = none := by
        rw [hyi]
        rcases h with h | ⟨h1, z, h2, h3⟩
        · rw [h]; rfl
        · rw [h2, Option.bind_some, if_pos ⟨h1, h3⟩]
      rw [hcode, this]
      rfl
    · intro z hz hor
      have hyz : ys[i] = some z := by
        rw [hyi, hz, Option.bind_some, if_neg]
        rintro ⟨h1, h2⟩
        rcases hor with h | h
        · rw [h1] at h; exact absurd h (by decide)
        · omega
      rw [hcode, hyz]
      refine ⟨by simp [codeOf], ?_⟩
      have hm := (mem_groups sort ys z).2 (by rw [← hyz]; exact List.getElem_mem hi')
      simp only [codeOf, Int.toNat_natCast]
      have hlt := List.idxOf_lt_length_iff.2 hm
      rw [List.getElem?_eq_getElem hlt, List.getElem_idxOf hlt]

open Factor in
/-- **C34.** With `sort`, the code of a label is its rank: the number of groups smaller than it. -/
theorem C34_code_is_rank (isIndex : Bool) (xs : List (Option ℤ)) :
    ∃ groups codes, factorBy true isIndex xs = (groups, codes) ∧
      ∀ i (hi : i < xs.length) (hc : i < codes.length) (z : ℤ), xs[i] = some z →
        (isIndex = true ∨ 0 ≤ z) → codes[i] = (groups.countP (fun g => decide (g < z)) : ℤ) := by
  obtain ⟨groups, codes, e, hn, hs, hm, hl, hspec⟩ := C34_codes true isIndex xs
  refine ⟨groups, codes, e, fun i hi hc z hz hor => ?_⟩
  obtain ⟨h0, hg⟩ := (hspec i hi hc).2 z hz hor
  have hzm : z ∈ groups := List.mem_of_getElem? hg
  have hidx := idxOf_eq_countP ((hs rfl).imp le_of_lt) hzm
  have hlt : codes[i].toNat < groups.length := by
    by_contra hcon
    rw [List.getElem?_eq_none (by omega)] at hg
    cases hg
  rw [List.getElem?_eq_getElem hlt, Option.some.injEq] at hg
  have : groups.idxOf z = codes[i].toNat := by
    rw [← hg]
    exact hn.idxOf_getElem _ hlt
  rw [← hidx, this]
  omega

open Factor in
/-- **C34.** `factor_by_to_index` with any correct `argsort`: one slice of `index` per group,
slice `g` lists exactly the positions whose label is `groups[g]`, each once, and the slices tile
`index` in order. -/
theorem C34_index_slices (argsort : List ℤ → List ℕ) (ha : IsArgsort argsort) (isIndex : Bool)
    (xs : List (Option ℤ)) :
    ∃ groups index start stop, factorByToIndex argsort isIndex xs = (groups, index, start, stop) ∧
      start.length = groups.length ∧ stop.length = groups.length ∧
      (∀ g (hg : g < groups.length), ∃ a b, start[g]? = some a ∧ stop[g]? = some b ∧
        (slice index a b).Perm (positionsWhere (fun x => x = some groups[g]) xs)) ∧
      ((start.zip stop).flatMap (fun p => slice index p.1 p.2)) = index := by
  set ys := if isIndex then xs else dropNegative xs with hys
  set codes := (factorize true ys).1 with hcodes
  set groups := (factorize true ys).2 with hgroups
  have hylen : ys.length = xs.length := by
    rw [hys]; split_ifs <;> simp [dropNegative]
  have hclen : codes.length = xs.length := by rw [hcodes, length_codes, hylen]
  obtain ⟨idx, hp, hs, e, hslice⟩ := codesToIndex_spec ha codes groups.length
    (mem_codes_iff true ys)
  refine ⟨groups, idx, _, _, by
    show (groups, codesToIndex argsort codes) = _
    rw [e], by simp, by simp, ?_, ?_⟩
  · intro g hg
    refine ⟨_, _, by rw [List.getElem?_map, List.getElem?_range hg, Option.map_some],
      by rw [List.getElem?_map, List.getElem?_range hg, Option.map_some], ?_⟩
    rw [hslice g]
    refine (hp.filter _).trans ?_
    refine List.Perm.of_eq ?_
    unfold positionsWhere keptPositions
    rw [List.filter_filter, hclen]
    refine List.filter_congr fun i hi => ?_
    have hi := List.mem_range.1 hi
    have hci : i < codes.length := by omega
    have hyi : i < ys.length := by omega
    have hiff := code_eq_iff true ys i hyi g hg
    have hyx : ys[i] = some groups[g] ↔ xs[i] = some groups[g] := by
      have hmem := (mem_groups true ys groups[g]).1 (List.getElem_mem hg)
      cases hI : isIndex with
      | true => simp [hys, hI]
      | false =>
        have hpos : 0 ≤ groups[g] := by
          rw [hys, hI] at hmem
          simp only [Bool.false_eq_true, if_false, dropNegative, List.mem_map] at hmem
          obtain ⟨x, -, hx⟩ := hmem
          cases x with
          | none => simp at hx
          | some w =>
            simp only [Option.bind_some] at hx
            split_ifs at hx with hw
            cases hx
            omega
        have : ys[i] = xs[i].bind (fun z => if z < 0 then none else some z) := by
          simp [hys, hI, dropNegative]
        rw [this]
        cases xs[i] with
        | none => simp
        | some w =>
          simp only [Option.bind_some, Option.some.injEq]
          split_ifs with hw
          · constructor
            · intro h; cases h
            · intro h; omega
          · simp
    rw [Bool.eq_iff_iff]
    simp only [Bool.and_eq_true, decide_eq_true_eq, codeAt, hci, List.getElem?_eq_getElem,
      Option.getD_some, hi, Option.any_some]
    rw [← hyx, ← hiff]
    constructor
    · rintro ⟨h1, -⟩; exact h1
    · intro h1; exact ⟨h1, le_of_le_of_eq (Int.natCast_nonneg g) h1.symm⟩
  · have hflat : ∀ n : ℕ, (List.range n).flatMap (fun g : ℕ =>
        slice idx (codes.countP (fun c => decide (0 ≤ c ∧ c < (g : ℤ))))
          (codes.countP (fun c => decide (0 ≤ c ∧ c ≤ (g : ℤ))))) =
        idx.take (codes.countP (fun c => decide (0 ≤ c ∧ c < (n : ℤ)))) := by
      intro n
      induction n with
      | zero =>
        have : codes.countP (fun c => decide (0 ≤ c ∧ c < ((0 : ℕ) : ℤ))) = 0 := by
          rw [List.countP_eq_zero]
          intro c _
          simp only [decide_eq_true_eq]
          omega
        rw [this]; rfl
      | succ n ih =>
        rw [List.range_succ, List.flatMap_append, ih]
        have h1 : (fun c : ℤ => decide (0 ≤ c ∧ c < ((n + 1 : ℕ) : ℤ))) =
            (fun c : ℤ => decide (0 ≤ c ∧ c ≤ (n : ℤ))) := by
          funext c
          rw [Bool.eq_iff_iff]
          simp only [decide_eq_true_eq]
          omega
        rw [h1]
        have hle : codes.countP (fun c => decide (0 ≤ c ∧ c < (n : ℤ))) ≤
            codes.countP (fun c => decide (0 ≤ c ∧ c ≤ (n : ℤ))) := by
          refine List.countP_mono_left fun c _ h => ?_
          simp only [decide_eq_true_eq] at h ⊢
          omega
        simp only [List.flatMap_cons, List.flatMap_nil, List.append_nil, slice]
        have := List.take_append_drop (codes.countP (fun c => decide (0 ≤ c ∧ c < (n : ℤ))))
          (idx.take (codes.countP (fun c => decide (0 ≤ c ∧ c ≤ (n : ℤ)))))
        rw [List.take_take, Nat.min_eq_left hle] at this
        exact this
    have hz : ((List.range groups.length).map
          (fun g : ℕ => codes.countP (fun c => decide (0 ≤ c ∧ c < (g : ℤ))))).zip
        ((List.range groups.length).map
          (fun g : ℕ => codes.countP (fun c => decide (0 ≤ c ∧ c ≤ (g : ℤ))))) =
        (List.range groups.length).map (fun g : ℕ =>
          (codes.countP (fun c => decide (0 ≤ c ∧ c < (g : ℤ))),
            codes.countP (fun c => decide (0 ≤ c ∧ c ≤ (g : ℤ))))) := by
      rw [List.zip_map']
    rw [hz, List.flatMap_map, hflat]
    refine List.take_of_length_le ?_
    rw [hp.length_eq]
    have hcount : codes.countP (fun c => decide (0 ≤ c ∧ c < (groups.length : ℤ))) =
        ((keptPositions codes).map (codeAt codes)).countP
          (fun c => decide (c < (groups.length : ℤ))) := by
      rw [countP_codeAt]
      congr 1; funext c; rw [Bool.decide_and]
    rw [hcount, List.countP_eq_length.2]
    · simp
    · intro c hc
      obtain ⟨i, hi, rfl⟩ := List.mem_map.1 hc
      obtain ⟨hi, h0⟩ := mem_keptPositions.1 hi
      have : codeAt codes i ∈ codes := by
        unfold codeAt
        simp [hi]
      have := ((mem_codes_iff true ys _).1 ⟨this, h0⟩).2
      simpa using this

/-- An insertion argsort, used only to show the hypotheses can be met. -/
def exArgsort (l : List ℤ) : List ℕ :=
  (List.range l.length).insertionSort (fun i j => (l[i]?).getD 0 ≤ (l[j]?).getD 0)

theorem exArgsort_isArgsort : IsArgsort exArgsort := by
  intro l
  refine ⟨List.perm_insertionSort _ _, ?_⟩
  rw [List.pairwise_map]
  have : Std.Total (fun i j : ℕ => (l[i]?).getD 0 ≤ (l[j]?).getD 0) := ⟨fun a b => le_total _ _⟩
  have : IsTrans ℕ (fun i j : ℕ => (l[i]?).getD 0 ≤ (l[j]?).getD 0) :=
    ⟨fun a b c h1 h2 => le_trans h1 h2⟩
  exact List.pairwise_insertionSort _ _

example : IsArgsort exArgsort := exArgsort_isArgsort
example : Factor.factorBy true false [some 1, some 1, some 0, some (-1), some 0, some 2, none] =
    ([0, 1, 2], [1, 1, 0, -1, 0, 2, -1]) := by decide +kernel
example : Factor.factorBy false true [some 1, some 1, some 0, some (-1), some 0, some 2, none] =
    ([1, 0, -1, 2], [0, 0, 1, 2, 1, 3, -1]) := by decide +kernel
example : Factor.factorByToIndex exArgsort false [none, some 7, some (-1), some 5, some 7] =
    ([5, 7], [3, 1, 4], [0, 1], [1, 3]) := by decide +kernel

end Cmomy
