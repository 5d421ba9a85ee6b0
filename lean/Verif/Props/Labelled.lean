import Verif.Spec.Labelled
import Mathlib.Data.List.Nodup
import Mathlib.Data.List.Dedup
import Mathlib.Data.List.Perm.Basic

/-!
# C47: dimension order of labelled results
-/

namespace Cmomy

open Spec Labelled

variable {δ : Type} [DecidableEq δ] {α : Type}

/-- `OrderedAs` leaves no choice. -/
theorem C47_unique {out target : List δ} (ho : out.Nodup) (ht : target.Nodup) {r r' : List δ}
    (h : OrderedAs out target r) (h' : OrderedAs out target r') : r = r' := by
  have key : ∀ {r : List δ}, OrderedAs out target r →
      r = out.filter (fun d => decide (d ∉ target)) ++ target.filter (fun d => decide (d ∈ out)) := by
    rintro r ⟨new, old, rfl, hp, hn, hnt, hot⟩
    have hnd : (new ++ old).Nodup := hp.nodup_iff.2 ho
    congr 1
    · have hsub : new.Sublist (out.filter (fun d => decide (d ∉ target))) := by
        have := hn.filter (fun d => decide (d ∉ target))
        rwa [List.filter_eq_self.2 (fun d hd => by simpa using hnt d hd)] at this
      refine hsub.eq_of_length_le ?_
      have hss : (out.filter (fun d => decide (d ∉ target))).Subperm new := by
        refine List.subperm_of_subset (ho.filter _) ?_
        intro d hd
        rw [List.mem_filter] at hd
        rcases List.mem_append.1 (hp.mem_iff.2 hd.1) with h | h
        · exact h
        · have := hot.subset h
          simp [this] at hd
      exact hss.length_le
    · have hsub : old.Sublist (target.filter (fun d => decide (d ∈ out))) := by
        have := hot.filter (fun d => decide (d ∈ out))
        rwa [List.filter_eq_self.2 (fun d hd => by
          simpa using hp.mem_iff.1 (List.mem_append_right _ hd))] at this
      refine hsub.eq_of_length_le ?_
      have hss : (target.filter (fun d => decide (d ∈ out))).Subperm old := by
        refine List.subperm_of_subset (ht.filter _) ?_
        intro d hd
        rw [List.mem_filter] at hd
        rcases List.mem_append.1 (hp.mem_iff.2 (by simpa using hd.2)) with h | h
        · exact absurd hd.1 (hnt d h)
        · exact h
      exact hss.length_le
  rw [key h, key h']

private theorem filter_perm {out target : List δ} (ho : out.Nodup) (ht : target.Nodup) :
    (out.filter (fun d => decide (d ∉ target)) ++ target.filter (fun d => decide (d ∈ out))).Perm
      out := by
  rw [List.perm_ext_iff_of_nodup _ ho]
  · intro d
    simp only [List.mem_append, List.mem_filter, decide_eq_true_eq]
    by_cases h : d ∈ target <;> simp [h]
  · rw [List.nodup_append]
    refine ⟨ho.filter _, ht.filter _, ?_⟩
    intro a ha b hb hab
    subst hab
    rw [List.mem_filter] at ha hb
    simp [hb.1] at ha

private theorem orderedAs_filter {out target : List δ} (ho : out.Nodup) (ht : target.Nodup) :
    OrderedAs out target
      (out.filter (fun d => decide (d ∉ target)) ++ target.filter (fun d => decide (d ∈ out))) :=
  ⟨_, _, rfl, filter_perm ho ht, List.filter_sublist, fun d hd => by
    rw [List.mem_filter] at hd; simpa using hd.2, List.filter_sublist⟩

private theorem infix_ellipsis {out T : List δ} (ho : out.Nodup) :
    infixDims (none :: T.map some) out =
      .ok (out.filter (fun d => decide (d ∉ T)) ++ T.filter (fun d => decide (d ∈ out))) := by
  unfold infixDims
  simp only [List.mem_cons, true_or, if_true]
  rw [if_neg]
  · congr 1
    rw [List.filter_cons_of_pos (by simp), List.flatMap_cons]
    congr 1
    · simp
    · rw [List.filter_map]
      generalize out.filter _ = other
      induction T with
      | nil => rfl
      | cons d T ih =>
        by_cases hd : d ∈ out
        · simpa [List.filter_cons, hd] using ih
        · simpa [List.filter_cons, hd] using ih
  · have : (T.map some).count none = 0 := by
      rw [List.count_eq_zero]
      simp
    rintro (h | h)
    · exact h ho
    · rw [List.count_cons_self] at h
      omega

theorem values_transpose (x : Arr δ α) (hx : x.dims.Nodup) {dims : List δ}
    (hp : dims.Perm x.dims) :
    SameValues x ⟨dims, npTranspose x.dims.length x.data (dims.map x.dims.idxOf)⟩ := by
  intro lab
  simp only [npTranspose]
  congr 1
  apply List.ext_getElem
  · simp
  · intro k h1 h2
    have hk : k < x.dims.length := by simpa using h1
    simp only [List.getElem_map, List.getElem_range]
    have hmem : x.dims[k] ∈ dims := hp.mem_iff.2 (List.getElem_mem hk)
    have hidx : (dims.map x.dims.idxOf).idxOf k = dims.idxOf x.dims[k] := by
      have hke : k = x.dims.idxOf x.dims[k] := (hx.idxOf_getElem k hk).symm
      have hnd := hp.nodup_iff.2 hx
      have hlt : dims.idxOf x.dims[k] < dims.length := List.idxOf_lt_length_iff.2 hmem
      have hmapnd : (dims.map x.dims.idxOf).Nodup := by
        refine List.Nodup.map_on ?_ hnd
        intro a ha b hb hab
        exact (List.idxOf_inj (hp.mem_iff.1 ha)).1 hab
      have hlt' : dims.idxOf x.dims[k] < (dims.map x.dims.idxOf).length := by simpa using hlt
      have := hmapnd.idxOf_getElem _ hlt'
      rw [List.getElem_map, List.getElem_idxOf, ← hke] at this
      exact this
    rw [hidx]
    have hlt : dims.idxOf x.dims[k] < (dims.map lab).length := by
      simpa using List.idxOf_lt_length_iff.2 hmem
    rw [List.getD_eq_getElem?_getD, List.getElem?_eq_getElem hlt, Option.getD_some,
      List.getElem_map, List.getElem_idxOf]

private theorem fold_erase {template remove : List δ} (ht : template.Nodup) :
    remove.foldl (fun o r => if r ∈ o then o.erase r else o) template =
      template.filter (fun d => decide (d ∉ remove)) := by
  induction remove generalizing template with
  | nil => simp
  | cons r rs ih =>
    have he : (if r ∈ template then template.erase r else template) =
        template.filter (fun d => decide (d ≠ r)) := by
      split_ifs with h
      · rw [ht.erase_eq_filter]
        congr 1
        funext d
        rw [Bool.eq_iff_iff]
        simp
      · rw [List.filter_eq_self.2]
        intro d hd
        simp only [ne_eq, decide_not, Bool.not_eq_eq_eq_not, Bool.not_true, decide_eq_false_iff_not]
        rintro rfl
        exact h hd
    rw [List.foldl_cons, he, ih (ht.filter _), List.filter_filter]
    congr 1
    funext d
    rw [Bool.eq_iff_iff]
    simp only [Bool.and_eq_true, decide_eq_true_eq, List.mem_cons, not_or]
    tauto

private theorem target_eq {template : List δ} (ht : template.Nodup) (replace : List (δ × δ))
    (remove append : List δ) :
    targetOrder template replace remove [none] (append.map some) =
      none :: (wantedDims template replace remove append).map some := by
  unfold targetOrder wantedDims
  simp only [fold_erase ht]
  cases replace with
  | nil => simp
  | cons p l => simp

/-- **C47.** `transpose_like` as it is called everywhere (ellipsis first): the result has exactly the
dimensions of the array it is given; new dimensions come first, then the template's dimensions in
template order, removed ones deleted and renamed ones replaced, then the appended ones; and every
entry keeps its labels. -/
theorem C47_transpose_like (x : Arr δ α) (hx : x.dims.Nodup) (template : List δ)
    (ht : template.Nodup) (replace : List (δ × δ)) (remove append : List δ)
    (hw : (wantedDims template replace remove append).Nodup) :
    ∃ y, transposeLike x template replace remove [none] (append.map some) = .ok y ∧
      OrderedAs x.dims (wantedDims template replace remove append) y.dims ∧ SameValues x y := by
  have hne : targetOrder template replace remove [none] (append.map some) ≠ x.dims.map some := by
    rw [target_eq ht]
    intro h
    have : (none : Option δ) ∈ x.dims.map some := by rw [← h]; exact List.mem_cons_self
    simp at this
  refine ⟨⟨_, npTranspose x.dims.length x.data (List.map x.dims.idxOf _)⟩, ?_,
    orderedAs_filter hx hw, values_transpose x hx (filter_perm hx hw)⟩
  unfold transposeLike
  simp only
  rw [if_pos hne, target_eq ht]
  unfold transpose
  rw [if_neg (by simp), infix_ellipsis hx]
  simp only
  rw [if_pos ((filter_perm hx hw).nodup_iff.2 hx)]

example : (transposeLike (⟨["w", "y", "m"], fun i => i⟩ : Arr String (List ℕ)) ["m", "x", "y"]
    [("y", "rep")] ["x"] [none] []).map Arr.dims = .ok ["w", "y", "m"] := by decide +kernel

example : (transposeLike (⟨["w", "rep", "m"], fun i => i⟩ : Arr String (List ℕ)) ["m", "x", "y"]
    [("y", "rep")] ["x"] [none] []).map Arr.dims = .ok ["w", "m", "rep"] := by decide +kernel

/-- Doing it twice changes nothing more. -/
theorem C47_idempotent (x y z : Arr δ α) (hx : x.dims.Nodup) (template : List δ)
    (ht : template.Nodup) (replace : List (δ × δ)) (remove append : List δ)
    (hw : (wantedDims template replace remove append).Nodup)
    (h1 : transposeLike x template replace remove [none] (append.map some) = .ok y)
    (h2 : transposeLike y template replace remove [none] (append.map some) = .ok z) :
    z.dims = y.dims ∧ SameValues y z := by
  obtain ⟨y', e, ho, hv⟩ := C47_transpose_like x hx template ht replace remove append hw
  rw [e] at h1
  simp only [Except.ok.injEq] at h1
  subst h1
  have hp : y'.dims.Perm x.dims := by obtain ⟨_, _, -, hp, _⟩ := ho; exact hp
  have hy : y'.dims.Nodup := hp.nodup_iff.2 hx
  obtain ⟨z', e', ho', hv'⟩ := C47_transpose_like y' hy template ht replace remove append hw
  rw [e'] at h2
  simp only [Except.ok.injEq] at h2
  subst h2
  refine ⟨C47_unique hy hw ho' ?_, hv'⟩
  obtain ⟨new, old, e1, e2, e3, e4, e5⟩ := ho
  exact ⟨new, old, e1, List.Perm.refl _, by rw [e1]; exact List.sublist_append_left _ _, e4, e5⟩

/-- Without ellipsis the names must be exactly the dimensions (names that are none are ignored),
otherwise it is a `ValueError`. -/
theorem C47_no_ellipsis (x : Arr δ α) (hx : x.dims.Nodup) (names : List δ) (hn : names.Nodup)
    (hne : names ≠ []) :
    ((∀ d ∈ x.dims, d ∈ names) → ∃ y, transpose x (names.map some) = .ok y ∧
      y.dims = names.filter (fun d => decide (d ∈ x.dims)) ∧ y.dims.Perm x.dims ∧
      SameValues x y) ∧
    (¬ (∀ d ∈ x.dims, d ∈ names) → transpose x (names.map some) = .error .valueError) := by
  have hex : ((names.map some).filter (fun o : Option δ => o.all (fun d => decide (d ∈ x.dims)))
      ).filterMap id = names.filter (fun d => decide (d ∈ x.dims)) := by
    rw [List.filter_map]
    induction names with
    | nil => rfl
    | cons d l ih =>
      by_cases hd : d ∈ x.dims <;>
        simp [hd, Function.comp_def]
  have hnone : (none : Option δ) ∉ names.map some := by simp
  have hsup : names.map some ≠ [] := by simpa using hne
  constructor
  · intro hall
    have hperm : (names.filter (fun d => decide (d ∈ x.dims))).Perm x.dims := by
      rw [List.perm_ext_iff_of_nodup (hn.filter _) hx]
      intro d
      simp only [List.mem_filter, decide_eq_true_eq]
      exact ⟨fun h => h.2, fun h => ⟨hall d h, h⟩⟩
    refine ⟨⟨_, npTranspose x.dims.length x.data (List.map x.dims.idxOf _)⟩, ?_, rfl, hperm,
      values_transpose x hx hperm⟩
    unfold transpose
    rw [if_neg hsup]
    unfold infixDims
    simp only [hnone, if_false, hex]
    rw [if_pos]
    · simp only
      rw [if_pos (hn.filter _)]
    · simp only [List.all_eq_true, Bool.and_eq_true, List.mem_filter, decide_eq_true_eq]
      exact ⟨fun d h => h.2, fun d h => ⟨hall d h, h⟩⟩
  · intro hall
    unfold transpose
    rw [if_neg hsup]
    unfold infixDims
    simp only [hnone, if_false, hex]
    rw [if_neg]
    simp only [List.all_eq_true, Bool.and_eq_true, List.mem_filter, decide_eq_true_eq, not_and]
    intro _ h
    exact hall (fun d hd => (h d hd).1)

/-- Two target names that are both present and equal (a replicate dimension named like an existing
one) are refused. -/
theorem C47_collision (x : Arr δ α) (hx : x.dims.Nodup) (template : List δ)
    (ht : template.Nodup) (replace : List (δ × δ)) (remove append : List δ)
    (hw : ¬ ((wantedDims template replace remove append).filter (fun d => decide (d ∈ x.dims))).Nodup) :
    transposeLike x template replace remove [none] (append.map some) = .error .valueError := by
  have hne : targetOrder template replace remove [none] (append.map some) ≠ x.dims.map some := by
    rw [target_eq ht]
    intro h
    have : (none : Option δ) ∈ x.dims.map some := by rw [← h]; exact List.mem_cons_self
    simp at this
  unfold transposeLike
  simp only
  rw [if_pos hne, target_eq ht]
  unfold transpose
  rw [if_neg (by simp), infix_ellipsis hx]
  simp only
  rw [if_neg]
  intro h
  exact hw (List.nodup_append.1 h).2.1

example : (transposeLike (⟨["x", "y", "mom"], fun i => i⟩ : Arr String (List ℕ)) ["x", "y", "mom"]
    [("x", "y")] [] [none] []).map Arr.dims = .error .valueError := by decide +kernel

/-- **C47, `axes_to_end`.** The named dimensions come last, in the given order, and the others before
them in the order they had. -/
theorem C47_axes_to_end (x : Arr δ α) (hx : x.dims.Nodup) (L : List δ) (hL : L.Nodup)
    (hs : ∀ d ∈ L, d ∈ x.dims) :
    ∃ y, transpose x (none :: L.map some) = .ok y ∧ SameValues x y ∧
      y.dims = x.dims.filter (fun d => decide (d ∉ L)) ++ L := by
  refine ⟨⟨_, npTranspose x.dims.length x.data (List.map x.dims.idxOf _)⟩, ?_,
    values_transpose x hx (filter_perm hx hL), ?_⟩
  · unfold transpose
    rw [if_neg (by simp), infix_ellipsis hx]
    simp only
    rw [if_pos ((filter_perm hx hL).nodup_iff.2 hx)]
  · simp only
    congr 1
    rw [List.filter_eq_self]
    intro d h
    simpa using hs d h

example : (transpose (⟨["x", "mom", "y"], fun i => i⟩ : Arr String (List ℕ))
    [none, some "x", some "mom"]).map Arr.dims = .ok ["y", "x", "mom"] := by decide +kernel

private theorem fin {x y : Arr δ α} {T : List δ} (hx : x.dims.Nodup) (hT : T.Nodup)
    (hp : T.Perm x.dims) (ho : OrderedAs x.dims T y.dims) : y.dims = T := by
  refine C47_unique hx hT ho ⟨[], T, rfl, hp, List.nil_sublist _, by simp, List.Sublist.refl _⟩

/-- **C47, `reduce_data`.** The result has the dimensions of the data in their order, without the
reduced ones unless `keepdims`; with `axes_to_end` the moment dimensions (and kept ones) come last,
the others before them in order. `x` is what `apply_ufunc` returns. -/
theorem C47_reduce_data (data dim moms : List δ) (hd : data.Nodup) (hdim : dim.Nodup)
    (hm : moms.Nodup) (hsd : ∀ d ∈ dim, d ∈ data) (hsm : ∀ d ∈ moms, d ∈ data)
    (hdis : ∀ d ∈ dim, d ∉ moms) (keepdims : Bool) (x : Arr δ α)
    (hx : x.dims = applyUfuncDims [data] [dim ++ moms] (if keepdims then dim ++ moms else moms)) :
    (∃ y, reduceDataDims x data dim moms keepdims false = .ok y ∧ SameValues x y ∧
      y.dims = if keepdims then data else data.filter (fun d => decide (d ∉ dim))) ∧
    (∃ y, reduceDataDims x data dim moms keepdims true = .ok y ∧ SameValues x y ∧
      y.dims = data.filter (fun d => decide (d ∉ dim ++ moms)) ++
        if keepdims then dim ++ moms else moms) := by
  have hdm : (dim ++ moms).Nodup := by
    rw [List.nodup_append]
    exact ⟨hdim, hm, fun a ha b hb hab => hdis a ha (hab ▸ hb)⟩
  have hx' : x.dims = data.filter (fun d => decide (d ∉ dim ++ moms)) ++
      (if keepdims then dim ++ moms else moms) := by
    rw [hx]
    unfold applyUfuncDims
    simp only [List.zip_cons_cons, List.zip_nil_right, List.flatMap_cons, List.flatMap_nil,
      List.append_nil]
    rw [List.dedup_eq_self.2 (List.nodup_reverse.2 (hd.filter _)), List.reverse_reverse]
  have hxn : x.dims.Nodup := by
    rw [hx', List.nodup_append]
    refine ⟨hd.filter _, by cases keepdims <;> simpa, ?_⟩
    intro a ha b hb hab
    subst hab
    rw [List.mem_filter] at ha
    cases keepdims
    · simp only [Bool.false_eq_true, if_false] at hb
      simp [hb] at ha
    · simp only [if_true] at hb
      simp [hb] at ha
  constructor
  · have hT : wantedDims data [] (if keepdims then [] else dim) [] =
        if keepdims then data else data.filter (fun d => decide (d ∉ dim)) := by
      cases keepdims <;> simp [wantedDims]
    obtain ⟨y, e, ho, hv⟩ := C47_transpose_like x hxn data hd [] (if keepdims then [] else dim) []
      (by rw [hT]; cases keepdims; exacts [hd.filter _, hd])
    refine ⟨y, by simpa [reduceDataDims] using e, hv, ?_⟩
    rw [hT] at ho
    refine fin hxn (by cases keepdims; exacts [hd.filter _, hd]) ?_ ho
    rw [List.perm_ext_iff_of_nodup (by cases keepdims; exacts [hd.filter _, hd]) hxn, hx']
    intro d
    cases keepdims
    · simp only [Bool.false_eq_true, if_false, List.mem_append, List.mem_filter, decide_eq_true_eq,
        not_or]
      constructor
      · rintro ⟨h1, h2⟩
        by_cases h3 : d ∈ moms
        · exact Or.inr h3
        · exact Or.inl ⟨h1, h2, h3⟩
      · rintro (⟨h1, h2, -⟩ | h)
        · exact ⟨h1, h2⟩
        · exact ⟨hsm d h, fun h' => hdis d h' h⟩
    · simp only [if_true, List.mem_append, List.mem_filter, decide_eq_true_eq, not_or]
      constructor
      · intro h1
        by_cases h2 : d ∈ dim
        · exact Or.inr (Or.inl h2)
        · by_cases h3 : d ∈ moms
          · exact Or.inr (Or.inr h3)
          · exact Or.inl ⟨h1, h2, h3⟩
      · rintro (⟨h, -⟩ | h | h)
        · exact h
        · exact hsd d h
        · exact hsm d h
  · have hLn : (if keepdims then dim ++ moms else moms).Nodup := by
      cases keepdims; exacts [hm, hdm]
    have hLx : ∀ d ∈ (if keepdims then dim ++ moms else moms), d ∈ x.dims := by
      intro d h; rw [hx']; exact List.mem_append_right _ h
    generalize hL : (if keepdims then dim ++ moms else moms) = L at *
    have hres : x.dims.filter (fun d => decide (d ∉ L)) ++ L.filter (fun d => decide (d ∈ x.dims))
        = data.filter (fun d => decide (d ∉ dim ++ moms)) ++ L := by
      congr 1
      · have hnil : L.filter (fun d => decide (d ∉ L)) = [] := by
          rw [List.filter_eq_nil_iff]; intro d h; simpa using h
        rw [hx', List.filter_append, hnil, List.append_nil, List.filter_eq_self]
        intro d h
        rw [List.mem_filter] at h
        simp only [List.mem_append, not_or, decide_eq_true_eq] at h ⊢
        rw [← hL]
        cases keepdims
        · simpa using h.2.2
        · simpa using h.2
      · rw [List.filter_eq_self]
        intro d h
        simpa using hLx d h
    refine ⟨⟨_, npTranspose x.dims.length x.data (List.map x.dims.idxOf _)⟩, ?_,
      values_transpose x hxn (filter_perm hxn hLn), ?_⟩
    · unfold reduceDataDims transpose
      simp only [Bool.true_eq_false, if_false, hL, reduceCtorEq]
      rw [infix_ellipsis hxn]
      simp only
      rw [if_pos ((filter_perm hxn hLn).nodup_iff.2 hxn)]
    · exact hres

example : applyUfuncDims [["x", "mom", "y"]] [["x"] ++ ["mom"]] ["mom"] = ["y", "mom"] ∧
    (reduceDataDims (⟨["y", "mom"], fun i => i⟩ : Arr String (List ℕ)) ["x", "mom", "y"] ["x"]
      ["mom"] false false).map Arr.dims = .ok ["mom", "y"] := by decide +kernel

/-- **C47, operations that keep the dimensions** (cumulative, rolling, jackknife, grouped and indexed
reductions): the result has the dimensions of the data, in their order. -/
theorem C47_same_dims (data : List δ) (dim : δ) (moms : List δ) (hd : data.Nodup) (hm : moms.Nodup)
    (hsd : dim ∈ data) (hsm : ∀ d ∈ moms, d ∈ data) (hdis : dim ∉ moms) (isDataset : Bool)
    (x : Arr δ α) (hx : x.dims = applyUfuncDims [data] [dim :: moms] (dim :: moms)) :
    (∃ y, sameDims x data dim moms false isDataset = .ok y ∧ SameValues x y ∧ y.dims = data) ∧
    (∃ y, sameDims x data dim moms true isDataset = .ok y ∧ SameValues x y ∧
      y.dims = data.filter (fun d => decide (d ∉ dim :: moms)) ++ dim :: moms) := by
  obtain ⟨⟨y, e1, v1, d1⟩, ⟨z, e2, v2, d2⟩⟩ := C47_reduce_data data [dim] moms hd (by simp) hm
    (by simpa using hsd) hsm (by simpa using hdis) true x (by simpa using hx)
  refine ⟨⟨y, by simpa [reduceDataDims, sameDims] using e1, v1, by simpa using d1⟩, ?_⟩
  cases isDataset
  · refine ⟨x, by simp [sameDims], fun lab => rfl, ?_⟩
    rw [hx]
    unfold applyUfuncDims
    simp only [List.zip_cons_cons, List.zip_nil_right, List.flatMap_cons, List.flatMap_nil,
      List.append_nil]
    rw [List.dedup_eq_self.2 (List.nodup_reverse.2 (hd.filter _)), List.reverse_reverse]
  · exact ⟨z, by simpa [reduceDataDims, sameDims] using e2, v2, by simpa using d2⟩

example : (sameDims (⟨["y", "x", "mom"], fun i => i⟩ : Arr String (List ℕ)) ["x", "mom", "y"] "x"
      ["mom"] false false).map Arr.dims = .ok ["x", "mom", "y"] := by decide +kernel

private theorem lookup_map (data : List δ) (dim rep : δ) :
    data.map (fun o => (([(dim, rep)] : List (δ × δ)).lookup o).getD o) =
      data.map (fun o => if o = dim then rep else o) := by
  refine List.map_congr_left (fun o _ => ?_)
  by_cases h : o = dim
  · subst h; simp [List.lookup]
  · have : (o == dim) = false := by simpa using h
    simp [List.lookup, this, h]

private theorem nodup_rename {data : List δ} (hd : data.Nodup) {dim rep : δ} (hr : rep ∉ data) :
    (data.map (fun o => if o = dim then rep else o)).Nodup := by
  refine List.Nodup.map_on ?_ hd
  intro a ha b hb hab
  by_cases h1 : a = dim <;> by_cases h2 : b = dim
  · rw [h1, h2]
  · simp only [h1, if_true, h2, if_false] at hab
    exact absurd (hab ▸ hb) hr
  · simp only [h1, if_false, h2, if_true] at hab
    exact absurd (hab ▸ ha) hr
  · simpa [h1, h2] using hab

/-- **C47, `resample_data`.** The replicate dimension takes the place of the resampled one, all
others stay where they were. -/
theorem C47_resample_data (data : List δ) (dim rep : δ) (moms : List δ) (hd : data.Nodup)
    (hm : moms.Nodup) (hsd : dim ∈ data) (hsm : ∀ d ∈ moms, d ∈ data) (hdis : dim ∉ moms)
    (hr : rep ∉ data) (isDataset : Bool) (x : Arr δ α)
    (hx : x.dims = applyUfuncDims [data, [rep, dim]] [dim :: moms, [rep, dim]] (rep :: moms)) :
    ∃ y, resampleDataDims x data dim rep (data.idxOf dim) moms false isDataset = .ok y ∧
      SameValues x y ∧ y.dims = data.map (fun o => if o = dim then rep else o) := by
  have hx' : x.dims = data.filter (fun d => decide (d ∉ dim :: moms)) ++ rep :: moms := by
    rw [hx]
    unfold applyUfuncDims
    have : [rep, dim].filter (fun d => decide (d ∉ [rep, dim])) = [] := by
      rw [List.filter_eq_nil_iff]; intro d hd; simpa [or_iff_not_imp_left] using hd
    simp only [List.zip_cons_cons, List.zip_nil_right, List.flatMap_cons, List.flatMap_nil, this,
      List.append_nil]
    rw [List.dedup_eq_self.2 (List.nodup_reverse.2 (hd.filter _)), List.reverse_reverse]
  have hrm : rep ∉ moms := fun h => hr (hsm rep h)
  have hxn : x.dims.Nodup := by
    rw [hx', List.nodup_append]
    refine ⟨hd.filter _, List.nodup_cons.2 ⟨hrm, hm⟩, ?_⟩
    intro a ha b hb hab
    subst hab
    rw [List.mem_filter] at ha
    rcases List.mem_cons.1 hb with h | h
    · exact hr (h ▸ ha.1)
    · simp [h] at ha
  have hW : wantedDims data [(dim, rep)] [] [] = data.map (fun o => if o = dim then rep else o) := by
    unfold wantedDims
    simp only [List.append_nil, List.not_mem_nil, not_false_eq_true, decide_true, List.filter_true]
    exact lookup_map data dim rep
  have hT := nodup_rename hd hr (dim := dim)
  obtain ⟨y, e, ho, hv⟩ := C47_transpose_like x hxn data hd [(dim, rep)] [] [] (by rw [hW]; exact hT)
  rw [hW] at ho
  have hp : (data.map (fun o => if o = dim then rep else o)).Perm x.dims := by
    rw [List.perm_ext_iff_of_nodup hT hxn, hx']
    intro d
    simp only [List.mem_map, List.mem_append, List.mem_filter, List.mem_cons, decide_eq_true_eq,
      not_or]
    constructor
    · rintro ⟨o, h1, rfl⟩
      by_cases h2 : o = dim
      · simp [h2]
      · rw [if_neg h2]
        by_cases h3 : o ∈ moms
        · exact Or.inr (Or.inr h3)
        · exact Or.inl ⟨h1, h2, h3⟩
    · rintro (⟨h1, h2, h3⟩ | rfl | h)
      · exact ⟨d, h1, by simp [h2]⟩
      · exact ⟨dim, hsd, by simp⟩
      · exact ⟨d, hsm d h, by rw [if_neg]; rintro rfl; exact hdis h⟩
  have hyd : y.dims = data.map (fun o => if o = dim then rep else o) := fin hxn hT hp ho
  have hsplit : data.take (data.idxOf dim) ++ rep :: data.drop (data.idxOf dim + 1) =
      data.map (fun o => if o = dim then rep else o) := by
    have hlt := List.idxOf_lt_length_iff.2 hsd
    apply List.ext_getElem
    · simp [List.length_take, List.length_drop]; omega
    · intro k h1 h2
      have hk : k < data.length := by simpa using h2
      rw [List.getElem_map]
      have hiff : data[k] = dim ↔ k = data.idxOf dim := by
        constructor
        · intro h; rw [← h]; exact (hd.idxOf_getElem k hk).symm
        · rintro rfl; exact List.getElem_idxOf hlt
      rcases Nat.lt_trichotomy k (data.idxOf dim) with h | h | h
      · rw [List.getElem_append_left (by simp [List.length_take]; omega), List.getElem_take,
          if_neg (by rw [hiff]; omega)]
      · rw [if_pos (hiff.2 h), List.getElem_append_right (by simp [List.length_take]; omega)]
        have : k - (data.take (data.idxOf dim)).length = 0 := by simp [List.length_take]; omega
        simp only [this, List.getElem_cons_zero]
      · rw [if_neg (by rw [hiff]; omega), List.getElem_append_right (by simp [List.length_take]; omega)]
        have hm' : min (data.idxOf dim) data.length = data.idxOf dim := by omega
        have : k - (data.take (data.idxOf dim)).length = (k - data.idxOf dim - 1) + 1 := by
          simp only [List.length_take, hm']; omega
        simp only [this, List.getElem_cons_succ, List.getElem_drop]
        congr 1
        omega
  unfold resampleDataDims
  simp only [if_true]
  have e' : transposeLike x data [(dim, rep)] [] [none] [] = .ok y := e
  rw [e']
  simp only
  cases isDataset
  · have hyn : y.dims.Nodup := by rw [hyd]; exact hT
    have hne : data.map (fun o => if o = dim then rep else o) ≠ [] := by
      intro h
      rw [List.map_eq_nil_iff] at h
      rw [h] at hsd
      simp at hsd
    obtain ⟨z, ez, dz, -, vz⟩ := (C47_no_ellipsis y hyn _ hT hne).1 (by rw [hyd]; exact fun d h => h)
    refine ⟨z, ?_, ?_, ?_⟩
    · simp only [Bool.false_eq_true, if_false]
      rw [hsplit]
      exact ez
    · intro lab; rw [hv lab, vz lab]
    · rw [dz, hyd, List.filter_eq_self]
      intro d h
      simpa using h
  · exact ⟨y, by simp, hv, hyd⟩

example : (resampleDataDims (⟨["y", "rep", "mom"], fun i => i⟩ : Arr String (List ℕ))
      ["x", "mom", "y"] "x" "rep" 0 ["mom"] false false).map Arr.dims =
    .ok ["rep", "mom", "y"] := by decide +kernel

/-- **C47, results of values** (`resample_vals`, `rolling_vals`, `jackknife_vals`, ...): dimensions
that only the weights or the second variable have come first, then the dimensions of the values in
their order (the replicate dimension in place of the resampled one), then the moment dimensions. -/
theorem C47_vals (vals : List δ) (moms : List δ) (hd : vals.Nodup) (hm : moms.Nodup)
    (hsm : ∀ d ∈ moms, d ∉ vals) (dim rep : δ) (rename : Bool)
    (hr : rename = true → rep ∉ vals ∧ rep ∉ moms) (isDataset : Bool) (x : Arr δ α)
    (hxn : x.dims.Nodup)
    (hx : ∀ d ∈ vals.map (fun o => if rename = true ∧ o = dim then rep else o) ++ moms, d ∈ x.dims) :
    ∃ y, valsDims x vals (if rename then [(dim, rep)] else []) dim moms false isDataset = .ok y ∧
      SameValues x y ∧ y.dims =
        x.dims.filter (fun d => decide
          (d ∉ vals.map (fun o => if rename = true ∧ o = dim then rep else o) ++ moms)) ++
        vals.map (fun o => if rename = true ∧ o = dim then rep else o) ++ moms := by
  have hW : wantedDims vals (if rename then [(dim, rep)] else []) [] moms =
      vals.map (fun o => if rename = true ∧ o = dim then rep else o) ++ moms := by
    unfold wantedDims
    simp only [List.not_mem_nil, not_false_eq_true, decide_true, List.filter_true]
    congr 1
    cases rename
    · simp
    · simp only [if_true, true_and]
      exact lookup_map vals dim rep
  have hT : (vals.map (fun o => if rename = true ∧ o = dim then rep else o) ++ moms).Nodup := by
    rw [List.nodup_append]
    refine ⟨?_, hm, ?_⟩
    · cases rename
      · simpa using hd
      · simpa using nodup_rename hd (hr rfl).1
    · intro a ha b hb hab
      subst hab
      obtain ⟨o, ho, rfl⟩ := List.mem_map.1 ha
      by_cases h : rename = true ∧ o = dim
      · simp only [h, and_self, if_true] at hb
        exact (hr h.1).2 hb
      · simp only [h, if_false] at hb
        exact hsm o hb ho
  obtain ⟨y, e, ho, hv⟩ := C47_transpose_like x hxn vals hd (if rename then [(dim, rep)] else []) []
    moms (by rw [hW]; exact hT)
  rw [hW] at ho
  refine ⟨y, by simpa [valsDims] using e, hv, ?_⟩
  rw [C47_unique hxn hT ho (orderedAs_filter hxn hT), List.append_assoc]
  congr 1
  rw [List.filter_eq_self]
  intro d h
  simpa using hx d h

example : (valsDims (⟨["y", "w", "rep", "mom"], fun i => i⟩ : Arr String (List ℕ))
      ["x", "y"] [("x", "rep")] "x" ["mom"] false false).map Arr.dims =
    .ok ["w", "rep", "y", "mom"] := by decide +kernel

end Cmomy
