import Verif.Lemmas.SelectLabel
import Mathlib.Tactic.IntervalCases
import Verif.Props.LabelledObject

/-!
# C83: selecting by label

What `sel` returns is described by the labels alone: it does not depend on the order in which the records are stored.
-/

namespace Cmomy

open Labelled Spec ExDim

variable {δ α κ : Type} [DecidableEq δ] [DecidableEq κ] {obj obj' : DataArray δ α} {moms : List δ} {nd : ℕ}
  {labels labels' : δ → Option (List κ)} {sel : List (δ × LabelSel κ)}

/-- **C83** `sel`: a dimension from which a single label is selected is dropped, the others stay in their order, with one
position for each label asked for. At every place of the result is the record with the labels asked for: there is one, and
it is the only one. -/
theorem C83_sel (g : LabelledObject obj moms nd) (h2 : ∀ d ∈ moms, 2 ≤ obj.size d) (gs : GoodLabels obj moms labels sel) :
    ∃ out, selX moms obj labels sel = .ok out ∧ LabelledObject out moms nd ∧
      out.dims = obj.dims.filter (fun d => ! sel.any (fun p => decide (p.1 = d) && isLabel p.2)) ∧
      (∀ p ∈ sel, p.1 ∈ out.dims → ∀ ls, labels p.1 = some ls → AskedSize ls p.2 (out.size p.1)) ∧
      (∀ d ∈ out.dims, d ∉ sel.map Prod.fst → out.size d = obj.size d) ∧
      ∀ c, InLabelled out moms c →
        (∃ c', InLabelled obj moms c' ∧ AskedAt obj moms labels sel c c') ∧
        ∀ c', AskedAt obj moms labels sel c c' → ∀ ms,
          entry out (withNames moms ms c) = entry obj (withNames moms ms c') := by
  have gs' := toSels_good gs
  have hf : (toSels labels sel).map Prod.fst = sel.map Prod.fst := by
    unfold toSels
    rw [List.map_map]
    rfl
  have hm : ∀ p ∈ sel, p.1 ∉ moms := fun p hp => by simpa using (List.mem_filter.1 (gs.present p hp)).2
  obtain ⟨out, e, e1, e2, e3⟩ := C65_isel g h2 gs' (by
    intro q hq
    obtain ⟨p, hp, rfl⟩ := List.mem_map.1 hq
    exact hm p hp)
  have hdrop : ∀ d, drops (toSels labels sel) d = sel.any (fun p => decide (p.1 = d) && isLabel p.2) := by
    intro d
    unfold drops toSels
    rw [List.any_map]
    refine congrArg (fun f => sel.any f) (funext fun p => ?_)
    simp [isPosition_toSel]
  have hsize : ∀ p ∈ sel, p.1 ∈ out.dims → out.size p.1 = (toPos ((labels p.1).getD []) p.2).length := by
    intro p hp hd
    rw [e2 _ hd, if_pos (hf ▸ List.mem_map_of_mem hp), toPoss_mem gs.distinct hp]
  have hin : ∀ p ∈ sel, isLabel p.2 = false → p.1 ∈ out.dims := by
    intro p hp h
    rw [e1, List.mem_filter]
    refine ⟨(List.mem_filter.1 (gs.present p hp)).1, ?_⟩
    rw [drops_toSels gs.distinct hp, h]
    rfl
  have taken : ∀ c, InLabelled out moms c →
      AskedAt obj moms labels sel c (takenAt (toSels labels sel) (toPoss labels sel) c) := by
    intro c hc
    refine ⟨fun p hp ls hls => ?_, fun d _ hd => ?_⟩
    · obtain ⟨ls', e', hn, hl, hk⟩ := gs.labelled p hp
      obtain rfl := Option.some.inj (hls.symm.trans e')
      unfold takenAt
      rw [if_pos (hf ▸ List.mem_map_of_mem hp), drops_toSels gs.distinct hp, toPoss_mem gs.distinct hp, hls]
      refine toPos_asked hk _ fun h => ?_
      have hd := hin p hp h
      have := hc p.1 (List.mem_filter.2 ⟨hd, by simpa using hm p hp⟩)
      rwa [hsize p hp hd, hls] at this
    · unfold takenAt
      rw [if_neg (hf ▸ hd)]
  refine ⟨out, ?_, e3.object, ?_, ?_, ?_, fun c hc => ⟨⟨_, e3.source c hc, taken c hc⟩, fun c' hc' ms => ?_⟩⟩
  · unfold selX DataArray.sel
    rw [lookups_ok fun p hp => by
      obtain ⟨ls, a, b, -, d⟩ := gs.labelled p hp
      exact ⟨ls, a, b, d⟩]
    exact e
  · rw [e1]
    simp only [hdrop]
  · intro p hp hd ls hls
    obtain ⟨ls', e', -, -, hk⟩ := gs.labelled p hp
    obtain rfl := Option.some.inj (hls.symm.trans e')
    rw [hsize p hp hd, hls]
    exact toPos_size hk
  · intro d hd hd'
    rw [e2 d hd, if_neg (hf ▸ hd')]
  · rw [e3.cell c hc ms]
    refine entry_congr _ fun d hd => ?_
    unfold withNames
    split_ifs with hdm
    · rfl
    · have hv : d ∈ valDims obj moms := List.mem_filter.2 ⟨hd, by simpa using hdm⟩
      obtain ⟨t1, t2⟩ := taken c hc
      by_cases hs : d ∈ sel.map Prod.fst
      · obtain ⟨p, hp, rfl⟩ := List.mem_map.1 hs
        obtain ⟨ls, e', hn, -, -⟩ := gs.labelled p hp
        exact asked_unique hn (t1 p hp ls e') (hc'.1 p hp ls e')
      · rw [t2 d hv hs, hc'.2 d hv hs]

/-- **C83** Two objects that hold the same records under the same labels, stored in any order along the dimensions with
labels, give the same records for single labels and lists of labels. -/
theorem C83_order (g : LabelledObject obj moms nd) (g' : LabelledObject obj' moms nd) (h2 : ∀ d ∈ moms, 2 ≤ obj.size d)
    (h2' : ∀ d ∈ moms, 2 ≤ obj'.size d) (gs : GoodLabels obj moms labels sel) (gs' : GoodLabels obj' moms labels' sel)
    (hv : ∀ d, d ∈ valDims obj moms ↔ d ∈ valDims obj' moms)
    (hs : ∀ p ∈ sel, ∀ a b, p.2 ≠ .upto a b) (hsame : SameByLabel obj obj' moms labels labels' (sel.map Prod.fst)) :
    ∃ out out', selX moms obj labels sel = .ok out ∧ selX moms obj' labels' sel = .ok out' ∧
      ∀ c, InLabelled out moms c → InLabelled out' moms c → ∀ ms,
        entry out (withNames moms ms c) = entry out' (withNames moms ms c) := by
  obtain ⟨out, e, -, -, -, -, h⟩ := C83_sel g h2 gs
  obtain ⟨out', e', -, -, -, -, h'⟩ := C83_sel g' h2' gs'
  refine ⟨out, out', e, e', fun c hc hc' ms => ?_⟩
  obtain ⟨⟨a, ha, ka⟩, ea⟩ := h c hc
  obtain ⟨⟨b, hb, kb⟩, eb⟩ := h' c hc'
  rw [ea a ka ms, eb b kb ms]
  refine hsame a b ha hb (fun d hd ls ls' hls hls' => ?_) (fun d hd hn => ?_) ms
  · obtain ⟨p, hp, rfl⟩ := List.mem_map.1 hd
    have qa := ka.1 p hp ls hls
    have qb := kb.1 p hp ls' hls'
    rcases p with ⟨d, s⟩
    cases s with
    | one l => exact Eq.trans qa (Eq.symm qb)
    | many l =>
      obtain ⟨x, ex, qa⟩ := qa
      obtain ⟨y, ey, qb⟩ := qb
      obtain rfl := Option.some.inj (ex.symm.trans ey)
      exact qa.trans qb.symm
    | upto x y => exact absurd rfl (hs _ hp x y)
  · rw [ka.2 d hd hn, kb.2 d ((hv d).1 hd) hn]

omit [DecidableEq κ] in
theorem mapM_append_error {β γ : Type} {f : β → Py γ} {l : List β} {r : List γ} (h : l.mapM f = .ok r) {b : β} {err : PyErr}
    (hb : f b = .error err) (rest : List β) : (l ++ b :: rest).mapM f = .error err := by
  rw [List.mapM_append, h, List.mapM_cons, hb]
  rfl

/-- **C83** A label that is not there is a `KeyError`. -/
theorem C83_missing {before after : List (δ × LabelSel κ)} {d : δ} {s : LabelSel κ} {ls : List κ}
    (hb : ∀ p ∈ before, ∃ ls, labels p.1 = some ls ∧ ls.Nodup ∧ Known ls p.2) (hl : labels d = some ls) (hn : ls.Nodup)
    (hs : ∀ a b, s ≠ .upto a b) (hk : ¬ Known ls s) :
    selX moms obj labels (before ++ (d, s) :: after) = .error .keyError := by
  unfold selX DataArray.sel
  rw [mapM_append_error (lookups_ok hb) (err := .keyError)]
  · rfl
  · unfold DataArray.lookupLabel
    simp only [hl]
    cases s with
    | one l =>
      rw [LabelSel.place, if_neg (by simpa using hn), if_neg (show l ∉ ls from hk)]
      rfl
    | many l =>
      rw [LabelSel.place, if_neg (by simpa using hn), if_neg (show ¬ ∀ x ∈ l, x ∈ ls from hk)]
      rfl
    | upto a b => exact absurd rfl (hs a b)

/-- **C83** So is a name that is no dimension. -/
theorem C83_unknown {before after : List (δ × LabelSel κ)} {d : δ} {s : LabelSel κ}
    (hb : ∀ p ∈ before, ∃ ls, labels p.1 = some ls ∧ ls.Nodup ∧ Known ls p.2) (hl : labels d = none) (hd : d ∉ obj.dims) :
    selX moms obj labels (before ++ (d, s) :: after) = .error .keyError := by
  unfold selX DataArray.sel
  rw [mapM_append_error (lookups_ok hb) (err := .keyError)]
  · rfl
  · unfold DataArray.lookupLabel
    simp only [hl, if_neg hd]

/-! ### Concrete cases -/

/-- Labels along `t`. -/
def exLabels : ExDim → Option (List ℕ)
  | t => some [10, 30, 20]
  | p => some [7, 5]
  | _ => none

example : dimEntries (selX [m] exNamedObj exLabels [(t, .many [20, 10]), (p, .one 5)]) [[(t, 0), (m, 2)], [(t, 1), (m, 1)]]
    = some ([t, m], [2, 3], [212, 11]) := by decide +kernel

/-- The last label is included. -/
example : dimEntries (selX [m] exNamedObj exLabels [(t, .upto 30 20)]) [[(t, 1), (p, 1), (m, 2)]]
    = some ([t, p, m], [2, 2, 3], [212]) := by decide +kernel

theorem exLabels_good : GoodLabels exNamedObj [m] exLabels [(t, .many [20, 10]), (p, .one 5)] :=
  ⟨by decide, by decide, by
    intro q hq
    simp only [List.mem_cons, List.not_mem_nil, or_false] at hq
    rcases hq with rfl | rfl
    · exact ⟨_, rfl, by decide, rfl, by unfold Known; decide⟩
    · exact ⟨_, rfl, by decide, rfl, by unfold Known; decide⟩⟩

example := C83_sel exNamedObj_good exNamedObj_sizes exLabels_good

example : GoodLabels exNamedObj [m] exLabels [(t, .upto 30 20)] :=
  ⟨by decide, by decide, by
    intro q hq
    rw [List.mem_singleton.1 hq]
    exact ⟨_, rfl, by decide, rfl, by unfold Known; decide⟩⟩

/-- The same object with the positions along `p` exchanged. -/
def exSwapped : DataArray ExDim ℚ where
  dims := [t, p, m]
  data idx := 100 * idx.getD 0 0 + 10 * (if idx.getD 1 0 = 0 then 1 else 0) + idx.getD 2 0
  size := exNamedObj.size

def exSwappedLabels : ExDim → Option (List ℕ)
  | p => some [5, 7]
  | d => exLabels d

theorem exSwapped_same : SameByLabel exNamedObj exSwapped [m] exLabels exSwappedLabels [p] := by
  intro c c' hc hc' hl ho ms
  have h1 : c p < 2 := hc p (by decide)
  have h2 : c' p < 2 := hc' p (by decide)
  have h3 := hl p (by decide) _ _ rfl rfl
  have h4 : c t = c' t := ho t (by decide) (by decide)
  show (100 * (c t : ℕ) + 10 * (c p : ℕ) + (ms.getD 0 0 : ℕ) : ℚ)
    = 100 * (c' t : ℕ) + 10 * (if c' p = 0 then 1 else 0) + (ms.getD 0 0 : ℕ)
  rw [h4]
  generalize c p = x at *
  generalize c' p = y at *
  interval_cases x <;> interval_cases y <;> simp_all

example := C83_order (labels := exLabels) (labels' := exSwappedLabels) (sel := [(p, .one 5)]) exNamedObj_good
  (⟨by decide, by decide, by decide, rfl⟩ : LabelledObject exSwapped [m] 1) exNamedObj_sizes (by decide)
  ⟨by decide, by decide, fun q hq => by
    rw [List.mem_singleton.1 hq]
    exact ⟨_, rfl, by decide, rfl, by unfold Known; decide⟩⟩
  ⟨by decide, by decide, fun q hq => by
    rw [List.mem_singleton.1 hq]
    exact ⟨_, rfl, by decide, rfl, by unfold Known; decide⟩⟩
  (fun d => Iff.rfl) (by simp) exSwapped_same

example := C83_missing (moms := [m]) (obj := exNamedObj) (labels := exLabels) (before := [(p, .one 5)]) (after := [])
  (d := t) (s := .many [10, 11]) (by
    intro q hq
    rw [List.mem_singleton.1 hq]
    exact ⟨_, rfl, by decide, by unfold Known; decide⟩) rfl (by decide) (by simp) (by unfold Known; decide)

example := C83_unknown (moms := [m]) (obj := exNamedObj) (labels := exLabels) (before := []) (after := [(p, .one 5)])
  (d := b) (s := .one 1) (by simp) rfl (by decide)

end Cmomy
