import Verif.Spec.Objects
import Verif.Lemmas.Bridge
import Verif.Lemmas.Order
import Mathlib.Data.List.GetD
import Mathlib.Data.List.Forall2

set_option linter.unusedSectionVars false
set_option linter.unusedSimpArgs false

/-!
# Moment objects: the loops over positions, and refinement to sample lists
-/

namespace Cmomy

open Spec

variable {K : Type} [Field K] [DecidableEq K] [CharZero K]

/-! ### an array pushed into itself -/

theorem pushClosed_self (order : ℕ) (w : K) (m : Mom K) :
    pushClosed order w m m = Function.update m 0 (m 0 + w) := by
  funext n
  unfold pushClosed
  by_cases h0 : n = 0
  · subst h0; simp
  rw [Function.update_of_ne h0]
  by_cases h1 : n = 1
  · subst h1; simp
  simp only [h0, h1, if_false, sub_self]
  split_ifs
  · rw [combine]
    simp only [mul_zero, neg_zero, shift_zero, full_of_two_le _ (show 2 ≤ n by omega)]
    ring
  · rfl

theorem pushClosed2_self (o0 o1 : ℕ) (w : K) (m : Com K) :
    pushClosed2 o0 o1 w m m = setAt m 0 0 (m 0 0 + w) := by
  funext i j
  unfold pushClosed2
  by_cases h0 : i = 0 ∧ j = 0
  · obtain ⟨rfl, rfl⟩ := h0; simp [setAt_apply]
  rw [setAt_apply, if_neg h0, if_neg (show ¬ (i, j) = (0, 0) by simpa using h0)]
  by_cases h1 : i = 1 ∧ j = 0
  · obtain ⟨rfl, rfl⟩ := h1; simp
  by_cases h2 : i = 0 ∧ j = 1
  · obtain ⟨rfl, rfl⟩ := h2; simp
  rw [if_neg h1, if_neg h2]
  split_ifs
  · rw [combine2]
    simp only [sub_self, mul_zero, neg_zero, shift2_zero, full2_of_two_le _ (show 2 ≤ i + j by omega)]
    ring
  · rfl

theorem pushDataScaleAliased_eq (order : ℕ) (ho : 1 ≤ order) (c : K) (m : Mom K) :
    pushDataScaleAliased order c m = pushDataScale order m c m := by
  unfold pushDataScale
  rw [pushDataBody_eq order ho, pushClosed_self]
  unfold pushDataScaleAliased
  by_cases hw : m 0 * c = 0
  · simp only [hw, if_true]
  by_cases hne : m 0 + m 0 * c = 0
  · simp only [hw, if_false, Function.update_self, hne, if_true]
  simp only [hw, if_false, Function.update_self, hne, sub_self, zero_mul, add_zero]
  have e1 : Function.update (Function.update m 0 (m 0 + m 0 * c)) 1
      (Function.update m 0 (m 0 + m 0 * c) 1) = Function.update m 0 (m 0 + m 0 * c) :=
    Function.update_eq_self _ _
  rw [e1]
  split_ifs with ho
  · rfl
  · rw [foldl_fixed]
    · congr 1
      rw [show ∀ v : Mom K, ∀ α : K, v 2 * α + (1 - α) * v 2 = v 2 by intro v α; ring]
      exact Function.update_eq_self _ _
    · intro a ha
      rw [pushDataTmp_same a (by have := mem_rangeDown.1 ha; omega)]
      exact Function.update_eq_self _ _

theorem pushDataScaleCovAliased_eq {o0 o1 : ℕ} (h0 : 1 ≤ o0) (h1 : 1 ≤ o1) (c : K) (m : Com K) :
    pushDataScaleCovAliased o0 o1 c m = pushDataScaleCov o0 o1 m c m := by
  unfold pushDataScaleCov
  rw [pushDataCovBody_eq o0 o1 h0 h1, pushClosed2_self]
  unfold pushDataScaleCovAliased
  by_cases hw : m 0 0 * c = 0
  · simp only [hw, if_true]
  have e00 : setAt m 0 0 (m 0 0 + m 0 0 * c) 0 0 = m 0 0 + m 0 0 * c := by simp [setAt_apply]
  by_cases hne : m 0 0 + m 0 0 * c = 0
  · have e0 : setAt m 0 0 0 0 0 = (0 : K) := by simp [setAt_apply]
    simp only [hw, if_false, hne, e0, if_true]
  simp only [hw, if_false, e00, hne, sub_self, zero_mul, add_zero, setAt_self]
  rw [foldl_positions o0 o1 (fun a0 a1 out => pushDataCovTmp a0 a1 0 0 _ _ out out)]
  rw [foldl_fixed]
  intro p hp
  rw [pushDataCovTmp_same _ _ ((mem_covPositions h0 h1).1 hp).2.2]
  exact setAt_self _ _ _

theorem pushDataAliased_eq_scale (order : ℕ) (m : Mom K) :
    pushDataAliased order m = pushDataScaleAliased order 1 m := by
  unfold pushDataAliased pushDataScaleAliased
  simp only [mul_one]

theorem pushDataCovAliased_eq_scale (o0 o1 : ℕ) (m : Com K) :
    pushDataCovAliased o0 o1 m = pushDataScaleCovAliased o0 o1 1 m := by
  unfold pushDataCovAliased pushDataScaleCovAliased
  simp only [mul_one]

namespace Objects

/-! ### the moment shapes -/

/-- Monomials of a moment shape. -/
abbrev Idx : Shape → Type
  | .one o => Fin (o + 1)
  | .two o0 o1 => Fin (o0 + 1) × Fin (o1 + 1)

def law : (s : Shape) → s.Ok → Lawful (kern (K := K) s) (Idx s)
  | .one o, h => lawful1 o h
  | .two o0 o1, h => lawful2 o0 o1 h.1 h.2

/-- Raw sums of a sample list. -/
def graw : (s : Shape) → List (Samp K s) → Idx s → K
  | .one _, L => fun n => wsum L (fun x => x ^ (n : ℕ))
  | .two _ _, L => fun p => wsum2 L (fun x y => x ^ (p.1 : ℕ) * y ^ (p.2 : ℕ))

theorem holdsAt_iff {s : Shape} (hs : s.Ok) {L : List (Samp K s)} {m : s.Cell K} :
    HoldsAt s L m ↔ (law s hs).raw m = graw s L := by
  cases s with
  | one o => exact (holds_iff_raw hs).trans ⟨fun h => funext h, fun h => congrFun h⟩
  | two o0 o1 => exact (holds2_iff_raw hs.1 hs.2).trans ⟨fun h => funext h, fun h => congrFun h⟩

theorem graw_nil (s : Shape) : graw s ([] : List (Samp K s)) = 0 := by
  cases s <;> rfl

theorem graw_append (s : Shape) (L L' : List (Samp K s)) :
    graw s (L ++ L') = graw s L + graw s L' := by
  cases s with
  | one o => funext n; exact wsum_append L L' _
  | two o0 o1 => funext n; simp only [graw, Pi.add_apply]; exact wsum2_append L L' _

theorem graw_reweigh (s : Shape) (c : K) (L : List (Samp K s)) :
    graw s (L.map (reweigh c s)) = c • graw s L := by
  cases s with
  | one o =>
    funext n
    change wsum _ _ = c * wsum _ _
    induction L with
    | nil => simp [wsum_nil]
    | cons a L ih => rw [List.map_cons, wsum_cons, ih, wsum_cons]; simp only [reweigh]; ring
  | two o0 o1 =>
    funext n
    simp only [graw, Pi.smul_apply, smul_eq_mul]
    induction L with
    | nil => simp [wsum2_nil]
    | cons a L ih => rw [List.map_cons, wsum2_cons, ih, wsum2_cons]; simp only [reweigh]; ring

theorem graw_sample {s : Shape} (hs : s.Ok) (x : K) (ys : List K) (w : K) :
    graw s [sampleOf s x ys w] = w • (law s hs).vraw (valOf s x ys) := by
  cases s with
  | one o =>
    funext n
    change wsum _ _ = w * (_ : K)
    rw [wsum_cons, wsum_nil, add_zero]; rfl
  | two o0 o1 =>
    funext n
    simp only [graw, Pi.smul_apply, smul_eq_mul]
    rw [wsum2_cons, wsum2_nil, add_zero]; rfl

theorem holdsAt_weight {s : Shape} (hs : s.Ok) {L : List (Samp K s)} {m : s.Cell K}
    (h : HoldsAt s L m) : (kern (K := K) s).weight m = sweight s L := by
  have e := congrFun ((holdsAt_iff hs).1 h) (law (K := K) s hs).i0
  rw [(law s hs).raw_i0] at e
  rw [e]
  cases s with
  | one o => simp [graw, law, lawful1, wsum_one, sweight]
  | two o0 o1 => simp [graw, law, lawful2, wsum2_one, sweight]

theorem sweight_append (s : Shape) (L L' : List (Samp K s)) :
    sweight s (L ++ L') = sweight s L + sweight s L' := by
  cases s with
  | one o => exact weight_append L L'
  | two o0 o1 => exact weight2_append L L'

/-! ### pushers -/

theorem pusher_eq {s : Shape} (hs : s.Ok) (scale : Option K) (d o : s.Cell K) :
    pusher s scale d o = (kern s).pushScale d (scale.getD 1) o := by
  cases scale with
  | none => exact (law s hs).data_eq d o
  | some c => rfl

theorem aliased_eq {s : Shape} (hs : s.Ok) (scale : Option K) (m : s.Cell K) :
    aliased s scale m = pusher s scale m m := by
  cases s with
  | one o =>
    cases scale with
    | none =>
      rw [pusher_eq hs]
      exact (pushDataAliased_eq_scale o m).trans (pushDataScaleAliased_eq o hs 1 m)
    | some c => exact pushDataScaleAliased_eq o hs c m
  | two o0 o1 =>
    cases scale with
    | none =>
      rw [pusher_eq hs]
      exact (pushDataCovAliased_eq_scale o0 o1 m).trans (pushDataScaleCovAliased_eq hs.1 hs.2 1 m)
    | some c => exact pushDataScaleCovAliased_eq hs.1 hs.2 c m

/-! ### loops over positions -/

/-- What position `d` becomes when the cells `srcs` of `m` are pushed into `o`. -/
def rowRes (s : Shape) (c : K) (m : ℕ → s.Cell K) (srcs : List ℕ) (o : s.Cell K) :
    Option (s.Cell K) :=
  Lawful.foldScale (kern s) (srcs.map fun a => (c, m a)) o

theorem rowRes_nil (s : Shape) (c : K) (m : ℕ → s.Cell K) (o : s.Cell K) :
    rowRes s c m [] o = some o := rfl

theorem rowRes_cons (s : Shape) (c : K) (m : ℕ → s.Cell K) (a : ℕ) (srcs : List ℕ)
    (o : s.Cell K) :
    rowRes s c m (a :: srcs) o = ((kern s).pushScale (m a) c o).bind (rowRes s c m srcs) := rfl

theorem pushRow_eq {s : Shape} (hs : s.Ok) (buf : Bool) (scale : Option K) (m : ℕ → s.Cell K)
    (d : ℕ) (srcs : List ℕ) (cur : ℕ → s.Cell K)
    (hsrc : buf = true ∨ ((∀ a ∈ srcs, cur a = m a) ∧ (d ∉ srcs ∨ srcs = [d]))) :
    (srcs.foldlM (fun cur src => do
      let r ← if buf then pusher s scale (m src) (cur d)
        else if src = d then aliased s scale (cur d)
        else pusher s scale (cur src) (cur d)
      some (Function.update cur d r)) cur) =
    (rowRes s (scale.getD 1) m srcs (cur d)).map (Function.update cur d) := by
  by_cases hb : buf = true
  · clear hsrc
    simp only [hb, if_true]
    induction srcs generalizing cur with
    | nil => simp [rowRes_nil]
    | cons a srcs ih =>
      rw [List.foldlM_cons, rowRes_cons, ← pusher_eq hs]
      cases h : pusher s scale (m a) (cur d) with
      | none => rfl
      | some r =>
        simp only [Option.bind_eq_bind, Option.bind_some]
        simp only [Option.bind_eq_bind] at ih
        rw [ih]
        rw [Function.update_self]
        exact congrArg (Option.map · _) (funext fun r' => Function.update_idem (β := fun _ => s.Cell K) r r' cur)
  · obtain ⟨hm, hd⟩ := hsrc.resolve_left hb
    simp only [hb, if_false, Bool.false_eq_true]
    rcases hd with hd | rfl
    · induction srcs generalizing cur with
      | nil => simp [rowRes_nil]
      | cons a srcs ih =>
        rw [List.mem_cons, not_or] at hd
        have hne : a ≠ d := fun e => hd.1 e.symm
        rw [List.foldlM_cons, rowRes_cons, ← pusher_eq hs, if_neg hne, hm a List.mem_cons_self]
        cases h : pusher s scale (m a) (cur d) with
        | none => rfl
        | some r =>
          simp only [Option.bind_eq_bind, Option.bind_some]
          simp only [Option.bind_eq_bind] at ih
          rw [ih (Function.update cur d r)
            (Or.inr ⟨fun b hb' => ?_, Or.inl hd.2⟩) (fun b hb' => ?_) hd.2]
          · rw [Function.update_self]
            exact congrArg (Option.map · _) (funext fun r' => Function.update_idem (β := fun _ => s.Cell K) r r' cur)
          · have : b ≠ d := fun e => hd.2 (e ▸ hb')
            rw [Function.update_of_ne this]
            exact hm b (List.mem_cons_of_mem _ hb')
          · have : b ≠ d := fun e => hd.2 (e ▸ hb')
            rw [Function.update_of_ne this]
            exact hm b (List.mem_cons_of_mem _ hb')
    · rw [List.foldlM_cons, if_pos rfl, aliased_eq hs, rowRes_cons, ← pusher_eq hs,
        hm d (List.mem_singleton.2 rfl)]
      cases h : pusher s scale (m d) (m d) <;> rfl

/-- The rows write distinct cells and read none that another row writes. -/
structure RowsOk (buf : Bool) (rows : List (ℕ × List ℕ)) : Prop where
  nodup : (rows.map Prod.fst).Nodup
  apart : buf = true ∨ ((∀ r ∈ rows, ∀ r' ∈ rows, r.1 ∈ r'.2 → r.1 = r'.1) ∧
    ∀ r ∈ rows, r.1 ∉ r.2 ∨ r.2 = [r.1])

theorem foldlM_rows {s : Shape} {β : Type} (res : β → s.Cell K → Option (s.Cell K))
    (f : (ℕ → s.Cell K) → ℕ × β → Option (ℕ → s.Cell K))
    (P : List (ℕ × β) → (ℕ → s.Cell K) → Prop)
    (hf : ∀ row rows cur, P (row :: rows) cur →
      f cur row = (res row.2 (cur row.1)).map (Function.update cur row.1) ∧
      ∀ r, P rows (Function.update cur row.1 r))
    (rows : List (ℕ × β)) (hn : (rows.map Prod.fst).Nodup) (cur : ℕ → s.Cell K)
    (hP : P rows cur) :
    (rows.foldlM f cur = none ↔ ∃ row ∈ rows, res row.2 (cur row.1) = none) ∧
    ∀ m', rows.foldlM f cur = some m' →
      (∀ row ∈ rows, res row.2 (cur row.1) = some (m' row.1)) ∧
      ∀ a, a ∉ rows.map Prod.fst → m' a = cur a := by
  induction rows generalizing cur with
  | nil =>
    simp only [List.foldlM_nil]
    exact ⟨by simp, fun m' h => by cases h; simp⟩
  | cons row rows ih =>
    rw [List.map_cons, List.nodup_cons] at hn
    obtain ⟨e, hP'⟩ := hf row rows cur hP
    rw [List.foldlM_cons, e]
    cases h : res row.2 (cur row.1) with
    | none =>
      refine ⟨by simp [h], fun m' h' => by simp at h'⟩
    | some r =>
      obtain ⟨ih1, ih2⟩ := ih hn.2 (Function.update cur row.1 r) (hP' r)
      have hne : ∀ q ∈ rows, q.1 ≠ row.1 := by
        intro q hq e
        exact hn.1 (e ▸ List.mem_map.2 ⟨q, hq, rfl⟩)
      change (rows.foldlM f (Function.update cur row.1 r) = none ↔ _) ∧
        ∀ m', rows.foldlM f (Function.update cur row.1 r) = some m' → _
      constructor
      · rw [ih1]
        constructor
        · rintro ⟨q, hq, hr⟩
          rw [Function.update_of_ne (hne q hq)] at hr
          exact ⟨q, List.mem_cons_of_mem _ hq, hr⟩
        · rintro ⟨q, hq, hr⟩
          rcases List.mem_cons.1 hq with rfl | hq
          · rw [h] at hr; cases hr
          · exact ⟨q, hq, by rw [Function.update_of_ne (hne q hq)]; exact hr⟩
      · intro m' hm'
        obtain ⟨h1, h2⟩ := ih2 m' hm'
        constructor
        · intro q hq
          rcases List.mem_cons.1 hq with rfl | hq
          · rw [h2 _ hn.1, Function.update_self, h]
          · have := h1 q hq
            rw [Function.update_of_ne (hne q hq)] at this
            exact this
        · intro a ha
          rw [List.map_cons, List.mem_cons, not_or] at ha
          rw [h2 a ha.2, Function.update_of_ne ha.1]

theorem pushRows_spec {s : Shape} (hs : s.Ok) (buf : Bool) (scale : Option K)
    (rows : List (ℕ × List ℕ)) (hr : RowsOk buf rows) (m : ℕ → s.Cell K) :
    (pushRows buf s scale rows m = none ↔
      ∃ row ∈ rows, rowRes s (scale.getD 1) m row.2 (m row.1) = none) ∧
    ∀ m', pushRows buf s scale rows m = some m' →
      (∀ row ∈ rows, rowRes s (scale.getD 1) m row.2 (m row.1) = some (m' row.1)) ∧
      ∀ a, a ∉ rows.map Prod.fst → m' a = m a := by
  unfold pushRows
  refine foldlM_rows (fun srcs o => rowRes s (scale.getD 1) m srcs o) _
    (fun rows cur => RowsOk buf rows ∧ (buf = true ∨ ∀ r ∈ rows, ∀ a ∈ r.2, cur a = m a)) ?_
    rows hr.nodup m ⟨hr, Or.inr fun _ _ _ _ => rfl⟩
  rintro row rows cur ⟨hr, hc⟩
  have hnd := hr.nodup
  rw [List.map_cons, List.nodup_cons] at hnd
  refine ⟨?_, fun r => ⟨⟨hnd.2, ?_⟩, ?_⟩⟩
  · refine pushRow_eq hs buf scale m row.1 row.2 cur ?_
    rcases hc with hb | hc
    · exact Or.inl hb
    · rcases hr.apart with hb | ⟨-, h2⟩
      · exact Or.inl hb
      · exact Or.inr ⟨hc row List.mem_cons_self, h2 row List.mem_cons_self⟩
  · rcases hr.apart with hb | ⟨h1, h2⟩
    · exact Or.inl hb
    · exact Or.inr ⟨fun r hr r' hr' => h1 r (List.mem_cons_of_mem _ hr) r' (List.mem_cons_of_mem _ hr'),
        fun r hr => h2 r (List.mem_cons_of_mem _ hr)⟩
  · rcases hc with hb | hc
    · exact Or.inl hb
    · rcases hr.apart with hb | ⟨h1, h2⟩
      · exact Or.inl hb
      · refine Or.inr fun q hq a ha => ?_
        have : a ≠ row.1 := by
          rintro rfl
          have e := h1 row List.mem_cons_self q (List.mem_cons_of_mem _ hq) ha
          exact hnd.1 (e ▸ List.mem_map.2 ⟨q, hq, rfl⟩)
        rw [Function.update_of_ne this]
        exact hc q (List.mem_cons_of_mem _ hq) a ha

theorem pushSamples_spec {s : Shape} (rows : List (ℕ × List (s.Val K × K)))
    (hn : (rows.map Prod.fst).Nodup) (m : ℕ → s.Cell K) :
    (pushSamples s rows m = none ↔ ∃ row ∈ rows, (kern s).reduceVals row.2 (m row.1) = none) ∧
    ∀ m', pushSamples s rows m = some m' →
      (∀ row ∈ rows, (kern s).reduceVals row.2 (m row.1) = some (m' row.1)) ∧
      ∀ a, a ∉ rows.map Prod.fst → m' a = m a := by
  unfold pushSamples
  refine foldlM_rows (fun xs o => (kern s).reduceVals xs o) _ (fun _ _ => True) ?_ rows hn m trivial
  intro row rows cur _
  refine ⟨?_, fun _ => trivial⟩
  cases (kern s).reduceVals row.2 (cur row.1) <;> rfl

/-! ### refinement of one position -/

theorem graw_i0 {s : Shape} (hs : s.Ok) (L : List (Samp K s)) :
    graw s L (law (K := K) s hs).i0 = sweight s L := by
  cases s with
  | one o => simp [graw, law, lawful1, wsum_one, sweight]
  | two o0 o1 => simp [graw, law, lawful2, wsum2_one, sweight]

theorem reweigh_one (s : Shape) (L : List (Samp K s)) : L.map (reweigh 1 s) = L := by
  conv_rhs => rw [← List.map_id L]
  congr 1
  funext a
  cases s <;> simp [reweigh]

/-- Scaled data and the samples it stands for. -/
def Piece {s : Shape} (hs : s.Ok) (q : K × s.Cell K) (P : List (Samp K s)) : Prop :=
  q.1 • (law s hs).raw q.2 = graw s P

theorem Piece.weight {s : Shape} {hs : s.Ok} {q : K × s.Cell K} {P : List (Samp K s)}
    (h : Piece hs q P) : (kern s).weight q.2 * q.1 = sweight s P := by
  have := congrFun h (law (K := K) s hs).i0
  rw [graw_i0, Pi.smul_apply, (law s hs).raw_i0, smul_eq_mul] at this
  rw [← this, mul_comm]

theorem piece_of_holds {s : Shape} (hs : s.Ok) (c : K) {m : s.Cell K} {L : List (Samp K s)}
    (h : HoldsAt s L m) : Piece hs (c, m) (L.map (reweigh c s)) := by
  unfold Piece
  rw [graw_reweigh, (holdsAt_iff hs).1 h]

theorem piece_of_val {s : Shape} (hs : s.Ok) (x : K) (ys : List K) (w : K) :
    Piece hs (1, (kern s).ofVal (valOf s x ys) w) [sampleOf s x ys w] := by
  unfold Piece
  rw [graw_sample hs, one_smul, (law s hs).raw_ofVal]

theorem pieces_rtot {s : Shape} {hs : s.Ok} {l : List (K × s.Cell K)} {Ps : List (List (Samp K s))}
    (h : List.Forall₂ (Piece hs) l Ps) : (law s hs).rtot l = graw s Ps.flatten := by
  induction h with
  | nil => rw [List.flatten_nil, graw_nil]; rfl
  | cons h _ ih => rw [Lawful.rtot_cons, List.flatten_cons, graw_append, ih, h]

theorem pieces_wtot {s : Shape} {hs : s.Ok} {l : List (K × s.Cell K)} {Ps : List (List (Samp K s))}
    (h : List.Forall₂ (Piece hs) l Ps) :
    Lawful.wtot (kern s) l = sweight s Ps.flatten := by
  rw [← graw_i0 hs, ← pieces_rtot h, Lawful.rtot_i0]

theorem fold_none_iff {s : Shape} {hs : s.Ok} {l : List (K × s.Cell K)}
    {Ps : List (List (Samp K s))} (h : List.Forall₂ (Piece hs) l Ps) {L : List (Samp K s)}
    {o : s.Cell K} (ho : HoldsAt s L o) :
    Lawful.foldScale (kern s) l o = none ↔ Cancels s L Ps := by
  rw [(law s hs).foldScale_eq_none_iff, holdsAt_weight hs ho]
  constructor
  · rintro ⟨pre, q, post, rfl, hq, hz⟩
    obtain ⟨Ppre, Prest, h1, h2, rfl⟩ : ∃ Ppre Prest, List.Forall₂ (Piece hs) pre Ppre ∧
        List.Forall₂ (Piece hs) (q :: post) Prest ∧ Ps = Ppre ++ Prest :=
      ⟨_, _, (List.forall₂_take_append _ _ _ h.flip).flip, (List.forall₂_drop_append _ _ _ h.flip).flip,
        (List.take_append_drop _ _).symm⟩
    cases h2 with
    | cons hp h2 =>
      rename_i P Ppost
      refine ⟨Ppre, P, Ppost, rfl, hp.weight ▸ hq, ?_⟩
      rw [Lawful.wtot_append, pieces_wtot h1] at hz
      rw [sweight_append, sweight_append, ← hp.weight]
      simpa [Lawful.wtot, add_assoc] using hz
  · rintro ⟨Ppre, P, Ppost, rfl, hq, hz⟩
    obtain ⟨pre, rest, h1, h2, rfl⟩ : ∃ pre rest, List.Forall₂ (Piece hs) pre Ppre ∧
        List.Forall₂ (Piece hs) rest (P :: Ppost) ∧ l = pre ++ rest :=
      ⟨_, _, List.forall₂_take_append _ _ _ h, List.forall₂_drop_append _ _ _ h,
        (List.take_append_drop _ _).symm⟩
    cases h2 with
    | cons hp h2 =>
      rename_i q post
      refine ⟨pre, q, post, rfl, by rw [hp.weight]; exact hq, ?_⟩
      rw [sweight_append, sweight_append, ← hp.weight] at hz
      rw [Lawful.wtot_append, pieces_wtot h1]
      simpa [Lawful.wtot, add_assoc] using hz

theorem fold_holds {s : Shape} {hs : s.Ok} {l : List (K × s.Cell K)}
    {Ps : List (List (Samp K s))} (h : List.Forall₂ (Piece hs) l Ps) {L : List (Samp K s)}
    {o r : s.Cell K} (ho : HoldsAt s L o) (e : Lawful.foldScale (kern s) l o = some r) :
    HoldsAt s (L ++ Ps.flatten) r := by
  rw [holdsAt_iff hs, (law s hs).foldScale_raw e, graw_append, pieces_rtot h,
    (holdsAt_iff hs).1 ho]

theorem holds_zero {s : Shape} (hs : s.Ok) : HoldsAt (K := K) s [] (kern s).zero := by
  rw [holdsAt_iff hs, (law s hs).raw_zero, graw_nil]

theorem holds_mul {s : Shape} (hs : s.Ok) (c : K) {m : s.Cell K} {L : List (Samp K s)}
    (h : HoldsAt s L m) : HoldsAt s (L.map (reweigh c s)) ((kern s).mulWeight m c) := by
  rw [holdsAt_iff hs, (law s hs).raw_mul, graw_reweigh, (holdsAt_iff hs).1 h]

/-! ### positions -/

theorem zip_eq_range {α : Type} (l : List ℕ) (l' : List α) (d : α) (h : l'.length = l.length) :
    l.zip l' = (List.range l.length).map fun p => (l.getD p 0, l'.getD p d) := by
  apply List.ext_getElem
  · simp [h]
  · intro i h1 h2
    simp only [List.length_zip, h, min_self] at h1
    simp [List.getElem_zip, List.getD_eq_getElem, h1, h]

theorem rowsAt_fst {α : Type} (l : List ℕ) (f : ℕ → α) :
    ((List.range l.length).map fun p => (l.getD p 0, f p)).map Prod.fst = l := by
  apply List.ext_getElem
  · simp
  · intro i h1 h2
    simp [List.getD_eq_getElem, h2]

theorem idxOf_getD {l : List ℕ} (hn : l.Nodup) {p : ℕ} (hp : p < l.length) :
    l.idxOf (l.getD p 0) = p := by
  rw [List.getD_eq_getElem _ _ hp]
  exact hn.idxOf_getElem p hp

theorem getD_idxOf {l : List ℕ} {c : ℕ} (hc : c ∈ l) : l.getD (l.idxOf c) 0 = c := by
  rw [List.getD_eq_getElem _ _ (List.idxOf_lt_length_iff.2 hc)]
  exact List.getElem_idxOf _

theorem getD_mem {l : List ℕ} {p : ℕ} (hp : p < l.length) : l.getD p 0 ∈ l := by
  rw [List.getD_eq_getElem _ _ hp]; exact List.getElem_mem hp

theorem spread_eq_none_iff {α : Type} (n : ℕ) (l : List α) :
    spread n l = none ↔ ¬ Fits n l.length := by
  unfold spread Fits
  by_cases h : l.length = n
  · simp [h]
  · rw [if_neg h]
    rcases l with _ | ⟨a, _ | ⟨b, l⟩⟩ <;> simp [h] <;> simpa using h

theorem spread_some {α : Type} {n : ℕ} {l l' : List α} (h : spread n l = some l') (d : α) :
    l'.length = n ∧ ∀ p < n, l'.getD p d = pick l p d := by
  unfold spread at h
  unfold pick
  by_cases hl : l.length = n
  · rw [if_pos hl] at h
    cases h
    refine ⟨hl, fun p hp => ?_⟩
    split_ifs with h1
    · rcases l with _ | ⟨a, _ | ⟨b, l⟩⟩ <;> simp at h1
      have : p = 0 := by simp at hl; omega
      subst this; rfl
    · rfl
  · rw [if_neg hl] at h
    rcases l with _ | ⟨a, _ | ⟨b, l⟩⟩ <;> simp at h
    subst h
    refine ⟨by simp, fun p hp => ?_⟩
    simp [List.getD_eq_getElem, hp]

end Objects

end Cmomy
