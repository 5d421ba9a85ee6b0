import Verif.Model.Grouped
import Verif.Spec.Grouped
import Verif.Lemmas.Resample
import Mathlib.Data.List.Perm.Basic

/-!
# Grouped and indexed reduction: generic part
-/

set_option linter.unusedSectionVars false

namespace Cmomy

open Spec

variable {K V M ι : Type*} [Field K]

section

variable [DecidableEq K] (k : Kernel K V M)

theorem length_groupedFold (ps : List (ℤ × M)) (out : List (Option M)) :
    (ps.foldl k.groupedStep out).length = out.length := by
  induction ps generalizing out with
  | nil => rfl
  | cons p ps ih =>
    rw [List.foldl_cons, ih]
    unfold Kernel.groupedStep
    split_ifs <;> simp

theorem getElem?_groupedFold (ps : List (ℤ × M)) (out : List (Option M)) (g : ℕ) :
    (ps.foldl k.groupedStep out)[g]? = (out[g]?).map (fun o => o.bind (fun m =>
      k.reduceData (ps.filterMap (fun p => if p.1 = (g : ℤ) then some p.2 else none)) m)) := by
  induction ps generalizing out with
  | nil =>
    simp only [List.foldl_nil, List.filterMap_nil]
    cases out[g]? with
    | none => rfl
    | some o => cases o <;> rfl
  | cons p ps ih =>
    rw [List.foldl_cons, ih]
    obtain ⟨l, d⟩ := p
    unfold Kernel.groupedStep
    by_cases hl : 0 ≤ l
    · rw [if_pos hl, List.getElem?_modify]
      by_cases hg : l = (g : ℤ)
      · subst hg
        simp only [Int.toNat_natCast, if_true, List.filterMap_cons]
        cases out[g]? with
        | none => rfl
        | some o =>
          cases o with
          | none => rfl
          | some m => rfl
      · have : l.toNat ≠ g := by omega
        simp [this, hg]
    · have hg : l ≠ (g : ℤ) := by omega
      simp [hl, hg]

theorem max?_le {l : List ℤ} {m : ℤ} (e : l.max? = some m) : ∀ x ∈ l, x ≤ m :=
  fun x hx => (List.max?_le_iff e (x := m)).1 le_rfl x hx

theorem max?_mem {l : List ℤ} {m : ℤ} (e : l.max? = some m) : m ∈ l :=
  List.max?_mem e

/-- The grouped kernel, row by row. -/
theorem groupedKernel_rows (data : List M) (by_ : List ℤ) (n : ℕ) {m : ℤ}
    (hm : by_.max? = some m) (hn : m < n) :
    k.groupedKernel data by_ (List.replicate n (some k.zero)) =
      .ok ((List.range n).map (fun g : ℕ => k.reduceDataFromZero (groupRows g by_ data))) := by
  unfold Kernel.groupedKernel
  rw [hm]
  simp only [List.length_replicate, hn, if_true]
  congr 1
  apply List.ext_getElem?
  intro g
  rw [getElem?_groupedFold]
  by_cases hg : g < n
  · rw [List.getElem?_replicate, if_pos hg, List.getElem?_map, List.getElem?_range hg]
    rfl
  · rw [List.getElem?_replicate, if_neg hg, List.getElem?_eq_none (by simpa using hg)]
    rfl

end

namespace Indexed

theorem readAt_ok {α : Type*} {arr : List α} {i : ℤ} {a : α} :
    readAt arr i = .ok a ↔ 0 ≤ i ∧ arr[i.toNat]? = some a := by
  unfold readAt
  by_cases hi : 0 ≤ i
  · rw [if_pos hi]
    cases arr[i.toNat]? with
    | none => simp
    | some b => simp [hi]
  · rw [if_neg hi]
    simp [hi]

theorem readAt_nat {α : Type*} {arr : List α} {i : ℕ} (h : i < arr.length) :
    readAt arr (i : ℤ) = .ok arr[i] :=
  readAt_ok.2 ⟨by omega, by simp [h]⟩

section

variable [DecidableEq K] (k : Kernel K V M)

/-- Copy the first row, push the rest. -/
def copyFold : List (K × M) → Option M
  | [] => some k.zero
  | (f, d) :: rest => Lawful.foldScale k rest (k.mulWeight d f)

theorem copyFold_nil : copyFold k [] = some k.zero := rfl

theorem foldlM_rowStep (data : List M) (index : List ℤ) (scale : List K)
    (hs : scale.length = index.length) (hi : ∀ i ∈ index, 0 ≤ i ∧ i < data.length)
    (a : ℕ) (n : ℕ) (hn : a + n ≤ index.length) (o : Option M) :
    (List.range n).foldlM (fun o (j : ℕ) => rowStep k data index scale o ((a : ℤ) + j)) o =
      .ok (o.bind (Lawful.foldScale k (selectScaled data index scale a (a + n : ℕ)))) := by
  induction n generalizing a o with
  | zero =>
    cases o <;> simp [selectScaled, slice, Lawful.foldScale_nil] <;> rfl
  | succ n ih =>
    have ha : a < index.length := by omega
    have hia := hi index[a] (List.getElem_mem ha)
    rw [List.range_succ_eq_map, List.foldlM_cons]
    have hd : index[a].toNat < data.length := by omega
    have h1 : rowStep k data index scale o ((a : ℤ) + (0 : ℕ)) =
        .ok (o.bind (k.pushScale data[index[a].toNat] (scale[a]'(by omega)))) := by
      unfold rowStep
      simp only [Nat.cast_zero, add_zero]
      rw [readAt_nat ha, readAt_nat (by omega : a < scale.length)]
      simp only [Except.bind]
      rw [readAt_ok.2 ⟨hia.1, List.getElem?_eq_getElem hd⟩]
    rw [h1]
    have h2 := ih (a + 1) (by omega) (o.bind (k.pushScale data[index[a].toNat] (scale[a]'(by omega))))
    have h3 : (fun o (j : ℕ) => rowStep k data index scale o ((a : ℤ) + (j.succ : ℕ))) =
        (fun o (j : ℕ) => rowStep k data index scale o (((a + 1 : ℕ) : ℤ) + j)) := by
      funext o j
      congr 1
      push_cast
      omega
    have h4 : selectScaled data index scale a (a + (n + 1) : ℕ) =
        (scale[a]'(by omega), data[index[a].toNat]) ::
          selectScaled data index scale (a + 1 : ℕ) (a + 1 + n : ℕ) := by
      unfold selectScaled slice
      simp only [Int.toNat_natCast]
      have : (((index.zip scale).take (a + (n + 1))).drop a) =
          (index[a], scale[a]'(by omega)) ::
            (((index.zip scale).take (a + 1 + n)).drop (a + 1)) := by
        rw [show a + (n + 1) = a + 1 + n by omega]
        rw [List.drop_eq_getElem_cons (by simp; omega)]
        simp
      rw [this, List.filterMap_cons]
      simp [hd]
    rw [h4]
    show ((List.range n).map Nat.succ).foldlM _ _ = _
    rw [List.foldlM_map]
    show (List.range n).foldlM (fun o (j : ℕ) => rowStep k data index scale o ((a : ℤ) + (j.succ : ℕ))) _ = _
    rw [h3, h2]
    cases o with
    | none => rfl
    | some o => rfl

/-- One row of the indexed kernel, for tables in range. -/
theorem row_eq (data : List M) (index : List ℤ) (scale : List K)
    (hs : scale.length = index.length) (hi : ∀ i ∈ index, 0 ≤ i ∧ i < data.length)
    {a b : ℤ} (ha : 0 ≤ a) (hab : a ≤ b) (hb : b ≤ index.length) :
    row k data index scale a b = .ok (copyFold k (selectScaled data index scale a b)) := by
  obtain ⟨a, rfl⟩ := Int.eq_ofNat_of_zero_le ha
  obtain ⟨b, rfl⟩ := Int.eq_ofNat_of_zero_le (le_trans ha hab)
  unfold row
  by_cases hlt : (a : ℤ) < b
  · rw [if_pos hlt]
    have ha' : a < index.length := by omega
    have hia := hi index[a] (List.getElem_mem ha')
    have hd : index[a].toNat < data.length := by omega
    rw [readAt_nat ha', readAt_nat (by omega : a < scale.length)]
    simp only [Except.bind]
    rw [readAt_ok.2 ⟨hia.1, List.getElem?_eq_getElem hd⟩]
    simp only
    obtain ⟨n, rfl⟩ : ∃ n, b = a + (n + 1) := ⟨b - a - 1, by omega⟩
    have e := foldlM_rowStep k data index scale hs hi (a + 1) n (by omega)
      (some (k.mulWeight data[index[a].toNat] (scale[a]'(by omega))))
    have hn : (((a + (n + 1) : ℕ) : ℤ) - ((a : ℤ) + 1)).toNat = n := by omega
    rw [hn]
    push_cast at e ⊢
    rw [e]
    have h4 : selectScaled data index scale (a : ℤ) ((a : ℤ) + ((n : ℤ) + 1)) =
        (scale[a]'(by omega), data[index[a].toNat]) ::
          selectScaled data index scale ((a : ℤ) + 1) ((a : ℤ) + 1 + n) := by
      unfold selectScaled slice
      have e1 : ((a : ℤ) + ((n : ℤ) + 1)).toNat = a + 1 + n := by omega
      have e2 : ((a : ℤ) + 1).toNat = a + 1 := by omega
      have e3 : ((a : ℤ) + 1 + n).toNat = a + 1 + n := by omega
      rw [e1, e2, e3, Int.toNat_natCast]
      have : (((index.zip scale).take (a + 1 + n)).drop a) =
          (index[a], scale[a]'(by omega)) ::
            (((index.zip scale).take (a + 1 + n)).drop (a + 1)) := by
        rw [List.drop_eq_getElem_cons (by simp; omega)]
        simp
      rw [this, List.filterMap_cons]
      simp [hd]
    rw [h4]
    rfl
  · rw [if_neg hlt]
    have : a = b := by omega
    subst this
    unfold selectScaled slice
    simp only [Int.toNat_natCast]
    rw [List.drop_eq_nil_of_le (by simp)]
    rfl

theorem mapM_ok {α β : Type*} {f : α → Py β} {g : α → β} (l : List α)
    (h : ∀ a ∈ l, f a = .ok (g a)) : l.mapM f = .ok (l.map g) := by
  induction l with
  | nil => rfl
  | cons a l ih =>
    rw [List.mapM_cons, h a List.mem_cons_self, ih (fun b hb => h b (List.mem_cons_of_mem _ hb))]
    rfl

/-- A table the kernel can run on without leaving its arrays. -/
structure Accepted (ndat : ℕ) (index start stop : List ℤ) : Prop where
  len : start.length = stop.length
  idx : ∀ i ∈ index, 0 ≤ i ∧ i < ndat
  grp : ∀ p ∈ start.zip stop, 0 ≤ p.1 ∧ p.1 ≤ p.2 ∧ p.2 ≤ index.length

theorem kernel_eq (data : List M) (index : List ℤ) (scale : List K) (start stop : List ℤ)
    (hs : scale.length = index.length) (ha : Accepted data.length index start stop) :
    kernel k data index scale start stop = .ok ((start.zip stop).map
      (fun p => copyFold k (selectScaled data index scale p.1 p.2))) := by
  unfold kernel
  refine mapM_ok _ fun p hp => ?_
  have := ha.grp p hp
  exact row_eq k data index scale hs ha.idx this.1 this.2.1 this.2.2

end

theorem min?_le {l : List ℤ} {m : ℤ} (e : l.min? = some m) : ∀ x ∈ l, m ≤ x :=
  fun x hx => (List.le_min?_iff e (x := m)).1 le_rfl x hx

theorem validateRange_iff (xs : List ℤ) (upper : ℤ) :
    validateRange xs upper = .ok () ↔ xs ≠ [] ∧ ∀ x ∈ xs, 0 ≤ x ∧ x < upper := by
  unfold validateRange
  cases hlo : xs.min? with
  | none =>
    have : xs = [] := by simpa using hlo
    simp [this]
  | some lo =>
    cases hhi : xs.max? with
    | none =>
      have : xs = [] := by simpa using hhi
      simp [this]
    | some hi =>
      have hne : xs ≠ [] := by
        rintro rfl; simp at hlo
      simp only
      have hlom : lo ∈ xs := List.min?_mem hlo
      have hhim : hi ∈ xs := max?_mem hhi
      by_cases h1 : lo < 0
      · simp only [h1, if_true, reduceCtorEq, false_iff, not_and]
        intro _ h
        have := h lo hlom
        omega
      · by_cases h2 : upper ≤ hi
        · simp only [h1, h2, if_true, if_false, reduceCtorEq, false_iff, not_and]
          intro _ h
          have := h hi hhim
          omega
        · simp only [h1, h2, if_false, true_iff]
          refine ⟨hne, fun x hx => ?_⟩
          have := min?_le hlo x hx
          have := max?_le hhi x hx
          omega

theorem validateRange_error {xs : List ℤ} {upper : ℤ} (h : validateRange xs upper ≠ .ok ()) :
    validateRange xs upper = .error .valueError := by
  unfold validateRange at h ⊢
  cases hlo : xs.min? with
  | none => rfl
  | some lo =>
    cases hhi : xs.max? with
    | none => rfl
    | some hi =>
      rw [hlo, hhi] at h
      simp only at h ⊢
      split_ifs at h ⊢ <;> first | rfl | exact absurd rfl h

end Indexed

end Cmomy
