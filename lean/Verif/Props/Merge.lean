import Verif.Lemmas.Tree
import Verif.Lemmas.Order
import Verif.Props.Accumulate

/-!
# C04, C06, C07, C08, C12, C13, C17, C18: the algebra of pushes
-/

namespace Cmomy

open Spec

section field

variable {K : Type*} [Field K] [DecidableEq K] [CharZero K]

/-- **C06.** Adding `B` to `A` and subtracting it again restores every entry of `A`. -/
theorem C06_subtract_undoes_add {order : ℕ} (ho : 1 ≤ order) (A B : Mom K) (hA : A 0 ≠ 0)
    (hAB : A 0 + B 0 ≠ 0) :
    ∃ C R, pushData order B A = some C ∧ pushDataScale order B (-1) C = some R ∧
      EqUpTo order R A := by
  obtain ⟨C, R, h1, h2, h3⟩ := (lawful1 (K := K) order ho).push_unpush A B hA hAB
  exact ⟨C, R, h1, h2, (eqv1_iff ho).1 h3⟩

/-- **C06**, comoments. -/
theorem C06_subtract_undoes_add_cov {o0 o1 : ℕ} (h0 : 1 ≤ o0) (h1 : 1 ≤ o1) (A B : Com K)
    (hA : A 0 0 ≠ 0) (hAB : A 0 0 + B 0 0 ≠ 0) :
    ∃ C R, pushDataCov o0 o1 B A = some C ∧ pushDataScaleCov o0 o1 B (-1) C = some R ∧
      EqUpTo2 o0 o1 R A := by
  obtain ⟨C, R, e1, e2, e3⟩ := (lawful2 (K := K) o0 o1 h0 h1).push_unpush A B hA hAB
  exact ⟨C, R, e1, e2, (eqv2_iff h0 h1).1 e3⟩

/-- **C06**, the other way round: subtract, then add. -/
theorem C06_add_undoes_subtract {order : ℕ} (ho : 1 ≤ order) (A B : Mom K) (hA : A 0 ≠ 0)
    (hAB : A 0 - B 0 ≠ 0) :
    ∃ C R, pushDataScale order B (-1) A = some C ∧ pushData order B C = some R ∧
      EqUpTo order R A := by
  obtain ⟨C, R, h1, h2, h3⟩ := (lawful1 (K := K) order ho).unpush_push A B hA hAB
  exact ⟨C, R, h1, h2, (eqv1_iff ho).1 h3⟩

/-- **C06**, the other way round, comoments. -/
theorem C06_add_undoes_subtract_cov {o0 o1 : ℕ} (h0 : 1 ≤ o0) (h1 : 1 ≤ o1) (A B : Com K)
    (hA : A 0 0 ≠ 0) (hAB : A 0 0 - B 0 0 ≠ 0) :
    ∃ C R, pushDataScaleCov o0 o1 B (-1) A = some C ∧ pushDataCov o0 o1 B C = some R ∧
      EqUpTo2 o0 o1 R A := by
  obtain ⟨C, R, e1, e2, e3⟩ := (lawful2 (K := K) o0 o1 h0 h1).unpush_push A B hA hAB
  exact ⟨C, R, e1, e2, (eqv2_iff h0 h1).1 e3⟩

/-- **C07.** Pushing with a scale is pushing the array whose weight entry is multiplied by it. -/
theorem C07_scale_is_weight_multiple {order : ℕ} (ho : 1 ≤ order) (data out : Mom K) (s : K) :
    pushDataScale order data s out =
      pushData order (Function.update data 0 (data 0 * s)) out := by
  unfold pushDataScale pushData
  rw [Function.update_self]
  exact pushDataBody_congr_data order ho _ out
    (fun i hi => (Function.update_of_ne (by omega) _ _).symm)

/-- **C07**, comoments. -/
theorem C07_scale_is_weight_multiple_cov {o0 o1 : ℕ} (h0 : 1 ≤ o0) (h1 : 1 ≤ o1)
    (data out : Com K) (s : K) :
    pushDataScaleCov o0 o1 data s out =
      pushDataCov o0 o1 (fun i j => if i = 0 ∧ j = 0 then data 0 0 * s else data i j) out := by
  unfold pushDataScaleCov pushDataCov
  simp only [and_self, if_true]
  exact pushDataCovBody_congr_data o0 o1 h0 h1 _ out (fun i j hij => by simp [hij])

/-- **C07.** A scaled push of a single value is a push of the value with the product weight. -/
theorem C07_value_weight {order : ℕ} (ho : 1 ≤ order) (x w f : K) (out : Mom K) :
    pushVal order x (w * f) out =
      pushDataScale order (fun n => if n = 0 then w else if n = 1 then x else 0) f out := by
  have := (lawful1 (K := K) order ho).val_eq x w f out
  simp only [kernel1, valToData_eq] at this
  exact this

/-- **C08.** Entries `0..m` do not depend on the maximal order `n ≥ m`: one merge. -/
theorem C08_push_data_order {m n : ℕ} (hm : 1 ≤ m) (hmn : m ≤ n) (data out : Mom K) (s : K) :
    OptRel (EqUpTo m) (pushData m data out) (pushData n data out) ∧
    OptRel (EqUpTo m) (pushDataScale m data s out) (pushDataScale n data s out) :=
  ⟨pushDataBody_order hm hmn _ (fun _ _ _ => rfl) (fun _ _ => rfl),
    pushDataBody_order hm hmn _ (fun _ _ _ => rfl) (fun _ _ => rfl)⟩

/-- **C08.** Whole accumulations of values and of moment arrays. -/
theorem C08_reduce_order {m n : ℕ} (hm : 1 ≤ m) (hmn : m ≤ n) (xs : List (K × K))
    (data : List (Mom K)) (out : Mom K) :
    OptRel (EqUpTo m) ((kernel1 m).reduceVals xs out) ((kernel1 n).reduceVals xs out) ∧
    OptRel (EqUpTo m) ((kernel1 m).reduceData data out) ((kernel1 n).reduceData data out) := by
  constructor
  · refine OptRel.foldlM _ _ _ (fun a b hab p _ => ?_) out out (fun _ _ => rfl)
    simp only [kernel1, pushVal_eq_pushDataBody]
    exact pushDataBody_order hm hmn _ (fun _ _ _ => rfl) hab
  · refine OptRel.foldlM _ _ _ (fun a b hab p _ => ?_) out out (fun _ _ => rfl)
    exact pushDataBody_order hm hmn _ (fun _ _ _ => rfl) hab

/-- **C08**, comoments: identical entries in the common rectangle. -/
theorem C08_reduce_order_cov {m0 m1 n0 n1 : ℕ} (h0 : 1 ≤ m0) (h1 : 1 ≤ m1) (hn0 : m0 ≤ n0)
    (hn1 : m1 ≤ n1) (xs : List ((K × K) × K)) (data : List (Com K)) (out : Com K) :
    OptRel (EqUpTo2 m0 m1) ((kernel2 m0 m1).reduceVals xs out)
      ((kernel2 n0 n1).reduceVals xs out) ∧
    OptRel (EqUpTo2 m0 m1) ((kernel2 m0 m1).reduceData data out)
      ((kernel2 n0 n1).reduceData data out) := by
  constructor
  · refine OptRel.foldlM _ _ _ (fun a b hab p _ => ?_) out out (fun _ _ _ _ => rfl)
    simp only [kernel2, pushValCov_eq_pushDataCovBody]
    exact pushDataCovBody_order h0 h1 hn0 hn1 _ (fun _ _ _ _ _ => rfl) hab
  · refine OptRel.foldlM _ _ _ (fun a b hab p _ => ?_) out out (fun _ _ _ _ => rfl)
    exact pushDataCovBody_order h0 h1 hn0 hn1 _ (fun _ _ _ _ _ => rfl) hab

/-- **C12.** Pushing an array into itself doubles the weight and changes nothing else, both when
the operands are copied first (`pushData m m`) and when they share memory. -/
theorem C12_push_into_itself {order : ℕ} (ho : 1 ≤ order) (m : Mom K) (hm : m 0 ≠ 0) :
    pushDataAliased order m = some (Function.update m 0 (2 * m 0)) ∧
    ∃ r, pushData order m m = some r ∧
      EqUpTo order r (Function.update m 0 (2 * m 0)) := by
  refine ⟨by rw [two_mul]; exact pushDataAliased_eq order m hm, ?_⟩
  have hne : m 0 + m 0 ≠ 0 := by
    rw [← two_mul]
    exact mul_ne_zero (by exact_mod_cast (Nat.cast_ne_zero (R := K)).2 (by decide : 2 ≠ 0)) hm
  have e : pushData order m m = some (pushClosed order (m 0) m m) := by
    rw [pushData, pushDataBody_eq order ho, if_neg hm, if_neg hne]
  refine ⟨_, e, fun n hn => ?_⟩
  by_cases h0 : n = 0
  · subst h0; simp [pushClosed, two_mul]
  rw [Function.update_of_ne h0]
  by_cases h1 : n = 1
  · subst h1; simp [pushClosed]
  simp only [pushClosed, h0, h1, hn, if_true, if_false, sub_self]
  rw [← pushDataTmp_eq n (by omega), pushDataTmp_same n (by omega)]

/-- **C12**, comoments. -/
theorem C12_push_into_itself_cov {o0 o1 : ℕ} (h0 : 1 ≤ o0) (h1 : 1 ≤ o1) (m : Com K)
    (hm : m 0 0 ≠ 0) :
    pushDataCovAliased o0 o1 m =
      some (fun i j => if i = 0 ∧ j = 0 then 2 * m 0 0 else m i j) ∧
    ∃ r, pushDataCov o0 o1 m m = some r ∧
      EqUpTo2 o0 o1 r (fun i j => if i = 0 ∧ j = 0 then 2 * m 0 0 else m i j) := by
  constructor
  · rw [pushDataCovAliased_eq h0 h1 m hm]
    congr 1
    funext i j
    simp [setAt_apply, two_mul]
  have hne : m 0 0 + m 0 0 ≠ 0 := by
    rw [← two_mul]
    exact mul_ne_zero (by exact_mod_cast (Nat.cast_ne_zero (R := K)).2 (by decide : 2 ≠ 0)) hm
  have e : pushDataCov o0 o1 m m = some (pushClosed2 o0 o1 (m 0 0) m m) := by
    rw [pushDataCov, pushDataCovBody_eq o0 o1 h0 h1, if_neg hm, if_neg hne]
  refine ⟨_, e, fun i j hi hj => ?_⟩
  by_cases c0 : i = 0 ∧ j = 0
  · simp [pushClosed2, c0, two_mul]
  by_cases c1 : i = 1 ∧ j = 0
  · simp [pushClosed2, c1]
  by_cases c2 : i = 0 ∧ j = 1
  · simp [pushClosed2, c2]
  simp only [pushClosed2, c0, c1, c2, hi, hj, and_self, if_true, if_false, sub_self]
  rw [← pushDataCovTmp_eq, pushDataCovTmp_same _ _ (by omega)]

/-- **C13.** A push of order `order` depends only on entries `0..order` of data and accumulator:
changing any other entry changes nothing in entries `0..order` of the result. -/
theorem C13_reads_only_owned {order : ℕ} (ho : 1 ≤ order) {data data' out out' : Mom K}
    (hd : EqUpTo order data data') (hout : EqUpTo order out out') (x w s : K) :
    OptRel (EqUpTo order) (pushVal order x w out) (pushVal order x w out') ∧
    OptRel (EqUpTo order) (pushData order data out) (pushData order data' out') ∧
    OptRel (EqUpTo order) (pushDataScale order data s out) (pushDataScale order data' s out') := by
  refine ⟨?_, ?_, ?_⟩
  · rw [pushVal_eq_pushDataBody, pushVal_eq_pushDataBody]
    exact pushDataBody_order ho le_rfl _ (fun _ _ _ => rfl) hout
  · rw [pushData, pushData, hd 0 (by omega)]
    exact pushDataBody_order ho le_rfl _ (fun i _ hi => hd i hi) hout
  · rw [pushDataScale, pushDataScale, hd 0 (by omega)]
    exact pushDataBody_order ho le_rfl _ (fun i _ hi => hd i hi) hout

/-- **C13.** A push of order `order` writes only entries `0..order`. -/
theorem C13_writes_only_owned {order : ℕ} (ho : 1 ≤ order) (data out : Mom K) (x w s : K)
    (n : ℕ) (hn : order < n) :
    (∀ r, pushVal order x w out = some r → r n = out n) ∧
    (∀ r, pushData order data out = some r → r n = out n) ∧
    (∀ r, pushDataScale order data s out = some r → r n = out n) := by
  refine ⟨fun r e => ?_, fun r e => ?_, fun r e => ?_⟩
  · rw [pushVal_eq_pushDataBody] at e
    exact pushDataBody_frame ho _ _ _ _ e n hn
  · exact pushDataBody_frame ho _ _ _ _ e n hn
  · exact pushDataBody_frame ho _ _ _ _ e n hn

/-- **C13**, comoments, reads. -/
theorem C13_reads_only_owned_cov {o0 o1 : ℕ} (h0 : 1 ≤ o0) (h1 : 1 ≤ o1)
    {data data' out out' : Com K} (hd : EqUpTo2 o0 o1 data data') (hout : EqUpTo2 o0 o1 out out')
    (x y w s : K) :
    OptRel (EqUpTo2 o0 o1) (pushValCov o0 o1 x y w out) (pushValCov o0 o1 x y w out') ∧
    OptRel (EqUpTo2 o0 o1) (pushDataCov o0 o1 data out) (pushDataCov o0 o1 data' out') ∧
    OptRel (EqUpTo2 o0 o1) (pushDataScaleCov o0 o1 data s out)
      (pushDataScaleCov o0 o1 data' s out') := by
  refine ⟨?_, ?_, ?_⟩
  · rw [pushValCov_eq_pushDataCovBody, pushValCov_eq_pushDataCovBody]
    exact pushDataCovBody_order h0 h1 le_rfl le_rfl _ (fun _ _ _ _ _ => rfl) hout
  · rw [pushDataCov, pushDataCov, hd 0 0 (by omega) (by omega)]
    exact pushDataCovBody_order h0 h1 le_rfl le_rfl _ (fun i j hi hj _ => hd i j hi hj) hout
  · rw [pushDataScaleCov, pushDataScaleCov, hd 0 0 (by omega) (by omega)]
    exact pushDataCovBody_order h0 h1 le_rfl le_rfl _ (fun i j hi hj _ => hd i j hi hj) hout

/-- **C13**, comoments, writes. -/
theorem C13_writes_only_owned_cov {o0 o1 : ℕ} (h0 : 1 ≤ o0) (h1 : 1 ≤ o1) (data out : Com K)
    (x y w s : K) (i j : ℕ) (hij : o0 < i ∨ o1 < j) :
    (∀ r, pushValCov o0 o1 x y w out = some r → r i j = out i j) ∧
    (∀ r, pushDataCov o0 o1 data out = some r → r i j = out i j) ∧
    (∀ r, pushDataScaleCov o0 o1 data s out = some r → r i j = out i j) := by
  refine ⟨fun r e => ?_, fun r e => ?_, fun r e => ?_⟩
  · rw [pushValCov_eq_pushDataCovBody] at e
    exact pushDataCovBody_frame h0 h1 _ _ _ _ e i j hij
  · exact pushDataCovBody_frame h0 h1 _ _ _ _ e i j hij
  · exact pushDataCovBody_frame h0 h1 _ _ _ _ e i j hij

/-- **C17.** Merging transposed arrays gives the transposed merge. -/
theorem C17_push_data_transpose {o0 o1 : ℕ} (h0 : 1 ≤ o0) (h1 : 1 ≤ o1) (data out : Com K)
    (s : K) :
    pushDataCov o1 o0 (transp data) (transp out) = (pushDataCov o0 o1 data out).map transp ∧
    pushDataScaleCov o1 o0 (transp data) s (transp out) =
      (pushDataScaleCov o0 o1 data s out).map transp :=
  ⟨pushDataCovBody_transp h0 h1 _ _ _, pushDataCovBody_transp h0 h1 _ _ _⟩

/-- **C17.** Accumulating `(y, x)` with swapped orders gives the transpose of accumulating
`(x, y)`, from any starting array. -/
theorem C17_reduce_vals_transpose {o0 o1 : ℕ} (h0 : 1 ≤ o0) (h1 : 1 ≤ o1)
    (xs : List ((K × K) × K)) (out : Com K) :
    (kernel2 o1 o0).reduceVals (xs.map (fun p => ((p.1.2, p.1.1), p.2))) (transp out) =
      ((kernel2 o0 o1).reduceVals xs out).map transp := by
  have hs : ∀ x y w : K, singleton2 y x w = transp (singleton2 x y w) := by
    intro x y w
    funext i j
    simp only [singleton2, transp]
    by_cases c0 : i = 0 ∧ j = 0
    · simp [c0]
    by_cases c1 : i = 1 ∧ j = 0
    · simp [c1]
    by_cases c2 : i = 0 ∧ j = 1
    · simp [c2]
    simp [c0, c1, c2, show ¬ (j = 0 ∧ i = 0) by omega, show ¬ (j = 1 ∧ i = 0) by omega,
      show ¬ (j = 0 ∧ i = 1) by omega]
  induction xs generalizing out with
  | nil => rfl
  | cons p xs ih =>
    have hstep : (kernel2 o1 o0).pushVal (p.1.2, p.1.1) p.2 (transp out) =
        ((kernel2 o0 o1).pushVal p.1 p.2 out).map transp := by
      simp only [kernel2, pushValCov_eq_pushDataCovBody, hs p.1.1 p.1.2 p.2]
      exact pushDataCovBody_transp h0 h1 _ _ _
    have hc : ∀ (a b : ℕ) (q : (K × K) × K) l o, (kernel2 a b).reduceVals (q :: l) o =
      ((kernel2 a b).pushVal q.1 q.2 o).bind ((kernel2 a b).reduceVals l) := fun _ _ _ _ _ => rfl
    rw [List.map_cons, hc, hc, hstep]
    cases (kernel2 o0 o1).pushVal p.1 p.2 out with
    | none => rfl
    | some r => exact ih r

/-- **C18.** The first column of a comoment merge is the one-variable merge of the first columns,
and the first row that of the first rows. -/
theorem C18_push_data_marginals {o0 o1 : ℕ} (h0 : 1 ≤ o0) (h1 : 1 ≤ o1) (data out : Com K) :
    (pushDataCov o0 o1 data out).map col = pushData o0 (col data) (col out) ∧
    (pushDataCov o0 o1 data out).map row = pushData o1 (row data) (row out) :=
  ⟨pushDataCovBody_col h0 h1 _ _ _, pushDataCovBody_row h0 h1 _ _ _⟩

/-- **C18.** The first column of the comoments of `(x, y)` are the moments of `x`, the first row
those of `y`, for every stream. -/
theorem C18_reduce_vals_marginals {o0 o1 : ℕ} (h0 : 1 ≤ o0) (h1 : 1 ≤ o1)
    (xs : List ((K × K) × K)) (out : Com K) :
    ((kernel2 o0 o1).reduceVals xs out).map col =
      (kernel1 o0).reduceVals (xs.map (fun p => (p.1.1, p.2))) (col out) ∧
    ((kernel2 o0 o1).reduceVals xs out).map row =
      (kernel1 o1).reduceVals (xs.map (fun p => (p.1.2, p.2))) (row out) := by
  have hs : ∀ x y w : K, col (singleton2 x y w) = singleton x w := by
    intro x y w; funext i; simp [col, singleton2, singleton]
  have hr : ∀ x y w : K, row (singleton2 x y w) = singleton y w := by
    intro x y w; funext i; simp [row, singleton2, singleton]
  have hc2 : ∀ (a b : ℕ) (q : (K × K) × K) l o, (kernel2 a b).reduceVals (q :: l) o =
    ((kernel2 a b).pushVal q.1 q.2 o).bind ((kernel2 a b).reduceVals l) := fun _ _ _ _ _ => rfl
  have hc1 : ∀ (a : ℕ) (q : K × K) l o, (kernel1 a).reduceVals (q :: l) o =
    ((kernel1 a).pushVal q.1 q.2 o).bind ((kernel1 a).reduceVals l) := fun _ _ _ _ => rfl
  constructor
  · induction xs generalizing out with
    | nil => rfl
    | cons p xs ih =>
      have hstep : ((kernel2 o0 o1).pushVal p.1 p.2 out).map col =
          (kernel1 o0).pushVal p.1.1 p.2 (col out) := by
        simp only [kernel2, kernel1, pushValCov_eq_pushDataCovBody, pushVal_eq_pushDataBody]
        rw [pushDataCovBody_col h0 h1, hs]
      rw [List.map_cons, hc2, hc1, ← hstep]
      cases (kernel2 o0 o1).pushVal p.1 p.2 out with
      | none => rfl
      | some r => exact ih r
  · induction xs generalizing out with
    | nil => rfl
    | cons p xs ih =>
      have hstep : ((kernel2 o0 o1).pushVal p.1 p.2 out).map row =
          (kernel1 o1).pushVal p.1.2 p.2 (row out) := by
        simp only [kernel2, kernel1, pushValCov_eq_pushDataCovBody, pushVal_eq_pushDataBody]
        rw [pushDataCovBody_row h0 h1, hr]
      rw [List.map_cons, hc2, hc1, ← hstep]
      cases (kernel2 o0 o1).pushVal p.1 p.2 out with
      | none => rfl
      | some r => exact ih r

end field

section ordered

variable {K : Type*} [Field K] [LinearOrder K] [IsStrictOrderedRing K]

/-- **C04.** Every permutation of the records, and every way of reducing chunks separately and
merging the partial results, gives the same array. -/
theorem C04_merge_tree_equals_reduce {order : ℕ} (ho : 1 ≤ order) (t : MergeTree (Mom K))
    (data : List (Mom K)) (hperm : t.records.Perm data) (hw : ∀ d ∈ data, 0 ≤ d 0) :
    ∃ r r', (kernel1 order).evalTree t = some r ∧
      (kernel1 order).reduceDataFromZero data = some r' ∧ EqUpTo order r r' := by
  obtain ⟨r, r', e, e', h⟩ := (lawful1 (K := K) order ho).evalTree_eqv_reduce t
    (fun d hd => hw d (hperm.mem_iff.1 hd)) data hperm
  exact ⟨r, r', e, e', (eqv1_iff ho).1 h⟩

/-- **C04**, comoments. -/
theorem C04_merge_tree_equals_reduce_cov {o0 o1 : ℕ} (h0 : 1 ≤ o0) (h1 : 1 ≤ o1)
    (t : MergeTree (Com K)) (data : List (Com K)) (hperm : t.records.Perm data)
    (hw : ∀ d ∈ data, 0 ≤ d 0 0) :
    ∃ r r', (kernel2 o0 o1).evalTree t = some r ∧
      (kernel2 o0 o1).reduceDataFromZero data = some r' ∧ EqUpTo2 o0 o1 r r' := by
  obtain ⟨r, r', e, e', h⟩ := (lawful2 (K := K) o0 o1 h0 h1).evalTree_eqv_reduce t
    (fun d hd => hw d (hperm.mem_iff.1 hd)) data hperm
  exact ⟨r, r', e, e', (eqv2_iff h0 h1).1 h⟩

/-- **C04**, plain permutations of a flat reduction (a leaf). -/
theorem C04_reduce_perm {order : ℕ} (ho : 1 ≤ order) (data data' : List (Mom K))
    (hperm : data.Perm data') (hw : ∀ d ∈ data, 0 ≤ d 0) :
    ∃ r r', (kernel1 order).reduceDataFromZero data = some r ∧
      (kernel1 order).reduceDataFromZero data' = some r' ∧ EqUpTo order r r' :=
  C04_merge_tree_equals_reduce ho (.leaf data) data' hperm
    (fun d hd => hw d (hperm.mem_iff.2 hd))

/-- **C04**, plain permutations, comoments. -/
theorem C04_reduce_perm_cov {o0 o1 : ℕ} (h0 : 1 ≤ o0) (h1 : 1 ≤ o1) (data data' : List (Com K))
    (hperm : data.Perm data') (hw : ∀ d ∈ data, 0 ≤ d 0 0) :
    ∃ r r', (kernel2 o0 o1).reduceDataFromZero data = some r ∧
      (kernel2 o0 o1).reduceDataFromZero data' = some r' ∧ EqUpTo2 o0 o1 r r' :=
  C04_merge_tree_equals_reduce_cov h0 h1 (.leaf data) data' hperm
    (fun d hd => hw d (hperm.mem_iff.2 hd))

/-- **C07.** Pushing `n` times equals one push with scale `n`. -/
theorem C07_integer_scale_is_repetition {order : ℕ} (ho : 1 ≤ order) (n : ℕ) (data out : Mom K)
    (hd : 0 ≤ data 0) (hout : 0 ≤ out 0) :
    ∃ r r', (kernel1 order).reduceData (List.replicate n data) out = some r ∧
      pushDataScale order data n out = some r' ∧ EqUpTo order r r' := by
  obtain ⟨r, r', e, e', h⟩ :=
    (lawful1 (K := K) order ho).reduceData_replicate n data out hd hout
  exact ⟨r, r', e, e', (eqv1_iff ho).1 h⟩

/-- **C07**, comoments. -/
theorem C07_integer_scale_is_repetition_cov {o0 o1 : ℕ} (h0 : 1 ≤ o0) (h1 : 1 ≤ o1) (n : ℕ)
    (data out : Com K) (hd : 0 ≤ data 0 0) (hout : 0 ≤ out 0 0) :
    ∃ r r', (kernel2 o0 o1).reduceData (List.replicate n data) out = some r ∧
      pushDataScaleCov o0 o1 data n out = some r' ∧ EqUpTo2 o0 o1 r r' := by
  obtain ⟨r, r', e, e', h⟩ :=
    (lawful2 (K := K) o0 o1 h0 h1).reduceData_replicate n data out hd hout
  exact ⟨r, r', e, e', (eqv2_iff h0 h1).1 h⟩

end ordered

/-! ### Non-trivial instances of the hypotheses -/

/-- A moment array of order 3 with weight 2. -/
def exA : Mom ℚ := fun n => [2, 1, 5, -3].getD n 0
/-- A moment array of order 3 with weight 3. -/
def exB : Mom ℚ := fun n => [3, -1, 2, 4].getD n 0
/-- A comoment array. -/
def exC : Com ℚ := fun i j => [[2, 1, 3], [4, 5, 6], [7, 8, 9]].getD i [] |>.getD j 0

example : exA 0 ≠ 0 ∧ exA 0 + exB 0 ≠ 0 ∧ exA 0 - exB 0 ≠ 0 ∧ exC 0 0 ≠ 0 ∧ 0 ≤ exA 0 ∧
    0 ≤ exB 0 := by decide +kernel

/-- A merge tree over three chunks, listed in a different order. -/
example : (MergeTree.node (.leaf [exA]) (.node (.leaf [exB, exA]) (.leaf []))).records.Perm
    [exB, exA, exA] ∧ ∀ d ∈ [exB, exA, exA], 0 ≤ d 0 := by
  refine ⟨List.Perm.swap _ _ _, ?_⟩
  intro d hd
  simp only [List.mem_cons, List.not_mem_nil, or_false] at hd
  rcases hd with rfl | rfl | rfl <;> decide +kernel

/-- The aliased push of `exA` in numbers: weight doubled, the rest unchanged. -/
example : (pushDataAliased 3 exA).map (fun m => [m 0, m 1, m 2, m 3]) = some [4, 1, 5, -3] := by
  decide +kernel

/-- Arrays that agree on the owned entries and differ elsewhere (C13). -/
example : EqUpTo 3 exA (Function.update exA 7 100) ∧ exA ≠ Function.update exA 7 100 := by
  refine ⟨fun n hn => (Function.update_of_ne (by omega) _ _).symm, fun e => ?_⟩
  have := congrFun e 7
  simp [exA] at this

end Cmomy
