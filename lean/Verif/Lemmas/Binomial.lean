import Verif.Model.Binomial
import Verif.Lemmas.Push
import Verif.Lemmas.PushCov

set_option linter.unusedSectionVars false

/-! Helper lemmas for the kernels that read the binomial table. -/

universe u

namespace Cmomy.Binomial

open Cmomy

variable {K : Type*} [Field K] [DecidableEq K]

/-- A computation that either succeeds or has read outside the table. -/
def Tame {α : Type*} (x : Py α) : Prop := x = .error .undefined ∨ ∃ v, x = .ok v

section Tame

variable {α β : Type u} {ι : Type*}

theorem Tame.ok (v : α) : Tame (.ok v : Py α) := .inr ⟨v, rfl⟩

theorem Tame.pure (v : α) : Tame (Pure.pure v : Py α) := .inr ⟨v, rfl⟩

theorem tame_lookup (t : Table K) (n k : ℕ) : Tame (t.lookup n k) := by
  unfold Table.lookup
  split
  · exact .ok _
  · exact .inl rfl

theorem Tame.bind {x : Py α} {f : α → Py β} (hx : Tame x) (hf : ∀ v, Tame (f v)) :
    Tame (x >>= f) := by
  rcases hx with rfl | ⟨v, rfl⟩
  · exact .inl rfl
  · exact hf v

theorem Tame.foldlM {f : β → ι → Py β} (l : List ι) (s : β) (hf : ∀ s, ∀ a ∈ l, Tame (f s a)) :
    Tame (l.foldlM f s) := by
  induction l generalizing s with
  | nil => exact .ok s
  | cons a l ih =>
    rw [List.foldlM_cons]
    exact (hf s a List.mem_cons_self).bind fun v => ih v fun s b hb => hf s b (List.mem_cons_of_mem _ hb)

theorem bind_undefined {x : Py α} (f : α → Py β) (hx : x = .error .undefined) :
    (x >>= f) = .error .undefined := by subst hx; rfl

theorem bind_undefined_right {x : Py α} {f : α → Py β} (hx : Tame x)
    (hf : ∀ v, f v = .error .undefined) : (x >>= f) = .error .undefined := by
  rcases hx with rfl | ⟨v, rfl⟩
  · rfl
  · exact hf v

theorem foldlM_undefined {f : β → ι → Py β} (l : List ι) (s : β)
    (hf : ∀ s, ∀ a ∈ l, Tame (f s a)) {a : ι} (ha : a ∈ l)
    (hu : ∀ s, f s a = .error .undefined) : l.foldlM f s = .error .undefined := by
  induction l generalizing s with
  | nil => simp at ha
  | cons b l ih =>
    rw [List.foldlM_cons]
    rcases List.mem_cons.1 ha with rfl | h
    · exact bind_undefined _ (hu s)
    · exact bind_undefined_right (hf s b List.mem_cons_self) fun v =>
        ih v (fun s c hc => hf s c (List.mem_cons_of_mem _ hc)) h

theorem foldlM_ok {f : β → ι → Py β} {g : β → ι → β} (l : List ι) (s : β)
    (h : ∀ s, ∀ a ∈ l, f s a = .ok (g s a)) : l.foldlM f s = .ok (l.foldl g s) := by
  induction l generalizing s with
  | nil => rfl
  | cons a l ih =>
    rw [List.foldlM_cons, h s a List.mem_cons_self]
    exact ih _ fun s b hb => h s b (List.mem_cons_of_mem _ hb)

theorem foldlM_const_ok {f : β → ι → Py β} (s : β) : ([] : List ι).foldlM f s = .ok s := rfl

end Tame

/-- The table holds the values `_binom` gives. -/
def Good (t : Table K) : Prop := ∀ n k, n < t.size → k < t.size → t.data n k = binom n k

theorem lookup_ok {t : Table K} (ht : Good t) {n k : ℕ} (hn : n < t.size) (hk : k < t.size) :
    t.lookup n k = .ok (binom n k) := by
  simp [Table.lookup, hn, hk, ht n k hn hk]

theorem lookup_undefined {t : Table K} {n : ℕ} (k : ℕ) (hn : t.size ≤ n) :
    t.lookup n k = .error .undefined := by
  unfold Table.lookup
  rw [if_neg (by omega)]

/-- `none` (division by zero) as a Python exception. -/
def lift {α : Type*} : Option α → Py α
  | some v => .ok v
  | none => .error .zeroDivision

/-! ### one variable -/

theorem pushValTmpT_ok {t : Table K} (ht : Good t) {a : ℕ} (ha : a < t.size)
    (delta alpha one_alpha : K) (out : Mom K) :
    pushValTmpT t a delta alpha one_alpha out = .ok (pushValTmp a delta alpha one_alpha out) := by
  unfold pushValTmpT
  rw [foldlM_ok (g := pushValInner a delta alpha one_alpha out)]
  · rfl
  · intro s b hb
    rw [List.mem_range] at hb
    simp [pushValInnerT, lookup_ok ht ha (show b < t.size by omega), pushValInner]

theorem pushValTmpT_tame (t : Table K) (a : ℕ) (delta alpha one_alpha : K) (out : Mom K) :
    Tame (pushValTmpT t a delta alpha one_alpha out) :=
  (Tame.foldlM _ _ fun _ _ _ => (tame_lookup _ _ _).bind fun _ => .pure _).bind fun _ => .pure _

theorem pushValTmpT_undefined {t : Table K} {a : ℕ} (ha : t.size ≤ a) (h2 : 2 ≤ a)
    (delta alpha one_alpha : K) (out : Mom K) :
    pushValTmpT t a delta alpha one_alpha out = .error .undefined :=
  bind_undefined _ (foldlM_undefined _ _
    (fun _ _ _ => (tame_lookup _ _ _).bind fun _ => .pure _)
    (List.mem_range.2 (show 0 < a - 1 by omega)) fun _ => bind_undefined _ (lookup_undefined _ ha))

theorem pushDataTmpT_ok {t : Table K} (ht : Good t) {a : ℕ} (ha : a < t.size)
    (delta alpha one_alpha : K) (data out : Mom K) :
    pushDataTmpT t a delta alpha one_alpha data out =
      .ok (pushDataTmp a delta alpha one_alpha data out) := by
  unfold pushDataTmpT
  rw [foldlM_ok (g := pushDataInner a delta alpha one_alpha data out)]
  · rfl
  · intro s b hb
    rw [List.mem_range] at hb
    simp [pushDataInnerT, lookup_ok ht ha (show b < t.size by omega), pushDataInner]

theorem pushDataTmpT_tame (t : Table K) (a : ℕ) (delta alpha one_alpha : K) (data out : Mom K) :
    Tame (pushDataTmpT t a delta alpha one_alpha data out) :=
  (Tame.foldlM _ _ fun _ _ _ => (tame_lookup _ _ _).bind fun _ => .pure _).bind fun _ => .pure _

theorem pushDataTmpT_undefined {t : Table K} {a : ℕ} (ha : t.size ≤ a) (h2 : 2 ≤ a)
    (delta alpha one_alpha : K) (data out : Mom K) :
    pushDataTmpT t a delta alpha one_alpha data out = .error .undefined :=
  bind_undefined _ (foldlM_undefined _ _
    (fun _ _ _ => (tame_lookup _ _ _).bind fun _ => .pure _)
    (List.mem_range.2 (show 0 < a - 1 by omega)) fun _ => bind_undefined _ (lookup_undefined _ ha))

theorem pushValT_ok {t : Table K} (ht : Good t) {order : ℕ} (ho : order < t.size ∨ order ≤ 2)
    (x w : K) (out : Mom K) : pushValT t order x w out = lift (pushVal order x w out) := by
  unfold pushValT pushVal
  by_cases hw : w = 0
  · simp only [if_pos hw, lift]
  simp only [if_neg hw]
  by_cases h0 : Function.update out 0 (out 0 + w) 0 = 0
  · simp only [if_pos h0, lift]
  simp only [if_neg h0]
  by_cases h1 : order = 1
  · simp only [if_pos h1, lift]
  simp only [if_neg h1]
  rw [foldlM_ok (g := fun o a => Function.update o a (pushValTmp a _ _ _ o))]
  · rfl
  · intro s a ha
    rw [mem_rangeDown] at ha
    rw [pushValTmpT_ok ht (by omega)]
    rfl

theorem pushValT_undefined {t : Table K} {order : ℕ} (ho : t.size ≤ order) (h3 : 3 ≤ order)
    (x w : K) (out : Mom K) (hw : w ≠ 0) (h0 : out 0 + w ≠ 0) :
    pushValT t order x w out = .error .undefined := by
  unfold pushValT
  have h0' : ¬ Function.update out 0 (out 0 + w) 0 = 0 := by simpa using h0
  simp only [if_neg hw, if_neg h0', if_neg (show ¬ order = 1 by omega)]
  exact bind_undefined _ (foldlM_undefined _ _
    (fun _ _ _ => (pushValTmpT_tame _ _ _ _ _ _).bind fun _ => .pure _)
    (mem_rangeDown.2 ⟨show 2 < order by omega, le_rfl⟩)
    fun _ => bind_undefined _ (pushValTmpT_undefined ho (by omega) _ _ _ _))

theorem pushDataBodyT_ok {t : Table K} (ht : Good t) {order : ℕ} (ho : order < t.size ∨ order ≤ 2)
    (w : K) (data out : Mom K) : pushDataBodyT t order w data out = lift (pushDataBody order w data out) := by
  unfold pushDataBodyT pushDataBody
  by_cases hw : w = 0
  · simp only [if_pos hw, lift]
  simp only [if_neg hw]
  by_cases h0 : Function.update out 0 (out 0 + w) 0 = 0
  · simp only [if_pos h0, lift]
  simp only [if_neg h0]
  by_cases h1 : order = 1
  · simp only [if_pos h1, lift]
  simp only [if_neg h1]
  rw [foldlM_ok (g := fun o a => Function.update o a (pushDataTmp a _ _ _ data o))]
  · rfl
  · intro s a ha
    rw [mem_rangeDown] at ha
    rw [pushDataTmpT_ok ht (by omega)]
    rfl

theorem pushDataBodyT_undefined {t : Table K} {order : ℕ} (ho : t.size ≤ order) (h3 : 3 ≤ order)
    (w : K) (data out : Mom K) (hw : w ≠ 0) (h0 : out 0 + w ≠ 0) :
    pushDataBodyT t order w data out = .error .undefined := by
  unfold pushDataBodyT
  have h0' : ¬ Function.update out 0 (out 0 + w) 0 = 0 := by simpa using h0
  simp only [if_neg hw, if_neg h0', if_neg (show ¬ order = 1 by omega)]
  exact bind_undefined _ (foldlM_undefined _ _
    (fun _ _ _ => (pushDataTmpT_tame _ _ _ _ _ _ _).bind fun _ => .pure _)
    (mem_rangeDown.2 ⟨show 2 < order by omega, le_rfl⟩)
    fun _ => bind_undefined _ (pushDataTmpT_undefined ho (by omega) _ _ _ _ _))

/-! ### conversions -/

theorem centralToRawEntryT_ok {t : Table K} (ht : Good t) {n : ℕ} (hn : n < t.size) (ave : K)
    (central : Mom K) : centralToRawEntryT t ave central n = .ok (Convert.centralToRawEntry ave central n) := by
  unfold centralToRawEntryT Convert.centralToRawEntry
  rw [foldlM_ok]
  · rfl
  · intro s i hi
    rw [List.mem_range] at hi
    rw [lookup_ok ht hn (show i < t.size by omega)]
    rfl

theorem centralToRawEntryT_tame (t : Table K) (n : ℕ) (ave : K) (central : Mom K) :
    Tame (centralToRawEntryT t ave central n) :=
  (Tame.foldlM _ _ fun _ _ _ => (tame_lookup _ _ _).bind fun _ => .pure _).bind fun _ => .pure _

theorem centralToRawEntryT_undefined {t : Table K} {n : ℕ} (hn : t.size ≤ n) (h2 : 2 ≤ n) (ave : K)
    (central : Mom K) : centralToRawEntryT t ave central n = .error .undefined :=
  bind_undefined _ (foldlM_undefined _ _
    (fun _ _ _ => (tame_lookup _ _ _).bind fun _ => .pure _)
    (List.mem_range.2 (show 0 < n - 1 by omega)) fun _ => bind_undefined _ (lookup_undefined _ hn))

theorem centralToRawT_ok {t : Table K} (ht : Good t) {order : ℕ} (ho : order < t.size ∨ order ≤ 1)
    (central raw : Mom K) : centralToRawT t order central raw = .ok (Convert.centralToRaw order central raw) := by
  unfold centralToRawT Convert.centralToRaw
  apply foldlM_ok
  intro s n hn
  rw [List.mem_range'_1] at hn
  rw [centralToRawEntryT_ok ht (by omega)]
  rfl

theorem centralToRawT_undefined {t : Table K} {order : ℕ} (ho : t.size ≤ order) (h2 : 2 ≤ order)
    (central raw : Mom K) : centralToRawT t order central raw = .error .undefined :=
  foldlM_undefined _ _ (fun _ _ _ => (centralToRawEntryT_tame _ _ _ _).bind fun _ => .pure _)
    (List.mem_range'_1.2 (show 2 ≤ order ∧ order < 2 + (order + 1 - 2) by omega))
    fun _ => bind_undefined _ (centralToRawEntryT_undefined ho h2 _ _)

theorem rawToCentralEntryT_ok {t : Table K} (ht : Good t) {n : ℕ} (hn : n < t.size) (ave : K)
    (raw : Mom K) : rawToCentralEntryT t ave raw n = .ok (Convert.rawToCentralEntry ave raw n) := by
  unfold rawToCentralEntryT Convert.rawToCentralEntry
  rw [foldlM_ok]
  · rfl
  · intro s i hi
    rw [List.mem_range] at hi
    rw [lookup_ok ht hn (show i < t.size by omega)]
    rfl

theorem rawToCentralEntryT_tame (t : Table K) (n : ℕ) (ave : K) (raw : Mom K) :
    Tame (rawToCentralEntryT t ave raw n) :=
  (Tame.foldlM _ _ fun _ _ _ => (tame_lookup _ _ _).bind fun _ => .pure _).bind fun _ => .pure _

theorem rawToCentralEntryT_undefined {t : Table K} {n : ℕ} (hn : t.size ≤ n) (h2 : 2 ≤ n) (ave : K)
    (raw : Mom K) : rawToCentralEntryT t ave raw n = .error .undefined :=
  bind_undefined _ (foldlM_undefined _ _
    (fun _ _ _ => (tame_lookup _ _ _).bind fun _ => .pure _)
    (List.mem_range.2 (show 0 < n - 1 by omega)) fun _ => bind_undefined _ (lookup_undefined _ hn))

theorem rawToCentralT_ok {t : Table K} (ht : Good t) {order : ℕ} (ho : order < t.size ∨ order ≤ 1)
    (raw central : Mom K) : rawToCentralT t order raw central = .ok (Convert.rawToCentral order raw central) := by
  unfold rawToCentralT Convert.rawToCentral
  apply foldlM_ok
  intro s n hn
  rw [List.mem_range'_1] at hn
  rw [rawToCentralEntryT_ok ht (by omega)]
  rfl

theorem rawToCentralT_undefined {t : Table K} {order : ℕ} (ho : t.size ≤ order) (h2 : 2 ≤ order)
    (raw central : Mom K) : rawToCentralT t order raw central = .error .undefined :=
  foldlM_undefined _ _ (fun _ _ _ => (rawToCentralEntryT_tame _ _ _ _).bind fun _ => .pure _)
    (List.mem_range'_1.2 (show 2 ≤ order ∧ order < 2 + (order + 1 - 2) by omega))
    fun _ => bind_undefined _ (rawToCentralEntryT_undefined ho h2 _ _)

/-! ### two variables -/

theorem pushValCovInner1T_ok {t : Table K} (ht : Good t) {a0 a1 b0 b1 : ℕ} (ha1 : a1 < t.size)
    (hb1 : b1 < t.size) (delta0_b0 delta1 alpha one_alpha : K) (out : Com K) (s : CAcc1 K) :
    pushValCovInner1T t a0 a1 b0 (binom a0 b0) delta0_b0 delta1 alpha one_alpha out s b1 =
      .ok (pushValCovInner1 a0 a1 b0 delta0_b0 delta1 alpha one_alpha out s b1) := by
  unfold pushValCovInner1T pushValCovInner1
  simp only
  split_ifs
  · rfl
  · rw [lookup_ok ht ha1 hb1]; rfl
  · rfl

theorem pushValCovInner1T_tame (t : Table K) (a0 a1 b0 b1 : ℕ)
    (f0 delta0_b0 delta1 alpha one_alpha : K) (out : Com K) (s : CAcc1 K) :
    Tame (pushValCovInner1T t a0 a1 b0 f0 delta0_b0 delta1 alpha one_alpha out s b1) := by
  unfold pushValCovInner1T
  simp only
  split_ifs
  · exact (Tame.pure _).bind fun _ => .pure _
  · exact (tame_lookup _ _ _).bind fun _ => (Tame.pure _).bind fun _ => .pure _
  · exact (Tame.pure _).bind fun _ => .pure _

theorem pushValCovInner0T_ok {t : Table K} (ht : Good t) {a0 a1 b0 : ℕ} (ha0 : a0 < t.size)
    (ha1 : a1 < t.size) (hb0 : b0 < t.size) (delta0 delta1 alpha one_alpha : K) (out : Com K)
    (s : CAcc0 K) :
    pushValCovInner0T t a0 a1 delta0 delta1 alpha one_alpha out s b0 =
      .ok (pushValCovInner0 a0 a1 delta0 delta1 alpha one_alpha out s b0) := by
  unfold pushValCovInner0T pushValCovInner0
  rw [lookup_ok ht ha0 hb0]
  have h := foldlM_ok (f := pushValCovInner1T t a0 a1 b0 (binom a0 b0) s.delta0_b0 delta1 alpha
      one_alpha out) (g := pushValCovInner1 a0 a1 b0 s.delta0_b0 delta1 alpha one_alpha out)
      (List.range (a1 + 1)) ⟨s.tmp, 1, s.alpha_b0, s.minus_b0, s.one_alpha_b0⟩ ?_
  · show (List.foldlM _ _ _ >>= _ : Py (CAcc0 K)) = _
    rw [h]
    rfl
  · intro s b1 hb1
    rw [List.mem_range] at hb1
    exact pushValCovInner1T_ok ht ha1 (by omega) _ _ _ _ _ s

theorem pushValCovInner0T_tame (t : Table K) (a0 a1 b0 : ℕ) (delta0 delta1 alpha one_alpha : K)
    (out : Com K) (s : CAcc0 K) :
    Tame (pushValCovInner0T t a0 a1 delta0 delta1 alpha one_alpha out s b0) :=
  (tame_lookup _ _ _).bind fun _ =>
    (Tame.foldlM _ _ fun _ _ _ => pushValCovInner1T_tame _ _ _ _ _ _ _ _ _ _ _ _).bind
      fun _ => .pure _

theorem pushValCovTmpT_ok {t : Table K} (ht : Good t) {a0 a1 : ℕ} (ha0 : a0 < t.size)
    (ha1 : a1 < t.size) (delta0 delta1 alpha one_alpha : K) (out : Com K) :
    pushValCovTmpT t a0 a1 delta0 delta1 alpha one_alpha out =
      .ok (pushValCovTmp a0 a1 delta0 delta1 alpha one_alpha out) := by
  unfold pushValCovTmpT pushValCovTmp
  rw [foldlM_ok]
  · rfl
  · intro s b0 hb0
    rw [List.mem_range] at hb0
    exact pushValCovInner0T_ok ht ha0 ha1 (by omega) _ _ _ _ _ s

theorem pushValCovTmpT_tame (t : Table K) (a0 a1 : ℕ) (delta0 delta1 alpha one_alpha : K) (out : Com K) :
    Tame (pushValCovTmpT t a0 a1 delta0 delta1 alpha one_alpha out) :=
  (Tame.foldlM _ _ fun _ _ _ => pushValCovInner0T_tame _ _ _ _ _ _ _ _ _ _).bind fun _ => .pure _

theorem pushValCovTmpT_undefined_left {t : Table K} {a0 : ℕ} (a1 : ℕ) (ha0 : t.size ≤ a0)
    (delta0 delta1 alpha one_alpha : K) (out : Com K) :
    pushValCovTmpT t a0 a1 delta0 delta1 alpha one_alpha out = .error .undefined :=
  bind_undefined _ (foldlM_undefined _ _
    (fun _ _ _ => pushValCovInner0T_tame _ _ _ _ _ _ _ _ _ _)
    (List.mem_range.2 (Nat.succ_pos a0)) fun _ => bind_undefined _ (lookup_undefined _ ha0))

theorem pushValCovTmpT_undefined_right {t : Table K} (a0 : ℕ) {a1 : ℕ} (ha1 : t.size ≤ a1)
    (h2 : 2 ≤ a1) (delta0 delta1 alpha one_alpha : K) (out : Com K) :
    pushValCovTmpT t a0 a1 delta0 delta1 alpha one_alpha out = .error .undefined := by
  refine bind_undefined _ (foldlM_undefined _ _
    (fun _ _ _ => pushValCovInner0T_tame _ _ _ _ _ _ _ _ _ _)
    (List.mem_range.2 (Nat.succ_pos a0)) fun s => ?_)
  refine bind_undefined_right (tame_lookup _ _ _) fun f0 => bind_undefined _ ?_
  refine foldlM_undefined _ _ (fun _ _ _ => pushValCovInner1T_tame _ _ _ _ _ _ _ _ _ _ _ _)
    (List.mem_range.2 (Nat.succ_pos a1)) fun s => ?_
  unfold pushValCovInner1T
  simp only
  rw [if_neg (by omega), if_pos (by omega)]
  exact bind_undefined _ (lookup_undefined _ ha1)

theorem pushValCovT_ok {t : Table K} (ht : Good t) {o0 o1 : ℕ} (h0 : o0 < t.size) (h1 : o1 < t.size)
    (x0 x1 w : K) (out : Com K) : pushValCovT t o0 o1 x0 x1 w out = lift (pushValCov o0 o1 x0 x1 w out) := by
  unfold pushValCovT pushValCov
  by_cases hw : w = 0
  · simp only [if_pos hw, lift]
  simp only [if_neg hw]
  by_cases hd : setAt out 0 0 (out 0 0 + w) 0 0 = 0
  · simp only [if_pos hd, lift]
  simp only [if_neg hd, lift]
  apply foldlM_ok
  intro s a0 ha0
  apply foldlM_ok
  intro s a1 ha1
  simp only [rangeDownTo, List.mem_map, List.mem_range] at ha0 ha1
  obtain ⟨i, _, rfl⟩ := ha0
  obtain ⟨j, _, rfl⟩ := ha1
  rw [pushValCovTmpT_ok ht (by omega) (by omega)]
  rfl

theorem pushValCovT_undefined {t : Table K} {o0 o1 : ℕ} (h : t.size ≤ o0 ∨ t.size ≤ o1)
    (h0 : 1 ≤ o0) (h1 : 1 ≤ o1) (x0 x1 w : K) (out : Com K) (hw : w ≠ 0) (hd : out 0 0 + w ≠ 0) :
    pushValCovT t o0 o1 x0 x1 w out = .error .undefined := by
  unfold pushValCovT
  have hd' : ¬ setAt out 0 0 (out 0 0 + w) 0 0 = 0 := by simpa [setAt] using hd
  simp only [if_neg hw, if_neg hd']
  refine foldlM_undefined _ _ (fun _ _ _ => Tame.foldlM _ _ fun _ _ _ =>
    (pushValCovTmpT_tame _ _ _ _ _ _ _ _).bind fun _ => .pure _)
    ((mem_rangeDownTo (by omega)).2 ⟨by omega, le_rfl⟩ : o0 ∈ _) fun s => ?_
  refine foldlM_undefined _ _ (fun _ _ _ =>
    (pushValCovTmpT_tame _ _ _ _ _ _ _ _).bind fun _ => .pure _)
    ((mem_rangeDownTo (by omega)).2 ⟨by omega, le_rfl⟩ : o1 ∈ _) fun s => bind_undefined _ ?_
  by_cases hl : t.size ≤ o0
  · exact pushValCovTmpT_undefined_left _ hl _ _ _ _ _
  · exact pushValCovTmpT_undefined_right _ (by omega) (by omega) _ _ _ _ _

theorem pushDataCovInner1T_ok {t : Table K} (ht : Good t) {a0 a1 b0 b1 : ℕ} (ha1 : a1 < t.size)
    (hb1 : b1 < t.size) (delta0_b0 delta1 alpha one_alpha : K) (data out : Com K) (s : CAcc1 K) :
    pushDataCovInner1T t a0 a1 b0 (binom a0 b0) delta0_b0 delta1 alpha one_alpha data out s b1 =
      .ok (pushDataCovInner1 a0 a1 b0 delta0_b0 delta1 alpha one_alpha data out s b1) := by
  unfold pushDataCovInner1T pushDataCovInner1
  simp only
  split_ifs
  · rfl
  · rw [lookup_ok ht ha1 hb1]; rfl
  · rfl

theorem pushDataCovInner1T_tame (t : Table K) (a0 a1 b0 b1 : ℕ)
    (f0 delta0_b0 delta1 alpha one_alpha : K) (data out : Com K) (s : CAcc1 K) :
    Tame (pushDataCovInner1T t a0 a1 b0 f0 delta0_b0 delta1 alpha one_alpha data out s b1) := by
  unfold pushDataCovInner1T
  simp only
  split_ifs
  · exact (Tame.pure _).bind fun _ => .pure _
  · exact (tame_lookup _ _ _).bind fun _ => (Tame.pure _).bind fun _ => .pure _
  · exact (Tame.pure _).bind fun _ => .pure _

theorem pushDataCovInner0T_ok {t : Table K} (ht : Good t) {a0 a1 b0 : ℕ} (ha0 : a0 < t.size)
    (ha1 : a1 < t.size) (hb0 : b0 < t.size) (delta0 delta1 alpha one_alpha : K) (data out : Com K)
    (s : CAcc0 K) :
    pushDataCovInner0T t a0 a1 delta0 delta1 alpha one_alpha data out s b0 =
      .ok (pushDataCovInner0 a0 a1 delta0 delta1 alpha one_alpha data out s b0) := by
  unfold pushDataCovInner0T pushDataCovInner0
  rw [lookup_ok ht ha0 hb0]
  have h := foldlM_ok (f := pushDataCovInner1T t a0 a1 b0 (binom a0 b0) s.delta0_b0 delta1 alpha
      one_alpha data out) (g := pushDataCovInner1 a0 a1 b0 s.delta0_b0 delta1 alpha one_alpha data out)
      (List.range (a1 + 1)) ⟨s.tmp, 1, s.alpha_b0, s.minus_b0, s.one_alpha_b0⟩ ?_
  · show (List.foldlM _ _ _ >>= _ : Py (CAcc0 K)) = _
    rw [h]
    rfl
  · intro s b1 hb1
    rw [List.mem_range] at hb1
    exact pushDataCovInner1T_ok ht ha1 (by omega) _ _ _ _ _ _ s

theorem pushDataCovInner0T_tame (t : Table K) (a0 a1 b0 : ℕ) (delta0 delta1 alpha one_alpha : K)
    (data out : Com K) (s : CAcc0 K) :
    Tame (pushDataCovInner0T t a0 a1 delta0 delta1 alpha one_alpha data out s b0) :=
  (tame_lookup _ _ _).bind fun _ =>
    (Tame.foldlM _ _ fun _ _ _ => pushDataCovInner1T_tame _ _ _ _ _ _ _ _ _ _ _ _ _).bind
      fun _ => .pure _

theorem pushDataCovTmpT_ok {t : Table K} (ht : Good t) {a0 a1 : ℕ} (ha0 : a0 < t.size)
    (ha1 : a1 < t.size) (delta0 delta1 alpha one_alpha : K) (data out : Com K) :
    pushDataCovTmpT t a0 a1 delta0 delta1 alpha one_alpha data out =
      .ok (pushDataCovTmp a0 a1 delta0 delta1 alpha one_alpha data out) := by
  unfold pushDataCovTmpT pushDataCovTmp
  rw [foldlM_ok]
  · rfl
  · intro s b0 hb0
    rw [List.mem_range] at hb0
    exact pushDataCovInner0T_ok ht ha0 ha1 (by omega) _ _ _ _ _ _ s

theorem pushDataCovTmpT_tame (t : Table K) (a0 a1 : ℕ) (delta0 delta1 alpha one_alpha : K) (data out : Com K) :
    Tame (pushDataCovTmpT t a0 a1 delta0 delta1 alpha one_alpha data out) :=
  (Tame.foldlM _ _ fun _ _ _ => pushDataCovInner0T_tame _ _ _ _ _ _ _ _ _ _ _).bind fun _ => .pure _

theorem pushDataCovTmpT_undefined_left {t : Table K} {a0 : ℕ} (a1 : ℕ) (ha0 : t.size ≤ a0)
    (delta0 delta1 alpha one_alpha : K) (data out : Com K) :
    pushDataCovTmpT t a0 a1 delta0 delta1 alpha one_alpha data out = .error .undefined :=
  bind_undefined _ (foldlM_undefined _ _
    (fun _ _ _ => pushDataCovInner0T_tame _ _ _ _ _ _ _ _ _ _ _)
    (List.mem_range.2 (Nat.succ_pos a0)) fun _ => bind_undefined _ (lookup_undefined _ ha0))

theorem pushDataCovTmpT_undefined_right {t : Table K} (a0 : ℕ) {a1 : ℕ} (ha1 : t.size ≤ a1)
    (h2 : 2 ≤ a1) (delta0 delta1 alpha one_alpha : K) (data out : Com K) :
    pushDataCovTmpT t a0 a1 delta0 delta1 alpha one_alpha data out = .error .undefined := by
  refine bind_undefined _ (foldlM_undefined _ _
    (fun _ _ _ => pushDataCovInner0T_tame _ _ _ _ _ _ _ _ _ _ _)
    (List.mem_range.2 (Nat.succ_pos a0)) fun s => ?_)
  refine bind_undefined_right (tame_lookup _ _ _) fun f0 => bind_undefined _ ?_
  refine foldlM_undefined _ _ (fun _ _ _ => pushDataCovInner1T_tame _ _ _ _ _ _ _ _ _ _ _ _ _)
    (List.mem_range.2 (Nat.succ_pos a1)) fun s => ?_
  unfold pushDataCovInner1T
  simp only
  rw [if_neg (by omega), if_pos (by omega)]
  exact bind_undefined _ (lookup_undefined _ ha1)

theorem pushDataCovBodyT_ok {t : Table K} (ht : Good t) {o0 o1 : ℕ} (h0 : o0 < t.size) (h1 : o1 < t.size)
    (w : K) (data out : Com K) : pushDataCovBodyT t o0 o1 w data out = lift (pushDataCovBody o0 o1 w data out) := by
  unfold pushDataCovBodyT pushDataCovBody
  by_cases hw : w = 0
  · simp only [if_pos hw, lift]
  simp only [if_neg hw]
  by_cases hd : setAt out 0 0 (out 0 0 + w) 0 0 = 0
  · simp only [if_pos hd, lift]
  simp only [if_neg hd, lift]
  apply foldlM_ok
  intro s a0 ha0
  apply foldlM_ok
  intro s a1 ha1
  simp only [rangeDownTo, List.mem_map, List.mem_range] at ha0 ha1
  obtain ⟨i, _, rfl⟩ := ha0
  obtain ⟨j, _, rfl⟩ := ha1
  rw [pushDataCovTmpT_ok ht (by omega) (by omega)]
  rfl

theorem pushDataCovBodyT_undefined {t : Table K} {o0 o1 : ℕ} (h : t.size ≤ o0 ∨ t.size ≤ o1)
    (h0 : 1 ≤ o0) (h1 : 1 ≤ o1) (w : K) (data out : Com K) (hw : w ≠ 0) (hd : out 0 0 + w ≠ 0) :
    pushDataCovBodyT t o0 o1 w data out = .error .undefined := by
  unfold pushDataCovBodyT
  have hd' : ¬ setAt out 0 0 (out 0 0 + w) 0 0 = 0 := by simpa [setAt] using hd
  simp only [if_neg hw, if_neg hd']
  refine foldlM_undefined _ _ (fun _ _ _ => Tame.foldlM _ _ fun _ _ _ =>
    (pushDataCovTmpT_tame _ _ _ _ _ _ _ _ _).bind fun _ => .pure _)
    ((mem_rangeDownTo (by omega)).2 ⟨by omega, le_rfl⟩ : o0 ∈ _) fun s => ?_
  refine foldlM_undefined _ _ (fun _ _ _ =>
    (pushDataCovTmpT_tame _ _ _ _ _ _ _ _ _).bind fun _ => .pure _)
    ((mem_rangeDownTo (by omega)).2 ⟨by omega, le_rfl⟩ : o1 ∈ _) fun s => bind_undefined _ ?_
  by_cases hl : t.size ≤ o0
  · exact pushDataCovTmpT_undefined_left _ hl _ _ _ _ _ _
  · exact pushDataCovTmpT_undefined_right _ (by omega) (by omega) _ _ _ _ _ _

theorem centralToRawCovRowT_ok {t : Table K} (ht : Good t) {n m i : ℕ} (hn : n < t.size) (hm : m < t.size)
    (hi : i < t.size) (ave1 : K) (central : Com K) (ave_i tmp : K) :
    centralToRawCovRowT t ave1 central n m i ave_i tmp = .ok (Convert.centralToRawCovRow ave1 central n m i ave_i tmp) := by
  unfold centralToRawCovRowT Convert.centralToRawCovRow
  rw [foldlM_ok]
  · rfl
  intro s j hj
  rw [List.mem_range] at hj
  simp only
  split_ifs
  · rfl
  · rfl
  · rw [lookup_ok ht hn hi, lookup_ok ht hm (show j < t.size by omega)]; rfl

theorem centralToRawCovRowT_tame (t : Table K) (n m i : ℕ) (ave1 : K) (central : Com K) (ave_i tmp : K) :
    Tame (centralToRawCovRowT t ave1 central n m i ave_i tmp) := by
  refine Tame.bind (Tame.foldlM _ _ fun s j _ => ?_) fun _ => .pure _
  simp only
  split_ifs
  · exact (Tame.pure _).bind fun _ => .pure _
  · exact (Tame.pure _).bind fun _ => .pure _
  · exact (tame_lookup _ _ _).bind fun _ => (tame_lookup _ _ _).bind fun _ =>
        (Tame.pure _).bind fun _ => .pure _

theorem centralToRawCovRowT_undefined {t : Table K} {n m : ℕ} (h : t.size ≤ n ∨ t.size ≤ m) (hnm : 2 ≤ n + m)
    (ave1 : K) (central : Com K) (ave_i tmp : K) :
    centralToRawCovRowT t ave1 central n m 0 ave_i tmp = .error .undefined := by
  refine bind_undefined _ (foldlM_undefined _ _ (fun s j _ => ?_)
    (List.mem_range.2 (Nat.succ_pos m)) fun s => ?_)
  · simp only
    split_ifs
    · exact (Tame.pure _).bind fun _ => .pure _
    · exact (Tame.pure _).bind fun _ => .pure _
    · exact (tame_lookup _ _ _).bind fun _ => (tame_lookup _ _ _).bind fun _ =>
        (Tame.pure _).bind fun _ => .pure _
  · simp only
    rw [if_neg (by omega), if_neg (by omega)]
    rcases h with h | h
    · exact bind_undefined _ (lookup_undefined _ h)
    · exact bind_undefined_right (tame_lookup _ _ _) fun _ =>
        bind_undefined _ (lookup_undefined _ h)

theorem centralToRawCovEntryT_ok {t : Table K} (ht : Good t) {n m : ℕ} (hn : n < t.size) (hm : m < t.size)
    (ave0 ave1 : K) (central : Com K) :
    centralToRawCovEntryT t ave0 ave1 central n m = .ok (Convert.centralToRawCovEntry ave0 ave1 central n m) := by
  unfold centralToRawCovEntryT Convert.centralToRawCovEntry
  split_ifs
  · rfl
  rw [foldlM_ok]
  · rfl
  intro s i hi
  rw [List.mem_range] at hi
  rw [centralToRawCovRowT_ok ht hn hm (by omega)]
  rfl

theorem centralToRawCovEntryT_tame (t : Table K) (n m : ℕ) (ave0 ave1 : K) (central : Com K) :
    Tame (centralToRawCovEntryT t ave0 ave1 central n m) := by
  unfold centralToRawCovEntryT
  split_ifs
  · exact .ok _
  · exact (Tame.foldlM _ _ fun _ _ _ => (centralToRawCovRowT_tame _ _ _ _ _ _ _ _).bind fun _ =>
      .pure _).bind fun _ => .pure _

theorem centralToRawCovEntryT_undefined {t : Table K} {n m : ℕ} (h : t.size ≤ n ∨ t.size ≤ m) (hnm : 2 ≤ n + m)
    (ave0 ave1 : K) (central : Com K) : centralToRawCovEntryT t ave0 ave1 central n m = .error .undefined := by
  unfold centralToRawCovEntryT
  rw [if_neg (by omega)]
  exact bind_undefined _ (foldlM_undefined _ _
    (fun _ _ _ => (centralToRawCovRowT_tame _ _ _ _ _ _ _ _).bind fun _ => .pure _)
    (List.mem_range.2 (Nat.succ_pos n)) fun _ => bind_undefined _ (centralToRawCovRowT_undefined h hnm _ _ _ _))

theorem centralToRawCovT_ok {t : Table K} (ht : Good t) {o0 o1 : ℕ} (h0 : o0 < t.size) (h1 : o1 < t.size)
    (central raw : Com K) : centralToRawCovT t o0 o1 central raw = .ok (Convert.centralToRawCov o0 o1 central raw) := by
  apply foldlM_ok
  intro s n hn
  apply foldlM_ok
  intro s m hm
  rw [List.mem_range] at hn hm
  rw [centralToRawCovEntryT_ok ht (by omega) (by omega)]
  rfl

theorem centralToRawCovT_undefined {t : Table K} {o0 o1 : ℕ} (h : t.size ≤ o0 ∨ t.size ≤ o1)
    (h2 : 2 ≤ o0 + o1) (central raw : Com K) : centralToRawCovT t o0 o1 central raw = .error .undefined :=
  foldlM_undefined _ _ (fun _ _ _ => Tame.foldlM _ _ fun _ _ _ =>
    (centralToRawCovEntryT_tame _ _ _ _ _ _).bind fun _ => .pure _)
    (List.mem_range.2 (Nat.lt_succ_self o0)) fun _ =>
    foldlM_undefined _ _ (fun _ _ _ => (centralToRawCovEntryT_tame _ _ _ _ _ _).bind fun _ => .pure _)
      (List.mem_range.2 (Nat.lt_succ_self o1)) fun _ =>
      bind_undefined _ (centralToRawCovEntryT_undefined h h2 _ _ _)

theorem rawToCentralCovRowT_ok {t : Table K} (ht : Good t) {n m i : ℕ} (hn : n < t.size) (hm : m < t.size)
    (hi : i < t.size) (ave1 : K) (raw : Com K) (ave_i tmp : K) :
    rawToCentralCovRowT t ave1 raw n m i ave_i tmp = .ok (Convert.rawToCentralCovRow ave1 raw n m i ave_i tmp) := by
  unfold rawToCentralCovRowT Convert.rawToCentralCovRow
  rw [foldlM_ok]
  · rfl
  intro s j hj
  rw [List.mem_range] at hj
  simp only
  split_ifs
  · rfl
  · rw [lookup_ok ht hn hi, lookup_ok ht hm (show j < t.size by omega)]; rfl

theorem rawToCentralCovRowT_tame (t : Table K) (n m i : ℕ) (ave1 : K) (raw : Com K) (ave_i tmp : K) :
    Tame (rawToCentralCovRowT t ave1 raw n m i ave_i tmp) := by
  refine Tame.bind (Tame.foldlM _ _ fun s j _ => ?_) fun _ => .pure _
  simp only
  split_ifs
  · exact (Tame.pure _).bind fun _ => .pure _
  · exact (tame_lookup _ _ _).bind fun _ => (tame_lookup _ _ _).bind fun _ =>
        (Tame.pure _).bind fun _ => .pure _

theorem rawToCentralCovRowT_undefined {t : Table K} {n m : ℕ} (h : t.size ≤ n ∨ t.size ≤ m) (hnm : 2 ≤ n + m)
    (ave1 : K) (raw : Com K) (ave_i tmp : K) :
    rawToCentralCovRowT t ave1 raw n m 0 ave_i tmp = .error .undefined := by
  refine bind_undefined _ (foldlM_undefined _ _ (fun s j _ => ?_)
    (List.mem_range.2 (Nat.succ_pos m)) fun s => ?_)
  · simp only
    split_ifs
    · exact (Tame.pure _).bind fun _ => .pure _
    · exact (tame_lookup _ _ _).bind fun _ => (tame_lookup _ _ _).bind fun _ =>
        (Tame.pure _).bind fun _ => .pure _
  · simp only
    rw [if_neg (by omega)]
    rcases h with h | h
    · exact bind_undefined _ (lookup_undefined _ h)
    · exact bind_undefined_right (tame_lookup _ _ _) fun _ =>
        bind_undefined _ (lookup_undefined _ h)

theorem rawToCentralCovEntryT_ok {t : Table K} (ht : Good t) {n m : ℕ} (hn : n < t.size) (hm : m < t.size)
    (ave0 ave1 : K) (raw : Com K) :
    rawToCentralCovEntryT t ave0 ave1 raw n m = .ok (Convert.rawToCentralCovEntry ave0 ave1 raw n m) := by
  unfold rawToCentralCovEntryT Convert.rawToCentralCovEntry
  split_ifs
  · rfl
  rw [foldlM_ok]
  · rfl
  intro s i hi
  rw [List.mem_range] at hi
  rw [rawToCentralCovRowT_ok ht hn hm (by omega)]
  rfl

theorem rawToCentralCovEntryT_tame (t : Table K) (n m : ℕ) (ave0 ave1 : K) (raw : Com K) :
    Tame (rawToCentralCovEntryT t ave0 ave1 raw n m) := by
  unfold rawToCentralCovEntryT
  split_ifs
  · exact .ok _
  · exact (Tame.foldlM _ _ fun _ _ _ => (rawToCentralCovRowT_tame _ _ _ _ _ _ _ _).bind fun _ =>
      .pure _).bind fun _ => .pure _

theorem rawToCentralCovEntryT_undefined {t : Table K} {n m : ℕ} (h : t.size ≤ n ∨ t.size ≤ m) (hnm : 2 ≤ n + m)
    (ave0 ave1 : K) (raw : Com K) : rawToCentralCovEntryT t ave0 ave1 raw n m = .error .undefined := by
  unfold rawToCentralCovEntryT
  rw [if_neg (by omega)]
  exact bind_undefined _ (foldlM_undefined _ _
    (fun _ _ _ => (rawToCentralCovRowT_tame _ _ _ _ _ _ _ _).bind fun _ => .pure _)
    (List.mem_range.2 (Nat.succ_pos n)) fun _ => bind_undefined _ (rawToCentralCovRowT_undefined h hnm _ _ _ _))

theorem rawToCentralCovT_ok {t : Table K} (ht : Good t) {o0 o1 : ℕ} (h0 : o0 < t.size) (h1 : o1 < t.size)
    (raw central : Com K) : rawToCentralCovT t o0 o1 raw central = .ok (Convert.rawToCentralCov o0 o1 raw central) := by
  apply foldlM_ok
  intro s n hn
  apply foldlM_ok
  intro s m hm
  rw [List.mem_range] at hn hm
  rw [rawToCentralCovEntryT_ok ht (by omega) (by omega)]
  rfl

theorem rawToCentralCovT_undefined {t : Table K} {o0 o1 : ℕ} (h : t.size ≤ o0 ∨ t.size ≤ o1)
    (h2 : 2 ≤ o0 + o1) (raw central : Com K) : rawToCentralCovT t o0 o1 raw central = .error .undefined :=
  foldlM_undefined _ _ (fun _ _ _ => Tame.foldlM _ _ fun _ _ _ =>
    (rawToCentralCovEntryT_tame _ _ _ _ _ _).bind fun _ => .pure _)
    (List.mem_range.2 (Nat.lt_succ_self o0)) fun _ =>
    foldlM_undefined _ _ (fun _ _ _ => (rawToCentralCovEntryT_tame _ _ _ _ _ _).bind fun _ => .pure _)
      (List.mem_range.2 (Nat.lt_succ_self o1)) fun _ =>
      bind_undefined _ (rawToCentralCovEntryT_undefined h h2 _ _ _)

/-! ### the table itself -/

theorem fill_row (n : ℕ) (ks : List ℕ) (out : Com K) (i j : ℕ) :
    ks.foldl (fun out k => setAt out n k (binom n k)) out i j =
      if i = n ∧ j ∈ ks then binom i j else out i j := by
  induction ks generalizing out with
  | nil => simp
  | cons k ks ih =>
    rw [List.foldl_cons, ih]
    by_cases hi : i = n
    · subst hi
      by_cases hj : j = k
      · subst hj; simp [setAt]
      · simp [setAt, hj]
    · simp [setAt, hi]

theorem fill_table (ns ks : List ℕ) (out : Com K) (i j : ℕ) :
    ns.foldl (fun out n => ks.foldl (fun out k => setAt out n k (binom n k)) out) out i j =
      if i ∈ ns ∧ j ∈ ks then binom i j else out i j := by
  induction ns generalizing out with
  | nil => simp
  | cons n ns ih =>
    rw [List.foldl_cons, ih, fill_row]
    by_cases hi : i = n
    · subst hi
      by_cases hj : j ∈ ks <;> simp [hj]
    · simp [hi]

theorem factory_eq (order : ℕ) : ∃ t : Table K, factory (order : ℤ) = .ok t ∧ t.size = order + 1 ∧
    Good t := by
  refine ⟨_, by unfold factory; rw [if_neg (by omega)], by simp, ?_⟩
  intro n k hn hk
  simp only at hn hk ⊢
  rw [fill_table, if_pos ⟨List.mem_range.2 hn, List.mem_range.2 hk⟩]

end Cmomy.Binomial
