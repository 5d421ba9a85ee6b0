import Verif.Lemmas.ObjectStats
import Verif.Props.Convert
import Verif.Props.Select

/-!
# C59: the statistics of an array object are those of its samples
-/

set_option linter.unusedSectionVars false

namespace Cmomy

open Spec Nd Select Convert

section

variable {K : Type*} [Field K] [DecidableEq K] [CharZero K]

theorem num_proper (c : K) : (ObjectStats.num c).Proper := fun _ _ _ => rfl

theorem num_broadcasts (c : K) (s : List ℕ) : Broadcasts (ObjectStats.num c).shape s := by
  intro k a h
  simp [ObjectStats.num] at h

theorem within_one {s : ℕ} {m : List ℕ} : Within [s] m ↔ ∃ n < s, m = [n] := by
  unfold Within
  constructor
  · intro h
    obtain ⟨a, l, h1, h2, rfl⟩ := List.forall₂_cons_right_iff.1 h
    rw [List.forall₂_nil_right_iff] at h2
    exact ⟨a, h1, by rw [h2]⟩
  · rintro ⟨n, h, rfl⟩
    simpa using h

theorem within_two {s t : ℕ} {m : List ℕ} : Within [s, t] m ↔ ∃ a < s, ∃ b < t, m = [a, b] := by
  unfold Within
  constructor
  · intro h
    obtain ⟨a, l, h1, h2, rfl⟩ := List.forall₂_cons_right_iff.1 h
    obtain ⟨b, l', h3, h4, rfl⟩ := List.forall₂_cons_right_iff.1 h2
    rw [List.forall₂_nil_right_iff] at h4
    exact ⟨a, h1, b, h3, by rw [h4]⟩
  · rintro ⟨a, ha, b, hb, rfl⟩
    simpa using ⟨ha, hb⟩

theorem sum_sub_const (l : List (K × K)) (μ : K) :
    (l.map (fun p => p.1 * (p.2 - μ))).sum
      = (l.map (fun p => p.1 * p.2)).sum - μ * (l.map (fun p => p.1)).sum := by
  induction l with
  | nil => simp
  | cons s l ih => simp only [List.map_cons, List.sum_cons, ih]; ring

theorem central_zero {L : List (Sample K)} (h : weight L ≠ 0) : central L 0 = 1 := by
  unfold central
  have : wsum L (fun x => (x - mean L) ^ 0) = weight L := by simp only [wsum, weight, pow_zero, mul_one]
  rw [this, div_self h]

theorem central_one {L : List (Sample K)} (h : weight L ≠ 0) : central L 1 = 0 := by
  unfold central
  have : wsum L (fun x => (x - mean L) ^ 1) = wsum L (fun x => x) - mean L * weight L := by
    simp only [wsum, weight, pow_one]
    have := sum_sub_const (L.map (fun s => (s.w, s.x))) (mean L)
    simpa only [List.map_map, Function.comp_def] using this
  rw [this, mean, div_mul_cancel₀ _ h, sub_self, zero_div]

theorem central2_zero {L : List (Sample2 K)} (h : weight2 L ≠ 0) : central2 L 0 0 = 1 := by
  unfold central2
  have : wsum2 L (fun x y => (x - meanX L) ^ 0 * (y - meanY L) ^ 0) = weight2 L := by
    simp only [wsum2, weight2, pow_zero, mul_one]
  rw [this, div_self h]

theorem central2_one_zero {L : List (Sample2 K)} (h : weight2 L ≠ 0) : central2 L 1 0 = 0 := by
  unfold central2
  have : wsum2 L (fun x y => (x - meanX L) ^ 1 * (y - meanY L) ^ 0)
      = wsum2 L (fun x _ => x) - meanX L * weight2 L := by
    simp only [wsum2, weight2, pow_one, pow_zero, mul_one]
    have := sum_sub_const (L.map (fun s => (s.w, s.x))) (meanX L)
    simpa only [List.map_map, Function.comp_def] using this
  rw [this, meanX, div_mul_cancel₀ _ h, sub_self, zero_div]

theorem central2_zero_one {L : List (Sample2 K)} (h : weight2 L ≠ 0) : central2 L 0 1 = 0 := by
  unfold central2
  have : wsum2 L (fun x y => (x - meanX L) ^ 0 * (y - meanY L) ^ 1)
      = wsum2 L (fun _ y => y) - meanY L * weight2 L := by
    simp only [wsum2, weight2, pow_one, pow_zero, one_mul]
    have := sum_sub_const (L.map (fun s => (s.w, s.y))) (meanY L)
    simpa only [List.map_map, Function.comp_def] using this
  rw [this, meanY, div_mul_cancel₀ _ h, sub_self, zero_div]

theorem rawMoment_zero {L : List (Sample K)} (h : weight L ≠ 0) : rawMoment L 0 = 1 := by
  unfold rawMoment
  have : wsum L (fun x => x ^ 0) = weight L := by simp only [wsum, weight, pow_zero, mul_one]
  rw [this, div_self h]

theorem rawMoment2_zero {L : List (Sample2 K)} (h : weight2 L ≠ 0) : rawMoment2 L 0 0 = 1 := by
  unfold rawMoment2
  have : wsum2 L (fun x y => x ^ 0 * y ^ 0) = weight2 L := by
    simp only [wsum2, weight2, pow_zero, mul_one]
  rw [this, div_self h]

variable {obj : Arr K} {vs ms : List ℕ}

theorem Spec.IsObject.cases (h : IsObject obj vs ms) :
    (∃ s, 2 ≤ s ∧ ms = [s]) ∨ ∃ s t, 2 ≤ s ∧ 2 ≤ t ∧ ms = [s, t] := by
  have hc := h.count
  have ho := h.orders
  rcases ms with _ | ⟨s, _ | ⟨t, _ | ⟨u, l⟩⟩⟩
  · simp at hc
  · exact .inl ⟨s, ho s (by simp), rfl⟩
  · exact .inr ⟨s, t, ho s (by simp), ho t (by simp), rfl⟩
  · simp at hc

theorem Spec.IsObject.weight_selectable (h : IsObject obj vs ms) : Selectable "weight" true ms := by
  rcases h.cases with ⟨s, hs, rfl⟩ | ⟨s, t, hs, ht, rfl⟩
  · refine ⟨by simp [knownNames], ?_⟩
    simp [selection, selection1, Within]
    omega
  · refine ⟨by simp [knownNames], ?_⟩
    simp [selection, selection2, Within]
    omega

theorem Spec.IsObject.ave_selectable (h : IsObject obj vs ms) (sq : Bool) :
    Selectable "ave" sq ms := by
  rcases h.cases with ⟨s, hs, rfl⟩ | ⟨s, t, hs, ht, rfl⟩
  · refine ⟨by simp [knownNames], ?_⟩
    simp [selection, selection1, Within]
    omega
  · refine ⟨by simp [knownNames], ?_⟩
    simp [selection, selection2, Within]
    omega

/-- What `cmom()` does to an array. -/
theorem cmom_object (h : IsObject obj vs ms) :
    ∃ out, ObjectStats.cmom ms.length obj = .ok out ∧ IsObject out vs ms ∧
      ∀ i, InBounds vs i → ∀ m, Within ms m →
        ((∃ c, (c, m) ∈ selection "ave" true ms) → out.get (atMom vs.length i m) = 0) ∧
        ((∃ c, (c, m) ∈ selection "weight" true ms) → (∀ c, (c, m) ∉ selection "ave" true ms) →
          out.get (atMom vs.length i m) = 1) ∧
        ((∀ c, (c, m) ∉ selection "weight" true ms) → (∀ c, (c, m) ∉ selection "ave" true ms) →
          out.get (atMom vs.length i m) = obj.get (atMom vs.length i m)) := by
  obtain ⟨a, a1, a2, a3⟩ := h.assign h.weight_selectable (num_proper 1) (num_broadcasts 1 _) true
  obtain ⟨b, b1, b2, b3⟩ := a2.assign (a2.ave_selectable true) (num_proper 0)
    (num_broadcasts 0 _) false
  refine ⟨b, ?_, b2, fun i hi m hm => ?_⟩
  · have := C40_assign_sequence obj (Select.axesLast ms.length) h.good [("weight", ObjectStats.num 1)]
      [("ave", ObjectStats.num 0)] (by simpa using num_proper 1) (by simpa using num_proper 0)
      true true a (by rw [a1])
    unfold ObjectStats.cmom
    rw [show [("weight", ObjectStats.num (1 : K)), ("ave", ObjectStats.num 0)]
      = [("weight", ObjectStats.num 1)] ++ [("ave", ObjectStats.num 0)] from rfl, this, b1]
  · obtain ⟨a4, a5⟩ := a3 i hi m hm
    obtain ⟨b4, b5⟩ := b3 i hi m hm
    refine ⟨fun ⟨c, hc⟩ => b4 c hc, fun ⟨c, hc⟩ hn => ?_, fun hc hn => ?_⟩
    · rw [b5 hn]; exact a4 c hc
    · rw [b5 hn, a5 hc]

/-- **C59.** `cmom()` shows, for samples of one variable, the central moments of all orders, the
zeroth being one and the first zero. -/
theorem C59_cmom {order : ℕ} {L : (ℕ → ℕ) → List (Sample K)} (h : ObjectOf obj vs order L) :
    ∃ out, ObjectStats.cmom 1 obj = .ok out ∧
      HasValues out vs [order + 1] (fun i m => central (L i) (m.getD 0 0)) := by
  obtain ⟨out, h1, h2, h3⟩ := cmom_object h.object
  refine ⟨out, h1, h2.shape, fun i hi m hm => ?_⟩
  obtain ⟨e1, e2, e3⟩ := h3 i hi m hm
  obtain ⟨n, hn, rfl⟩ := within_one.1 hm
  simp only [selection, selection1] at e1 e2 e3
  have hw := h.nonzero i hi
  have hM := h.moments i hi
  rcases n with _ | _ | n
  · rw [e2 (by simp) (by simp)]; exact (central_zero hw).symm
  · rw [e1 (by simp)]; exact (central_one hw).symm
  · rw [e3 (by simp) (by simp)]; exact hM.central _ (by omega) (by omega)

/-- **C59.** The same for two variables. -/
theorem C59_cmom_cov {o0 o1 : ℕ} {L : (ℕ → ℕ) → List (Sample2 K)} (h : ObjectOf2 obj vs o0 o1 L) :
    ∃ out, ObjectStats.cmom 2 obj = .ok out ∧
      HasValues out vs [o0 + 1, o1 + 1] (fun i m => central2 (L i) (m.getD 0 0) (m.getD 1 0)) := by
  obtain ⟨out, h1, h2, h3⟩ := cmom_object h.object
  refine ⟨out, h1, h2.shape, fun i hi m hm => ?_⟩
  obtain ⟨e1, e2, e3⟩ := h3 i hi m hm
  obtain ⟨a, ha, b, hb, rfl⟩ := within_two.1 hm
  simp only [selection, selection2] at e1 e2 e3
  have hw := h.nonzero i hi
  have hM := h.moments i hi
  by_cases hab : 2 ≤ a + b
  · rw [e3 (by simp; omega) (by simp; omega)]
    exact hM.central a b (by omega) (by omega) hab
  · obtain ⟨rfl, rfl⟩ | ⟨rfl, rfl⟩ | ⟨rfl, rfl⟩ :
        (a = 0 ∧ b = 0) ∨ (a = 1 ∧ b = 0) ∨ (a = 0 ∧ b = 1) := by omega
    · rw [e2 (by simp) (by simp)]; exact (central2_zero hw).symm
    · rw [e1 (by simp)]; exact (central2_one_zero hw).symm
    · rw [e1 (by simp)]; exact (central2_zero_one hw).symm

variable {M : Type*}

/-- What `to_raw(weight=w)` does to an array. -/
theorem toRaw_object (h : IsObject obj vs ms) {core : Core K M} (hc : core.Ok)
    (hn : ms.length = core.nd) (conv : M → M) {w : Arr K} (hw : w.Proper)
    (hb : Broadcasts w.shape vs) :
    ∃ out, ObjectStats.toRaw core conv obj (some w) = .ok out ∧ out.shape = vs ++ ms ∧
      ∀ i, InBounds vs i → ∀ m, Within ms m →
        ((∃ c, (c, m) ∈ selection "weight" true ms) →
          out.get (atMom vs.length i m) = stretch w vs.length i) ∧
        ((∀ c, (c, m) ∉ selection "weight" true ms) → out.get (atMom vs.length i m)
          = core.ent (conv (core.recd fun l => obj.get (atMom vs.length i l))) m) := by
  obtain ⟨r, r1, r2, r3, r4⟩ := h.convert hc hn conv
  have hr : IsObject r vs ms := ⟨r2, r3, h.count, h.orders⟩
  have e0 : selShape "weight" true ms = [] := by simp [selShape]
  obtain ⟨a, a1, a2, a3⟩ := hr.assign hr.weight_selectable hw (by rw [e0, List.append_nil]; exact hb)
    false
  refine ⟨a, ?_, a2.shape, fun i hi m hm => ?_⟩
  · unfold ObjectStats.toRaw
    rw [r1]
    show (assignMoment r (Select.axesLast core.nd) [("weight", w)] true false).2 = _
    rw [← hn, a1]
  · obtain ⟨a4, a5⟩ := a3 i hi m hm
    refine ⟨fun ⟨c, hc⟩ => ?_, fun hc => ?_⟩
    · rw [a4 c hc, e0, List.append_nil]
      have : c = [] := by
        rcases h.cases with ⟨s, _, rfl⟩ | ⟨s, t, _, _, rfl⟩
        · simp only [selection, selection1] at hc; simp at hc; exact hc.1
        · simp only [selection, selection2] at hc; simp at hc; exact hc.1
      subst this
      unfold stretch
      refine hw _ _ fun ax hax => ?_
      by_cases h1 : w.shape.getD ax 0 = 1
      · rw [if_pos h1, if_pos h1]
      · rw [if_neg h1, if_neg h1, atMom, if_pos]
        by_contra hlt
        have hz : vs = [] := List.eq_nil_of_length_eq_zero (by omega)
        subst hz
        have hk := hb (w.shape.length - 1 - ax) (w.shape.getD ax 0) (by
          rw [List.getElem?_reverse (by omega), List.getD_eq_getElem _ _ hax]
          rw [show w.shape.length - 1 - (w.shape.length - 1 - ax) = ax by omega]
          exact List.getElem?_eq_getElem hax)
        simp at hk
        exact h1 (by simpa using hk)
    · rw [a5 hc, r4 i hi m hm]

/-- What `to_raw()` does to an array. -/
theorem toRaw_object_none (h : IsObject obj vs ms) {core : Core K M} (hc : core.Ok)
    (hn : ms.length = core.nd) (conv : M → M) :
    ∃ out, ObjectStats.toRaw core conv obj none = .ok out ∧ HasValues out vs ms (fun i m =>
      core.ent (conv (core.recd fun l => obj.get (atMom vs.length i l))) m) := by
  obtain ⟨r, r1, r2, r3, r4⟩ := h.convert hc hn conv
  refine ⟨r, ?_, r3, r4⟩
  unfold ObjectStats.toRaw
  rw [r1]
  rfl

/-- **C59.** `to_raw()` shows the weight and, for all orders from one, the raw moments. -/
theorem C59_to_raw {order : ℕ} {L : (ℕ → ℕ) → List (Sample K)} (h : ObjectOf obj vs order L)
    (mem : Mom K) :
    ∃ out, ObjectStats.toRaw core1 (fun c => centralToRaw order c mem) obj none = .ok out ∧
      HasValues out vs [order + 1] (fun i m =>
        if m.getD 0 0 = 0 then weight (L i) else rawMoment (L i) (m.getD 0 0)) := by
  obtain ⟨out, h1, h2⟩ := toRaw_object_none h.object core1_ok rfl (fun c => centralToRaw order c mem)
  refine ⟨out, h1, h2.shape, fun i hi m hm => ?_⟩
  rw [h2.value i hi m hm]
  obtain ⟨n, hn, rfl⟩ := within_one.1 hm
  obtain ⟨e1, e2⟩ := C14_central_to_raw order (L i) (h.nonzero i hi) _ mem (h.moments i hi)
  show centralToRaw order _ mem n = if n = 0 then _ else rawMoment (L i) n
  by_cases hz : n = 0
  · subst hz; rw [if_pos rfl]; exact e1
  · rw [if_neg hz]; exact e2 n (by omega) (by omega)

/-- **C59.** `to_raw(weight=w)` shows the given weight, repeated over the axes, instead. -/
theorem C59_to_raw_weight {order : ℕ} {L : (ℕ → ℕ) → List (Sample K)} (h : ObjectOf obj vs order L)
    (mem : Mom K) {w : Arr K} (hw : w.Proper) (hb : Broadcasts w.shape vs) :
    ∃ out, ObjectStats.toRaw core1 (fun c => centralToRaw order c mem) obj (some w) = .ok out ∧
      HasValues out vs [order + 1] (fun i m =>
        if m.getD 0 0 = 0 then stretch w vs.length i else rawMoment (L i) (m.getD 0 0)) := by
  obtain ⟨out, h1, h2, h3⟩ := toRaw_object h.object core1_ok rfl
    (fun c => centralToRaw order c mem) hw hb
  refine ⟨out, h1, h2, fun i hi m hm => ?_⟩
  obtain ⟨e1, e2⟩ := h3 i hi m hm
  obtain ⟨n, hn, rfl⟩ := within_one.1 hm
  simp only [selection, selection1] at e1 e2
  by_cases hz : n = 0
  · subst hz
    exact e1 (by simp)
  · rw [e2 (by simpa using hz)]
    simp only [List.getD_cons_zero, if_neg hz]
    exact (C14_central_to_raw order (L i) (h.nonzero i hi) _ mem (h.moments i hi)).2 n (by omega)
      (by omega)

/-- **C59.** `rmom()` shows the raw moments of all orders. -/
theorem C59_rmom {order : ℕ} {L : (ℕ → ℕ) → List (Sample K)} (h : ObjectOf obj vs order L)
    (mem : Mom K) :
    ∃ out, ObjectStats.rmom core1 (fun c => centralToRaw order c mem) obj = .ok out ∧
      HasValues out vs [order + 1] (fun i m => rawMoment (L i) (m.getD 0 0)) := by
  obtain ⟨out, h1, h2⟩ := C59_to_raw_weight h mem (num_proper 1) (num_broadcasts 1 _)
  refine ⟨out, h1, h2.shape, fun i hi m hm => ?_⟩
  rw [h2.value i hi m hm]
  by_cases hz : m.getD 0 0 = 0
  · rw [if_pos hz, hz, rawMoment_zero (h.nonzero i hi)]; rfl
  · rw [if_neg hz]

/-- **C59.** `to_raw()` for two variables. -/
theorem C59_to_raw_cov {o0 o1 : ℕ} {L : (ℕ → ℕ) → List (Sample2 K)} (h : ObjectOf2 obj vs o0 o1 L)
    (mem : Com K) :
    ∃ out, ObjectStats.toRaw core2 (fun c => centralToRawCov o0 o1 c mem) obj none = .ok out ∧
      HasValues out vs [o0 + 1, o1 + 1] (fun i m =>
        if m.getD 0 0 = 0 ∧ m.getD 1 0 = 0 then weight2 (L i)
        else rawMoment2 (L i) (m.getD 0 0) (m.getD 1 0)) := by
  obtain ⟨out, h1, h2⟩ := toRaw_object_none h.object core2_ok rfl
    (fun c => centralToRawCov o0 o1 c mem)
  refine ⟨out, h1, h2.shape, fun i hi m hm => ?_⟩
  rw [h2.value i hi m hm]
  obtain ⟨a, ha, b, hb, rfl⟩ := within_two.1 hm
  obtain ⟨e1, e2⟩ := C15_central_to_raw o0 o1 (L i) (h.nonzero i hi) _ mem (h.moments i hi)
  show centralToRawCov o0 o1 _ mem a b = if a = 0 ∧ b = 0 then _ else rawMoment2 (L i) a b
  by_cases hz : a = 0 ∧ b = 0
  · rw [if_pos hz, hz.1, hz.2]; exact e1
  · rw [if_neg hz]; exact e2 a b (by omega) (by omega) (by omega)

/-- **C59.** `to_raw(weight=w)` for two variables. -/
theorem C59_to_raw_weight_cov {o0 o1 : ℕ} {L : (ℕ → ℕ) → List (Sample2 K)}
    (h : ObjectOf2 obj vs o0 o1 L) (mem : Com K) {w : Arr K} (hw : w.Proper)
    (hb : Broadcasts w.shape vs) :
    ∃ out, ObjectStats.toRaw core2 (fun c => centralToRawCov o0 o1 c mem) obj (some w) = .ok out ∧
      HasValues out vs [o0 + 1, o1 + 1] (fun i m =>
        if m.getD 0 0 = 0 ∧ m.getD 1 0 = 0 then stretch w vs.length i
        else rawMoment2 (L i) (m.getD 0 0) (m.getD 1 0)) := by
  obtain ⟨out, h1, h2, h3⟩ := toRaw_object h.object core2_ok rfl
    (fun c => centralToRawCov o0 o1 c mem) hw hb
  refine ⟨out, h1, h2, fun i hi m hm => ?_⟩
  obtain ⟨e1, e2⟩ := h3 i hi m hm
  obtain ⟨a, ha, b, hb, rfl⟩ := within_two.1 hm
  simp only [selection, selection2] at e1 e2
  simp only [List.getD_cons_zero, List.getD_cons_succ]
  by_cases hz : a = 0 ∧ b = 0
  · rw [if_pos hz, e1 (by simp [hz])]
  · rw [if_neg hz, e2 (by simp; omega)]
    exact (C15_central_to_raw o0 o1 (L i) (h.nonzero i hi) _ mem (h.moments i hi)).2 a b (by omega)
      (by omega) (by omega)

/-- **C59.** `rmom()` for two variables. -/
theorem C59_rmom_cov {o0 o1 : ℕ} {L : (ℕ → ℕ) → List (Sample2 K)} (h : ObjectOf2 obj vs o0 o1 L)
    (mem : Com K) :
    ∃ out, ObjectStats.rmom core2 (fun c => centralToRawCov o0 o1 c mem) obj = .ok out ∧
      HasValues out vs [o0 + 1, o1 + 1] (fun i m =>
        rawMoment2 (L i) (m.getD 0 0) (m.getD 1 0)) := by
  obtain ⟨out, h1, h2⟩ := C59_to_raw_weight_cov h mem (num_proper 1) (num_broadcasts 1 _)
  refine ⟨out, h1, h2.shape, fun i hi m hm => ?_⟩
  rw [h2.value i hi m hm]
  by_cases hz : m.getD 0 0 = 0 ∧ m.getD 1 0 = 0
  · rw [if_pos hz, hz.1, hz.2, rawMoment2_zero (h.nonzero i hi)]; rfl
  · rw [if_neg hz]

/-- A selection without coordinates of its own. -/
theorem Spec.IsObject.selectOne (h : IsObject obj vs ms) {name : String} {sq : Bool}
    (hs : Selectable name sq ms) (h0 : selShape name sq ms = []) {m : List ℕ}
    (hm : ([], m) ∈ selection name sq ms) :
    ∃ out, selectMoment obj (Select.axesLast ms.length) name sq = .ok out ∧
      HasValues out vs [] (fun i _ => obj.get (atMom vs.length i m)) := by
  obtain ⟨out, h1, h2, h3, h4⟩ := h.select hs
  refine ⟨out, h1, by rw [h2, h0], fun i _ c hc => ?_⟩
  obtain rfl : c = [] := List.forall₂_nil_right_iff.1 hc
  exact h4 _ hm i

/-- **C59.** `weight()`, `mean()`, `mean(squeeze=False)` of an object. -/
theorem C59_weight_mean {order : ℕ} {L : (ℕ → ℕ) → List (Sample K)} (h : ObjectOf obj vs order L) :
    (∃ out, ObjectStats.weight 1 obj = .ok out ∧ HasValues out vs [] (fun i _ => weight (L i))) ∧
    (∃ out, ObjectStats.mean 1 obj true = .ok out ∧ HasValues out vs [] (fun i _ => mean (L i))) ∧
    ∃ out, ObjectStats.mean 1 obj false = .ok out ∧
      HasValues out vs [1] (fun i _ => mean (L i)) := by
  refine ⟨?_, ?_, ?_⟩
  · obtain ⟨out, h1, h2⟩ := h.object.selectOne h.object.weight_selectable (by simp [selShape])
      (m := [0]) (by simp [selection, selection1])
    exact ⟨out, h1, h2.shape, fun i hi m hm => (h2.value i hi m hm).trans (h.moments i hi).weight⟩
  · obtain ⟨out, h1, h2⟩ := h.object.selectOne (h.object.ave_selectable true) (by simp [selShape])
      (m := [1]) (by simp [selection, selection1])
    exact ⟨out, h1, h2.shape, fun i hi m hm => (h2.value i hi m hm).trans (h.moments i hi).mean⟩
  · obtain ⟨out, h1, h2, -, h3⟩ := h.object.select (h.object.ave_selectable false)
    refine ⟨out, h1, h2, fun i hi m hm => ?_⟩
    obtain ⟨n, hn, rfl⟩ := within_one.1 hm
    obtain rfl : n = 0 := by omega
    exact (h3 ([0], [1]) (by simp [selection, selection1]) i).trans (h.moments i hi).mean

/-- **C59.** `var()`, `cov()`, `std()` of an object with order at least two; for one variable the
covariance is the variance. -/
theorem C59_var {order : ℕ} {L : (ℕ → ℕ) → List (Sample K)} (h : ObjectOf obj vs order L)
    (ho : 2 ≤ order) (sqrt : K → K) :
    (∃ out, ObjectStats.var 1 obj true = .ok out ∧
      HasValues out vs [] (fun i _ => central (L i) 2)) ∧
    (∃ out, ObjectStats.var 1 obj false = .ok out ∧
      HasValues out vs [1] (fun i _ => central (L i) 2)) ∧
    (∃ out, ObjectStats.cov 1 obj = .ok out ∧ HasValues out vs [] (fun i _ => central (L i) 2)) ∧
    ∃ out, ObjectStats.std sqrt 1 obj true = .ok out ∧
      HasValues out vs [] (fun i _ => sqrt (central (L i) 2)) := by
  have hs : ∀ name ∈ ["var", "cov"], ∀ sq, Selectable name sq [order + 1] := by
    intro name hn sq
    rcases List.mem_pair.1 hn with rfl | rfl
    · refine ⟨by simp [knownNames], ?_⟩
      simp [selection, selection1, Within]; omega
    · refine ⟨by simp [knownNames], ?_⟩
      simp [selection, selection1, Within]; omega
  have hc : ∀ i, InBounds vs i → obj.get (atMom vs.length i [2]) = central (L i) 2 := fun i hi =>
    (h.moments i hi).central 2 le_rfl ho
  obtain ⟨v, v1, v2⟩ := h.object.selectOne (hs "var" (by simp) true) (by simp [selShape])
    (m := [2]) (by simp [selection, selection1])
  refine ⟨⟨v, v1, v2.shape, fun i hi m hm => (v2.value i hi m hm).trans (hc i hi)⟩, ?_, ?_, ?_⟩
  · obtain ⟨out, h1, h2, -, h3⟩ := h.object.select (hs "var" (by simp) false)
    refine ⟨out, h1, h2, fun i hi m hm => ?_⟩
    obtain ⟨n, hn, rfl⟩ := within_one.1 hm
    obtain rfl : n = 0 := by omega
    exact (h3 ([0], [2]) (by simp [selection, selection1]) i).trans (hc i hi)
  · obtain ⟨out, h1, h2⟩ := h.object.selectOne (hs "cov" (by simp) true) (by simp [selShape])
      (m := [2]) (by simp [selection, selection1])
    exact ⟨out, h1, h2.shape, fun i hi m hm => (h2.value i hi m hm).trans (hc i hi)⟩
  · refine ⟨⟨v.shape, fun i => sqrt (v.get i)⟩, ?_, v2.shape, fun i hi m hm => ?_⟩
    · unfold ObjectStats.std ObjectStats.var
      rw [show selectMoment obj (Select.axesLast 1) "var" true = .ok v from v1]; rfl
    · show sqrt (v.get _) = _
      rw [v2.value i hi m hm, hc i hi]

/-- **C59.** With order one there is no variance: `var`, `cov` and `std` are refused with
`IndexError`. -/
theorem C59_var_missing (h : IsObject obj vs [2]) (sq : Bool) (sqrt : K → K) :
    ObjectStats.var 1 obj sq = .error .indexError ∧ ObjectStats.cov 1 obj = .error .indexError ∧
      ObjectStats.std sqrt 1 obj sq = .error .indexError := by
  have hr : ∀ name ∈ ["var", "cov"], ∀ sq,
      selectMoment obj (Select.axesLast 1) name sq = .error .indexError := by
    intro name hn sq
    refine (C40_select_rejects obj (Select.axesLast 1) h.good name sq).2 ?_ ?_
    · rcases List.mem_pair.1 hn with rfl | rfl <;> decide
    · have e := h.momSizes_eq
      intro hs
      rw [show momSizes obj (Select.axesLast 1) = [2] from e] at hs
      rcases List.mem_pair.1 hn with rfl | rfl
      · have := hs.2 (if sq then [] else [0], [2]) (by simp [selection, selection1])
        simp [Within] at this
      · have := hs.2 ([], [2]) (by simp [selection, selection1])
        simp [Within] at this
  refine ⟨hr "var" (by simp) sq, hr "cov" (by simp) true, ?_⟩
  unfold ObjectStats.std ObjectStats.var
  rw [hr "var" (by simp) sq]
  rfl

/-- **C59.** The statistics for two variables: weight, the two means, the covariance. -/
theorem C59_stats_cov {o0 o1 : ℕ} {L : (ℕ → ℕ) → List (Sample2 K)} (h : ObjectOf2 obj vs o0 o1 L) :
    (∃ out, ObjectStats.weight 2 obj = .ok out ∧ HasValues out vs [] (fun i _ => weight2 (L i))) ∧
    (∀ sq, ∃ out, ObjectStats.mean 2 obj sq = .ok out ∧ HasValues out vs [2] (fun i m =>
      if m.getD 0 0 = 0 then meanX (L i) else meanY (L i))) ∧
    ∃ out, ObjectStats.cov 2 obj = .ok out ∧
      HasValues out vs [] (fun i _ => central2 (L i) 1 1) := by
  refine ⟨?_, fun sq => ?_, ?_⟩
  · obtain ⟨out, h1, h2⟩ := h.object.selectOne h.object.weight_selectable (by simp [selShape])
      (m := [0, 0]) (by simp [selection, selection2])
    exact ⟨out, h1, h2.shape, fun i hi m hm => (h2.value i hi m hm).trans (h.moments i hi).weight⟩
  · obtain ⟨out, h1, h2, -, h3⟩ := h.object.select (h.object.ave_selectable sq)
    refine ⟨out, h1, h2, fun i hi m hm => ?_⟩
    obtain ⟨n, hn, rfl⟩ := within_one.1 hm
    obtain rfl | rfl : n = 0 ∨ n = 1 := by omega
    · exact (h3 ([0], [1, 0]) (by simp [selection, selection2]) i).trans (h.moments i hi).meanX
    · exact (h3 ([1], [0, 1]) (by simp [selection, selection2]) i).trans (h.moments i hi).meanY
  · have h0 := h.object.orders (o0 + 1) (by simp)
    have h1 := h.object.orders (o1 + 1) (by simp)
    obtain ⟨out, e1, e2⟩ := h.object.selectOne (name := "cov") (sq := true)
      ⟨by simp [knownNames], by simp [selection, selection2, Within]; omega⟩ (by simp [selShape])
      (m := [1, 1]) (by simp [selection, selection2])
    exact ⟨out, e1, e2.shape, fun i hi m hm => (e2.value i hi m hm).trans
      ((h.moments i hi).central 1 1 (by omega) (by omega) le_rfl)⟩

/-- **C59.** The two variances, for orders at least two. -/
theorem C59_var_cov {o0 o1 : ℕ} {L : (ℕ → ℕ) → List (Sample2 K)} (h : ObjectOf2 obj vs o0 o1 L)
    (h0 : 2 ≤ o0) (h1 : 2 ≤ o1) (sq : Bool) (sqrt : K → K) :
    (∃ out, ObjectStats.var 2 obj sq = .ok out ∧ HasValues out vs [2] (fun i m =>
      if m.getD 0 0 = 0 then central2 (L i) 2 0 else central2 (L i) 0 2)) ∧
    ∃ out, ObjectStats.std sqrt 2 obj sq = .ok out ∧ HasValues out vs [2] (fun i m =>
      sqrt (if m.getD 0 0 = 0 then central2 (L i) 2 0 else central2 (L i) 0 2)) := by
  obtain ⟨out, e1, e2, -, e3⟩ := h.object.select (name := "var") (sq := sq)
    ⟨by simp [knownNames], by simp [selection, selection2, Within]; omega⟩
  have hv : HasValues out vs [2] (fun i m =>
      if m.getD 0 0 = 0 then central2 (L i) 2 0 else central2 (L i) 0 2) := by
    refine ⟨e2, fun i hi m hm => ?_⟩
    obtain ⟨n, hn, rfl⟩ := within_one.1 hm
    obtain rfl | rfl : n = 0 ∨ n = 1 := by omega
    · exact (e3 ([0], [2, 0]) (by simp [selection, selection2]) i).trans
        ((h.moments i hi).central 2 0 (by omega) (by omega) le_rfl)
    · exact (e3 ([1], [0, 2]) (by simp [selection, selection2]) i).trans
        ((h.moments i hi).central 0 2 (by omega) (by omega) le_rfl)
  refine ⟨⟨out, e1, hv⟩, ⟨⟨out.shape, fun i => sqrt (out.get i)⟩, ?_, hv.shape, fun i hi m hm => ?_⟩⟩
  · unfold ObjectStats.std ObjectStats.var
    rw [show selectMoment obj (Select.axesLast 2) "var" sq = .ok out from e1]; rfl
  · show sqrt (out.get _) = _
    rw [hv.value i hi m hm]

end

/-- Two records: those of `0, 2` and of `1, 4, 4`. -/
def exStat : Arr ℚ := ⟨[2, 4], fun i =>
  ([[2, 1, 1, 0], [3, 3, 2, -2]].getD (i 0) []).getD (i 1) 0⟩

/-- The samples behind `exStat`. -/
def exStatL (i : ℕ → ℕ) : List (Sample ℚ) :=
  if i 0 = 0 then [⟨1, 0⟩, ⟨1, 2⟩] else [⟨1, 1⟩, ⟨1, 4⟩, ⟨1, 4⟩]

theorem exStat_object : ObjectOf exStat [2] 3 exStatL where
  object := {
    proper := by
      intro i j h
      have h0 := h 0 (by decide)
      have h1 := h 1 (by decide)
      simp [exStat, h0, h1]
    shape := rfl
    count := by decide
    orders := by decide }
  nonzero := by
    intro i hi
    unfold exStatL
    split_ifs <;> norm_num [weight]
  moments := by
    intro i hi
    have h0 : i 0 < 2 := hi 0 (by decide)
    obtain e | e : i 0 = 0 ∨ i 0 = 1 := by omega
    all_goals
      refine ⟨?_, ?_, fun n h1 h2 => ?_⟩
      · norm_num [exStatL, e, exStat, atMom, weight]
      · norm_num [exStatL, e, exStat, atMom, weight, mean, wsum]
      · obtain rfl | rfl : n = 2 ∨ n = 3 := by omega
        all_goals norm_num [exStatL, e, exStat, atMom, weight, mean, wsum, central]

example := C59_cmom exStat_object
example := C59_to_raw exStat_object (fun _ => 0)
example := C59_to_raw_weight exStat_object (fun _ => 0) (w := ⟨[1], fun _ => 7⟩)
  (fun _ _ _ => rfl) (broadcasts_of (by decide))
example := C59_rmom exStat_object (fun _ => 0)
example := C59_weight_mean exStat_object
example := C59_var exStat_object (by decide) id

example : items (ObjectStats.cmom 1 exStat) [[1, 0], [1, 1], [1, 2], [1, 3]]
    = some ([2, 4], [1, 0, 2, -2]) := by decide +kernel

example : items (ObjectStats.rmom core1 (fun c => centralToRaw 3 c (fun _ => 0)) exStat)
    [[1, 0], [1, 1], [1, 2], [1, 3]] = some ([2, 4], [1, 3, 11, 43]) := by decide +kernel

/-- One record of order one. -/
def exStat1 : Arr ℚ := ⟨[2], fun i => i 0⟩

theorem exStat1_object : IsObject exStat1 [] [2] where
  proper := by
    intro i j h
    have h0 := h 0 (by decide)
    simp [exStat1, h0]
  shape := rfl
  count := by decide
  orders := by decide

example := C59_var_missing exStat1_object true id

/-- The comoments of `(0, 1), (2, 1), (4, 4)`. -/
def exStat2 : Arr ℚ := ⟨[3, 3], fun i =>
  ([[3, 2, 2], [2, 2, 2], [8 / 3, 4 / 3, 20 / 3]].getD (i 0) []).getD (i 1) 0⟩

theorem exStat2_object :
    ObjectOf2 exStat2 [] 2 2 (fun _ => [⟨1, 0, 1⟩, ⟨1, 2, 1⟩, ⟨1, 4, 4⟩]) where
  object := {
    proper := by
      intro i j h
      have h0 := h 0 (by decide)
      have h1 := h 1 (by decide)
      simp [exStat2, h0, h1]
    shape := rfl
    count := by decide
    orders := by decide }
  nonzero := by intro i hi; norm_num [weight2]
  moments := by
    intro i hi
    refine ⟨?_, ?_, ?_, fun a b ha hb hab => ?_⟩
    · norm_num [exStat2, atMom, weight2]
    · norm_num [exStat2, atMom, weight2, meanX, wsum2]
    · norm_num [exStat2, atMom, weight2, meanY, wsum2]
    · obtain rfl | rfl | rfl : a = 0 ∨ a = 1 ∨ a = 2 := by omega
      all_goals
        obtain rfl | rfl | rfl : b = 0 ∨ b = 1 ∨ b = 2 := by omega
        all_goals first
          | omega
          | norm_num [exStat2, atMom, weight2, meanX, meanY, wsum2, central2]

example := C59_cmom_cov exStat2_object
example := C59_to_raw_cov exStat2_object (fun _ _ => 0)
example := C59_to_raw_weight_cov exStat2_object (fun _ _ => 0) (w := ⟨[1], fun _ => 7⟩)
  (fun _ _ _ => rfl) (broadcasts_of (by decide))
example := C59_rmom_cov exStat2_object (fun _ _ => 0)
example := C59_stats_cov exStat2_object
example := C59_var_cov exStat2_object (by decide) (by decide) true id

end Cmomy
