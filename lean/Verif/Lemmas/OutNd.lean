import Verif.Model.Out
import Verif.Lemmas.Select
import Verif.Lemmas.AxisOps

/-!
# Lemmas about reductions written to a given array
-/

namespace Cmomy.Nd

open Spec Axes
open Select

theorem whole_squeeze {shape : List ℕ} {n : ℕ} (hl : shape.length = n) {zs : List ℤ}
    (hr : ∀ z ∈ zs, InRange n z) (hd : (zs.map (wrap n)).Nodup)
    (h1 : ∀ a ∈ zs.map (wrap n), shape.getD a 0 = 1) :
    (View.whole shape).squeeze zs = .ok
      ⟨(keptAxes n (zs.map (wrap n))).map (fun p => shape.getD p 0),
        fun i p => i ((keptAxes n (zs.map (wrap n))).getD p 0)⟩ := by
  have e := (normalizeAxes_int_ok_iff zs shape.length none false _).2
    ⟨by rw [hl]; exact hr, rfl, .inr (by rw [hl]; exact hd)⟩
  unfold View.squeeze
  show Except.bind (normalizeAxes (zs.map .int) shape.length none false) _ = _
  rw [e]
  simp only [Except.bind, View.whole, hl]
  rw [if_neg]
  · rfl
  · rintro ⟨a, ha, hne⟩
    exact hne (h1 a ha)

variable {K V M : Type*} [Field K] [DecidableEq K]

theorem fill_ok {α : Type*} {v : View} {out r z : Arr α} (hs : v.shape = r.shape)
    (hz : out.shape = z.shape) (hg : ∀ i, r.get (v.pos i) = z.get i) : v.fill out r = .ok z := by
  unfold View.fill
  rw [if_pos hs, hz]
  obtain ⟨s, g⟩ := z
  have : (fun i => r.get (v.pos i)) = g := funext hg
  rw [this]

theorem wraps_natCast {n : ℕ} {l : List ℕ} (h : ∀ a ∈ l, a < n) :
    (l.map (fun a : ℕ => (a : ℤ))).map (wrap n) = l := by
  rw [List.map_map]
  conv_rhs => rw [← List.map_id l]
  exact List.map_congr_left fun a ha => wrap_natCast (h a ha)

theorem inRanges_natCast {n : ℕ} {l : List ℕ} (h : ∀ a ∈ l, a < n) :
    ∀ z ∈ l.map (fun a : ℕ => (a : ℤ)), InRange n z := by
  intro z hz
  obtain ⟨a, ha, rfl⟩ := List.mem_map.1 hz
  exact inRange_natCast (h a ha)

/-- The axes in front of the moments, without the reduced ones. -/
theorem keptAxes_middle {q l d : ℕ} (h : d ≤ q) :
    keptAxes (q + l) ((List.range l).map (fun j => q - d + j))
      = List.range (q - d) ++ (List.range d).map (fun j => q - d + l + j) := by
  refine List.Perm.eq_of_pairwise (le := (· < ·)) ?_ ?_ ?_ ?_
  · intro a b _ _ h1 h2; omega
  · exact List.pairwise_lt_range.filter _
  · rw [List.pairwise_append]
    refine ⟨List.pairwise_lt_range, ?_, ?_⟩
    · rw [List.pairwise_map]
      exact List.pairwise_lt_range.imp fun h => by omega
    · intro a ha b hb
      obtain ⟨j, -, rfl⟩ := List.mem_map.1 hb
      have := List.mem_range.1 ha
      omega
  · refine (List.perm_ext_iff_of_nodup (List.nodup_range.filter _) ?_).2 ?_
    · rw [List.nodup_append]
      refine ⟨List.nodup_range, List.nodup_range.map_on (by intro a _ b _ h; omega), ?_⟩
      rintro a ha b hb rfl
      obtain ⟨j, -, e⟩ := List.mem_map.1 hb
      have := List.mem_range.1 ha
      omega
    · intro a
      rw [← keptAxes, mem_keptAxes]
      simp only [List.mem_append, List.mem_range, List.mem_map]
      constructor
      · rintro ⟨h1, h2⟩
        by_cases h3 : a < q - d
        · exact .inl h3
        · refine .inr ⟨a - (q - d + l), ?_, ?_⟩
          · by_contra h4
            exact h2 ⟨a - (q - d), by omega, by omega⟩
          · by_contra h4
            exact h2 ⟨a - (q - d), by omega, by omega⟩
      · rintro (h1 | ⟨j, h1, rfl⟩)
        · exact ⟨by omega, by rintro ⟨j, h2, h3⟩; omega⟩
        · exact ⟨by omega, by rintro ⟨j', h2, h3⟩; omega⟩

theorem move_end {L : Type*} {a r : Arr L} {n : ℕ} (hl : a.shape.length = n) {s : List ℕ} (hs : s.Nodup)
    (hn : ∀ p ∈ s, p < n)
    (h : a.moveaxis s ((List.range s.length).map (fun j : ℕ => -(s.length : ℤ) + j)) = .ok r) :
    ∃ order, keptAxes n s ++ s = order ∧ r = a.transpose order := by
  refine ⟨_, rfl, ?_⟩
  have := moveToEnd hs hn
  unfold Arr.moveaxis at h
  rw [hl] at h
  rw [List.map_map] at h
  have e : (List.range s.length).map ((AxisArg.int) ∘ (fun j : ℕ => -(s.length : ℤ) + j))
      = (List.range s.length).map (fun j : ℕ => .int (-(s.length : ℤ) + j)) := rfl
  rw [e, this] at h
  exact (Except.ok.inj h).symm

theorem move_front {n : ℕ} {s : List ℕ} (hs : s.Nodup) (hn : ∀ p ∈ s, p < n) :
    ∃ o', moveaxisOrder n ((axesLast s.length).map .int) ((s.map (fun a : ℕ => (a : ℤ))).map .int)
        = .ok o' ∧ o'.Perm (List.range n) ∧
      ∀ i < n, ∃ j, o'[i]? = some j ∧ (keptAxes n s ++ s)[j]? = some i := by
  obtain ⟨-, o', h2, h3, h4⟩ := move_orders (inRanges_natCast hn) (by rw [wraps_natCast hn]; exact hs)
  rw [List.length_map] at h2
  rw [wraps_natCast hn] at h4
  exact ⟨o', h2, h3, h4⟩

/-- Reductions of arrays write their result to `out`. -/
theorem reduceCoreOut_ok (core : Core K M) (hc : core.Ok) (k : Kernel K V M) {data : Arr K}
    (hp : data.Proper) {mom axes : List ℕ} (hne : axes ≠ []) (hx : axes.Nodup)
    (hxn : ∀ a ∈ axes, a < data.shape.length) (hm : mom.Nodup)
    (hmn : ∀ a ∈ mom, a < data.shape.length) (hd : ∀ a ∈ mom, a ∉ axes)
    (hz : ∀ a ∈ keptAxes data.shape.length axes, axisSize data a ≠ 0)
    (hnd : mom.length = core.nd) {keepdims axesToEnd : Bool} {out r : Arr (Option K)}
    (h : reduceCore core k data mom axes keepdims axesToEnd = .ok r)
    (hout : out.shape = r.shape) :
    reduceCoreOut core k data mom axes keepdims axesToEnd out = .ok (r, r) := by
  obtain ⟨d, g, e1, e2, hlay, hprop⟩ := reduce_plain core hc k hp hx hxn hm hmn hd hz
  have e0 := moveToEnd hx hxn
  set n := data.shape.length with hn
  set kept := keptAxes n axes with hkept
  have hl : kept.length + axes.length = n := keptAxes_length hx hxn
  have hkn : kept.Nodup := keptAxes_nodup _ _
  have hmk : ∀ a ∈ mom, a ∈ kept := fun a ha => mem_keptAxes.2 ⟨hmn a ha, hd a ha⟩
  have hmidx : mom.map (kept ++ axes).idxOf = mom.map kept.idxOf :=
    List.map_congr_left fun a ha => idxOf_append_left (hmn a ha) (hd a ha)
  rw [hmidx] at e2
  have hgl : g.shape.length = kept.length := by rw [hlay.1, List.length_map]
  have hmk' : ∀ a ∈ mom.map kept.idxOf, a < kept.length := by
    intro a ha
    obtain ⟨b, hb, rfl⟩ := List.mem_map.1 ha
    exact List.idxOf_lt_length_iff.2 (hmk b hb)
  have hmd' : (mom.map kept.idxOf).Nodup :=
    hm.map_on fun a ha b hb e => idxOf_inj (hmk a ha) (hmk b hb) e
  have hkm : ∀ {a}, a ∈ kept → a < n ∧ a ∉ axes := fun h => mem_keptAxes.1 h
  have hkf : (List.range (g.shape.length + axes.length)).filter (fun p => decide (p ∉ axes)) = kept := by
    rw [hgl, hl]; rfl
  clear_value kept
  unfold reduceCore at h
  rw [if_neg hne, e0] at h
  simp only [Except.bind] at h
  rw [e1] at h
  simp only [hmidx] at h
  rw [e2] at h
  simp only at h
  unfold reduceCoreOut
  rw [if_neg hne, e0]
  simp only [Except.bind]
  rw [e1]
  simp only [hmidx]
  rw [e2]
  simp only
  cases axesToEnd <;> cases keepdims
  · simp only [Bool.false_eq_true, if_false] at h ⊢
    cases h
    rw [fill_ok (v := View.whole out.shape) (r := r) (z := r) hout hout fun i => rfl]
    rfl
  · simp only [Bool.false_eq_true, if_false, if_true] at h ⊢
    cases h
    have hlo : out.shape.length = n := by rw [hout]; simp [Arr.expandDims, hgl, hl]
    have hw := wraps_natCast hxn
    have hsh : ∀ p < n, out.shape.getD p 0 = if p ∈ axes then 1 else g.shape.getD (kept.idxOf p) 0 := by
      intro p hp'
      rw [hout]
      simp only [Arr.expandDims, hkf]
      rw [List.getD_eq_getElem _ _ (by simp; omega)]
      simp
    rw [whole_squeeze hlo (inRanges_natCast hxn) (by rw [hw]; exact hx) (by
      rw [hw]; intro a ha; rw [hsh a (hxn a ha), if_pos ha]), hw, ← hkept]
    simp only
    rw [fill_ok (z := g.expandDims axes) ?_ hout ?_]
    · rfl
    · refine List.ext_getElem? fun p => ?_
      rw [List.getElem?_map]
      by_cases hp' : p < kept.length
      · have hpk := hkm (List.getElem_mem hp')
        rw [List.getElem?_eq_getElem hp', Option.map_some, hsh _ hpk.1, if_neg hpk.2,
          hkn.idxOf_getElem, List.getD_eq_getElem _ _ (by omega), List.getElem?_eq_getElem (by omega)]
      · rw [List.getElem?_eq_none (by omega), List.getElem?_eq_none (by omega)]
        rfl
    · intro i
      simp only [Arr.expandDims, hkf]
  · simp only [Bool.false_eq_true, if_false, if_true] at h ⊢
    obtain ⟨order, ho, hr⟩ := move_end hgl hmd' hmk' (by simpa using h)
    obtain ⟨o', h2, h3, h4⟩ := move_front (n := kept.length) hmd' hmk'
    rw [List.length_map, hnd] at h2
    have hlo : out.shape.length = kept.length := by
      rw [hout, hr, ← ho]
      simp only [Arr.transpose, List.length_map]
      exact (keptAxes_perm hmd' hmk').length_eq.trans (by simp)
    have hv : (View.whole out.shape).moveaxis (axesLast core.nd)
        ((mom.map kept.idxOf).map (fun a : ℕ => (a : ℤ))) = .ok ((View.whole out.shape).transpose o') := by
      unfold View.moveaxis
      rw [show (View.whole out.shape).shape.length = kept.length from hlo, h2]
      rfl
    rw [hv]
    simp only
    have hord : ∀ p < kept.length, order.getD (o'.getD p 0) 0 = p ∧ order.idxOf p = o'.getD p 0 ∧
        o'.getD p 0 < order.length := by
      intro p hp'
      obtain ⟨j, e3, e4⟩ := h4 p hp'
      rw [ho] at e4
      obtain ⟨hj, e4⟩ := List.getElem?_eq_some_iff.1 e4
      have e5 : o'.getD p 0 = j := by rw [List.getD_eq_getElem?_getD, e3]; rfl
      have hon : order.Nodup := by
        rw [← ho]; exact (keptAxes_perm hmd' hmk').nodup_iff.2 List.nodup_range
      rw [e5, List.getD_eq_getElem _ _ hj, e4]
      refine ⟨rfl, ?_, hj⟩
      conv_lhs => rw [← e4]
      exact hon.idxOf_getElem _ _
    rw [fill_ok (z := r) ?_ hout ?_]
    · simp only
      rw [h]; rfl
    · refine List.ext_getElem? fun p => ?_
      simp only [View.transpose, View.whole]
      rw [List.getElem?_map]
      by_cases hp' : p < kept.length
      · obtain ⟨f1, f2, f3⟩ := hord p hp'
        have hpo : p < o'.length := by rw [h3.length_eq, List.length_range]; exact hp'
        have e6 : o'[p]? = some (o'.getD p 0) := by
          rw [List.getD_eq_getElem _ _ hpo, List.getElem?_eq_getElem hpo]
        rw [e6, Option.map_some, hout, hr]
        simp only [Arr.transpose]
        rw [List.getD_eq_getElem _ _ (by simpa using f3), List.getElem_map,
          ← List.getD_eq_getElem order 0 f3, f1, List.getD_eq_getElem _ _ (by omega),
          List.getElem?_eq_getElem (by omega)]
      · rw [List.getElem?_eq_none (by rw [h3.length_eq, List.length_range]; omega),
          List.getElem?_eq_none (by omega)]
        rfl
    · intro i
      rw [hr]
      refine hprop _ _ fun p hp' => ?_
      rw [hgl] at hp'
      simp only [View.transpose, View.whole, id]
      rw [(hord p hp').2.1]
  · simp only [if_true] at h ⊢
    have hsn : (axes ++ mom).Nodup := List.Nodup.append hx hm fun a ha hb => hd a hb ha
    have hlt : ∀ p ∈ axes ++ mom, p < n := by
      intro p hp'
      rcases List.mem_append.1 hp' with h | h
      · exact hxn p h
      · exact hmn p h
    have hEl : (g.expandDims axes).shape.length = n := by simp [Arr.expandDims, hgl, hl]
    obtain ⟨order, ho, hr⟩ := move_end hEl hsn hlt (by simpa using h)
    obtain ⟨o', h2, h3, h4⟩ := move_front (n := kept.length) hmd' hmk'
    rw [List.length_map, hnd] at h2
    have hperm := keptAxes_perm hsn hlt
    have hon : order.Nodup := by rw [← ho]; exact hperm.nodup_iff.2 List.nodup_range
    have hol : order.length = n := by rw [← ho, hperm.length_eq, List.length_range]
    have hlo : out.shape.length = n := by
      rw [hout, hr]; simp [Arr.transpose, hol]
    have hle : mom.length ≤ kept.length := by
      have := length_le_of_nodup (n := kept.length) (inRanges_natCast hmk') (by
        rw [wraps_natCast hmk']; exact hmd')
      simpa using this
    obtain ⟨q, hq⟩ : ∃ q, q = kept.length := ⟨_, rfl⟩
    obtain ⟨la, hla⟩ : ∃ la, la = axes.length := ⟨_, rfl⟩
    obtain ⟨nd, hnd'⟩ : ∃ nd, nd = mom.length := ⟨_, rfl⟩
    have hnn : n = q + la := by omega
    have hq2 : (keptAxes n (axes ++ mom)).length = q - nd := by
      have := keptAxes_length hsn hlt
      rw [List.length_append] at this
      omega
    have hfil : (keptAxes kept.length (mom.map kept.idxOf)).map (fun p => kept.getD p 0)
        = keptAxes n (axes ++ mom) := by
      rw [filter_positions hkn hmk, hkept, keptAxes_append]
    have hEs : ∀ p < n, (g.expandDims axes).shape.getD p 0
        = if p ∈ axes then 1 else g.shape.getD (kept.idxOf p) 0 := by
      intro p hp'
      simp only [Arr.expandDims, hkf]
      rw [List.getD_eq_getElem _ _ (by simp; omega)]
      simp
    have hos : ∀ p < n, out.shape.getD p 0 = (g.expandDims axes).shape.getD (order.getD p 0) 0 := by
      intro p hp'
      rw [hout, hr]
      simp only [Arr.transpose]
      rw [List.getD_eq_getElem _ _ (by rw [List.length_map]; omega), List.getElem_map,
        List.getD_eq_getElem order _ (by omega)]
    have hwr : ((List.range axes.length).map (fun j : ℕ => -((axes.length + core.nd : ℕ) : ℤ) + j)).map
        (wrap n) = (List.range la).map (fun j => q - nd + j) := by
      rw [List.map_map, ← hla]
      refine List.map_congr_left fun j hj => ?_
      have hj := List.mem_range.1 hj
      have : wrap n (((q - nd + j : ℕ) : ℤ)) = q - nd + j := wrap_natCast (by omega)
      simp only [Function.comp]
      rw [← this]
      unfold wrap
      have e : (-((la + core.nd : ℕ) : ℤ) + j) = ((q - nd + j : ℕ) : ℤ) + n * (-1) := by
        rw [← hnd, ← hnd', hnn]; push_cast [Nat.cast_sub (show nd ≤ q by omega)]; ring
      rw [e, Int.add_mul_emod_self_left]
    have hsq := whole_squeeze hlo (zs := (List.range axes.length).map
        (fun j : ℕ => -((axes.length + core.nd : ℕ) : ℤ) + j)) (by
        intro z hz'
        obtain ⟨j, hj, rfl⟩ := List.mem_map.1 hz'
        have hj := List.mem_range.1 hj
        unfold InRange
        push_cast
        omega) (by
        rw [hwr]
        exact List.nodup_range.map_on (by intro a _ b _ h; omega)) (by
        rw [hwr]
        intro a ha
        obtain ⟨j, hj, rfl⟩ := List.mem_map.1 ha
        have hj := List.mem_range.1 hj
        have hja : j < axes.length := by omega
        have : order.getD (q - nd + j) 0 = axes[j]'hja := by
          rw [← ho, List.getD_append_right _ _ _ _ (by omega), List.getD_append _ _ _ _ (by omega),
            List.getD_eq_getElem _ _ (by omega)]
          congr 1
          omega
        rw [hos _ (by omega), this, hEs _ (hxn _ (List.getElem_mem _)), if_pos (List.getElem_mem _)])
    rw [hwr, hnn, keptAxes_middle (by omega)] at hsq
    set kept2 := List.range (q - nd) ++ (List.range nd).map (fun j => q - nd + la + j) with hk2
    have hk2l : kept2.length = q := by rw [hk2]; simp; omega
    have hkey : ∀ j < q, order.getD (kept2.getD j 0) 0
        = kept.getD ((keptAxes kept.length (mom.map kept.idxOf) ++ mom.map kept.idxOf).getD j 0) 0 ∧
        kept2.getD j 0 < n := by
      intro j hj
      have hl1 : (keptAxes kept.length (mom.map kept.idxOf)).length = q - nd := by
        rw [← hq2, ← hfil, List.length_map]
      by_cases hj' : j < q - nd
      · have e3 : kept2.getD j 0 = j := by
          rw [hk2, List.getD_append _ _ _ _ (by simpa using hj'), List.getD_eq_getElem _ _ (by simpa using hj'),
            List.getElem_range]
        rw [e3]
        refine ⟨?_, by omega⟩
        rw [← ho, List.getD_append _ _ _ _ (by omega), List.getD_append _ _ _ _ (by omega), ← hfil,
          List.getD_eq_getElem _ _ (by rw [List.length_map]; omega), List.getElem_map,
          List.getD_eq_getElem (keptAxes kept.length (mom.map kept.idxOf)) _ (by omega)]
      · have e3 : kept2.getD j 0 = j + la := by
          rw [hk2, List.getD_append_right _ _ _ _ (by simpa using hj'), List.getD_eq_getElem _ _ (by simp; omega),
            List.getElem_map, List.getElem_range, List.length_range]
          omega
        rw [e3]
        refine ⟨?_, by omega⟩
        have hjm : j - (q - nd) < mom.length := by omega
        rw [← ho, List.getD_append_right _ _ _ _ (by omega), List.getD_append_right _ _ _ _ (by omega),
          List.getD_append_right _ _ _ _ (by omega), hq2, hl1,
          show j + la - (q - nd) - axes.length = j - (q - nd) by omega,
          List.getD_eq_getElem _ _ hjm, List.getD_eq_getElem (mom.map kept.idxOf) _ (by simpa using hjm),
          List.getElem_map, getD_idxOf (hmk _ (List.getElem_mem _))]
    have hord : ∀ p < q, order.getD (kept2.getD (o'.getD p 0) 0) 0 = kept.getD p 0 ∧
        kept2.getD (o'.getD p 0) 0 < n ∧ o'.getD p 0 < q := by
      intro p hp'
      obtain ⟨j, e3, e4⟩ := h4 p (by omega)
      have e5 : o'.getD p 0 = j := by rw [List.getD_eq_getElem?_getD, e3]; rfl
      obtain ⟨hj, e6⟩ := List.getElem?_eq_some_iff.1 e4
      have hjq : j < q := by
        rw [hq]; refine lt_of_lt_of_eq hj ?_
        exact (keptAxes_perm hmd' hmk').length_eq.trans (by simp)
      obtain ⟨f1, f2⟩ := hkey j hjq
      rw [e5, f1, List.getD_eq_getElem _ _ hj, e6]
      exact ⟨rfl, f2, hjq⟩
    rw [hsq]
    simp only
    have hv : View.moveaxis ⟨kept2.map (fun p => out.shape.getD p 0), fun i p => i (kept2.getD p 0)⟩
        (axesLast core.nd) ((mom.map kept.idxOf).map (fun a : ℕ => (a : ℤ)))
        = .ok (View.transpose ⟨kept2.map (fun p => out.shape.getD p 0),
          fun i p => i (kept2.getD p 0)⟩ o') := by
      unfold View.moveaxis
      rw [show (kept2.map (fun p => out.shape.getD p 0)).length = kept.length by
        rw [List.length_map, hk2l, hq], h2]
      rfl
    rw [hv]
    simp only
    rw [fill_ok (z := r) ?_ hout ?_]
    · simp only
      rw [h]; rfl
    · refine List.ext_getElem? fun p => ?_
      simp only [View.transpose]
      rw [List.getElem?_map]
      by_cases hp' : p < q
      · obtain ⟨f1, f2, f3⟩ := hord p hp'
        have hpo : p < o'.length := by rw [h3.length_eq, List.length_range]; omega
        have e6 : o'[p]? = some (o'.getD p 0) := by
          rw [List.getD_eq_getElem _ _ hpo, List.getElem?_eq_getElem hpo]
        have hpk : p < kept.length := by omega
        have hmem := hkm (List.getElem_mem hpk)
        rw [e6, Option.map_some, List.getD_eq_getElem _ _ (by rw [List.length_map]; omega),
          List.getElem_map, ← List.getD_eq_getElem kept2 0 (by omega), hos _ f2, f1,
          List.getD_eq_getElem kept _ hpk, hEs _ hmem.1, if_neg hmem.2, hkn.idxOf_getElem,
          List.getD_eq_getElem _ _ (by omega), List.getElem?_eq_getElem (by omega)]
      · rw [List.getElem?_eq_none (by rw [h3.length_eq, List.length_range]; omega),
          List.getElem?_eq_none (by omega)]
        rfl
    · intro i
      rw [hr]
      simp only [View.transpose, Arr.transpose, Arr.expandDims, hkf]
      refine hprop _ _ fun p hp' => ?_
      rw [hgl, ← hq] at hp'
      obtain ⟨f1, f2, f3⟩ := hord p hp'
      rw [← f1, List.getD_eq_getElem order _ (by omega), hon.idxOf_getElem]

end Cmomy.Nd
