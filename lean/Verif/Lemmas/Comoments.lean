import Verif.Spec.Comoments
import Verif.Lemmas.ObjectWrap
import Verif.Lemmas.LabelledPush
import Verif.Props.Convert

/-!
# Lemmas about moments and comoments of whole arrays
-/

namespace Cmomy

open Spec Nd Axes Select Labelled Cmomy.Convert
open Spec (momPos valPos momSizes)

variable {K : Type} [Field K]

theorem validateMom_iff (mom : List ℤ) (n : ℕ) (hn : 1 ≤ n) (p : ℤ × ℤ) :
    validateMom mom ((n : ℤ) - 1) = .ok p ↔
      ∃ a b : ℕ, p = ((a : ℤ), (b : ℤ)) ∧ OrdersFor mom (n - 1) a b := by
  match mom with
  | [] | [_] | _ :: _ :: _ :: _ =>
    refine ⟨fun h => by (injection h), ?_⟩
    rintro ⟨a, b, -, -, -, -, m0, m1, h, -⟩
    cases h
  | [m0, m1] =>
    obtain ⟨x, y⟩ := p
    rw [C16_validate_accepts]
    constructor
    · rintro ⟨h1, h2, h3, h4⟩
      refine ⟨x.toNat, y.toNat, ?_, by omega, by omega, by omega, m0, m1, rfl, ?_⟩
      · rw [Int.toNat_of_nonneg (by omega), Int.toNat_of_nonneg (by omega)]
      · omega
    · rintro ⟨a, b, h, h1, h2, h3, n0, n1, e, h4⟩
      obtain ⟨rfl, rfl⟩ := Prod.mk.inj h
      obtain ⟨e0, e⟩ := List.cons.inj e
      obtain ⟨e1, -⟩ := List.cons.inj e
      omega

theorem validateMom_refuse (mom : List ℤ) (n : ℕ) (hn : 1 ≤ n)
    (h : ∀ a b, ¬ OrdersFor mom (n - 1) a b) : validateMom mom ((n : ℤ) - 1) = .error .valueError := by
  rcases (C16_validate_rejects mom ((n : ℤ) - 1)).1 with ⟨p, hp⟩ | h'
  · obtain ⟨a, b, -, hab⟩ := (validateMom_iff mom n hn p).1 hp
    exact absurd hab (h a b)
  · exact h'

theorem momentsToComoments_at (a b : ℕ) (d : Mom K) (mem : Com K) {i j : ℕ} (hi : i ≤ a) (hj : j ≤ b) :
    momentsToComoments a b d mem i j = d (i + j) := by
  rw [momentsToComoments, fillCov_apply, if_pos ⟨hi, hj⟩]

/-- The array with its moment axes moved to the end. -/
theorem moved {data : Arr K} {axes : List ℤ} (hr : ∀ z ∈ axes, InRange data.shape.length z)
    (hd : (axes.map (wrap data.shape.length)).Nodup) :
    Select.moveaxis data axes (Select.axesLast axes.length)
      = .ok (data.transpose (lastLayout data.shape.length (momPos data axes))) := by
  obtain ⟨h1, -⟩ := move_orders hr hd
  unfold Select.moveaxis
  rw [h1]
  rfl

theorem atMom_one (n : ℕ) (i : ℕ → ℕ) (k : ℕ) {p : ℕ} (hp : p < n + 1) :
    (if p < n then i p else k) = atMom n i [k] p := by
  unfold atMom
  by_cases h : p < n
  · rw [if_pos h, if_pos h]
  · rw [if_neg h, if_neg h, show p - n = 0 by omega]
    rfl

theorem atMom_two (n : ℕ) (i : ℕ → ℕ) (j k : ℕ) {p : ℕ} (hp : p < n + 2) :
    (if p < n then i p else if p = n then j else k) = atMom n i [j, k] p := by
  unfold atMom
  by_cases h : p < n
  · rw [if_pos h, if_pos h]
  · rw [if_neg h, if_neg h]
    by_cases h' : p = n
    · rw [if_pos h', show p - n = 0 by omega]; rfl
    · rw [if_neg h', show p - n = 1 by omega]; rfl

theorem within_pair {n0 n1 : ℕ} {m : List ℕ} (h : Within [n0, n1] m) :
    ∃ j k, m = [j, k] ∧ j < n0 ∧ k < n1 := by
  unfold Within at h
  match m, h with
  | [j, k], .cons hj (.cons hk .nil) => exact ⟨j, k, rfl, hj, hk⟩

theorem within_single {n : ℕ} {m : List ℕ} (h : Within [n] m) : ∃ k, m = [k] ∧ k < n := by
  unfold Within at h
  match m, h with
  | [k], .cons hk .nil => exact ⟨k, rfl, hk⟩

/-- `moments_to_comoments` of an array, once the moment axis is the last one. -/
theorem toComoments_spec {data : Arr K} {z : ℤ} (hp : data.Proper)
    (hr : InRange data.shape.length z) {order : ℕ} (ho : 1 ≤ order)
    (hs : axisSize data (wrap data.shape.length z) = order + 1) (mom : List ℤ) (mem : Com K) :
    (∀ a b, OrdersFor mom order a b → ∃ out, momentsToComomentsNd data z mom mem = .ok out ∧
      IsObject out ((valPos data [z]).map (axisSize data)) [a + 1, b + 1] ∧
      HasValues out ((valPos data [z]).map (axisSize data)) [a + 1, b + 1] (fun i m =>
        data.get (withMoment [wrap data.shape.length z] [m.getD 0 0 + m.getD 1 0]
          (readAs (valPos data [z]) i)))) ∧
    ((∀ a b, ¬ OrdersFor mom order a b) →
      momentsToComomentsNd data z mom mem = .error .valueError) := by
  have hr' : ∀ y ∈ [z], InRange data.shape.length y := by simpa using hr
  have hmv := moved (data := data) (axes := [z]) hr' (by simp)
  obtain ⟨hO, hV⟩ := lastLayout_values (obj := data) (axes := [z]) hp (.inl rfl) ⟨hr', by simp⟩ (by
    intro y hy
    rw [List.mem_singleton] at hy
    subst hy
    show 2 ≤ axisSize data _
    omega)
  have hms : momSizes data [z] = [order + 1] := by
    show [axisSize data _] = _
    rw [hs]
  set w := data.transpose (lastLayout data.shape.length (momPos data [z])) with hw
  set vs := (valPos data [z]).map (axisSize data) with hvs
  rw [hms] at hO hV
  have hwl : w.shape.length - 1 = vs.length := by rw [hO.shape]; simp
  have hlast : w.shape.getD vs.length 0 = order + 1 := by rw [hO.shape]; simp
  have htake : w.shape.take vs.length = vs := by rw [hO.shape]; simp
  unfold momentsToComomentsNd
  rw [show ([-1] : List ℤ) = Select.axesLast [z].length from rfl, hmv]
  simp only [Except.bind, hwl, hlast, htake]
  refine ⟨fun a b hab => ?_, fun h => ?_⟩
  · have hv := (validateMom_iff mom (order + 1) (by omega) ((a : ℤ), (b : ℤ))).2 ⟨a, b, rfl, hab⟩
    rw [hv]
    refine ⟨_, rfl, ?_⟩
    have hsh : ∀ x : ℕ, ((x : ℤ) + 1).toNat = x + 1 := fun x => by omega
    simp only [hsh, Int.toNat_natCast]
    refine ⟨⟨?_, rfl, .inr rfl, ?_⟩, rfl, fun i hi m hm => ?_⟩
    · intro i j hij
      have hlen : (vs ++ [a + 1, b + 1]).length = vs.length + 2 := by simp
      have hij' : ∀ ax < vs.length + 2, i ax = j ax := fun ax h => hij ax (by rw [hlen]; exact h)
      simp only
      rw [hij' vs.length (by omega), hij' (vs.length + 1) (by omega)]
      congr 1
      funext k
      refine congrArg _ (funext fun p => ?_)
      by_cases h : p < vs.length
      · rw [if_pos h, if_pos h, hij' p (by omega)]
      · rw [if_neg h, if_neg h]
    · obtain ⟨h1, h2, -⟩ := hab
      intro m hm
      simp only [List.mem_cons, List.not_mem_nil, or_false] at hm
      omega
    · obtain ⟨j, k, rfl, hj, hk⟩ := within_pair hm
      have e0 : atMom vs.length i [j, k] vs.length = j := by simp [atMom]
      have e1 : atMom vs.length i [j, k] (vs.length + 1) = k := by simp [atMom]
      simp only [e0, e1]
      rw [momentsToComoments_at a b _ _ (by omega) (by omega)]
      have hv' := hV.value i hi [j + k] (List.Forall₂.cons (by have := hab.2.2.1; omega) List.Forall₂.nil)
      rw [show ([j, k] : List ℕ).getD 0 0 + ([j, k] : List ℕ).getD 1 0 = j + k from rfl]
      rw [show [wrap data.shape.length z] = momPos data [z] from rfl, ← hv']
      refine hO.proper _ _ fun p hpl => ?_
      rw [hO.length] at hpl
      rw [← atMom_one vs.length i (j + k) hpl]
      by_cases h : p < vs.length
      · simp only [if_pos h, atMom]
      · simp only [if_neg h]
  · rw [validateMom_refuse mom (order + 1) (by omega) h]
    rfl

/-- `comoments_to_moments` of an array, once the moment axes are the last ones. -/
theorem toMoments_spec {data : Arr K} {axes : List ℤ} (hp : data.Proper) (hl : axes.length = 2)
    (hr : ∀ z ∈ axes, InRange data.shape.length z)
    (hd : (axes.map (wrap data.shape.length)).Nodup) {a b : ℕ} (h0 : 1 ≤ a) (h1 : 1 ≤ b)
    (hs : momSizes data axes = [a + 1, b + 1]) (mem : Mom K) :
    ∃ out, comomentsToMomentsNd data axes mem = .ok out ∧
      IsObject out ((valPos data axes).map (axisSize data)) [a + b + 1] ∧
      HasValues out ((valPos data axes).map (axisSize data)) [a + b + 1] (fun i m =>
        data.get (withMoment (momPos data axes)
          (if m.getD 0 0 ≤ b then [0, m.getD 0 0] else [m.getD 0 0 - b, b])
          (readAs (valPos data axes) i))) := by
  have hmv := moved hr hd
  obtain ⟨hO, hV⟩ := lastLayout_values (obj := data) (axes := axes) hp (.inr hl) ⟨hr, hd⟩ (by
    intro y hy
    have : axisSize data (wrap data.shape.length y) ∈ momSizes data axes :=
      List.mem_map.2 ⟨_, List.mem_map.2 ⟨y, hy, rfl⟩, rfl⟩
    rw [hs] at this
    show 2 ≤ axisSize data _
    simp only [List.mem_cons, List.not_mem_nil, or_false] at this
    omega)
  set w := data.transpose (lastLayout data.shape.length (momPos data axes)) with hw
  set vs := (valPos data axes).map (axisSize data) with hvs
  rw [hs] at hO hV
  have hwl : w.shape.length - 2 = vs.length := by rw [hO.shape]; simp
  have hg0 : w.shape.getD vs.length 0 = a + 1 := by rw [hO.shape]; simp
  have hg1 : w.shape.getD (vs.length + 1) 0 = b + 1 := by
    rw [hO.shape, List.getD_append_right _ _ _ _ (by omega)]
    simp
  have htake : w.shape.take vs.length = vs := by rw [hO.shape]; simp
  unfold comomentsToMomentsNd
  rw [show ([-2, -1] : List ℤ) = Select.axesLast axes.length by rw [hl]; rfl, hmv]
  simp only [Except.bind, hwl, hg0, hg1, htake]
  rw [if_neg (by omega)]
  refine ⟨_, rfl, ?_⟩
  have hn : a + 1 + (b + 1) - 1 = a + b + 1 := by omega
  simp only [Nat.add_sub_cancel, hn]
  refine ⟨⟨?_, rfl, .inl rfl, ?_⟩, rfl, fun i hi m hm => ?_⟩
  · intro i j hij
    have hlen : (vs ++ [a + b + 1]).length = vs.length + 1 := by simp
    have hij' : ∀ ax < vs.length + 1, i ax = j ax := fun ax h => hij ax (by rw [hlen]; exact h)
    simp only
    rw [hij' vs.length (by omega)]
    congr 1
    funext k l
    refine congrArg _ (funext fun p => ?_)
    by_cases h : p < vs.length
    · rw [if_pos h, if_pos h, hij' p (by omega)]
    · rw [if_neg h, if_neg h]
  · intro m hm
    simp only [List.mem_cons, List.not_mem_nil, or_false] at hm
    omega
  · obtain ⟨k, rfl, hk⟩ := within_single hm
    have e0 : atMom vs.length i [k] vs.length = k := by simp [atMom]
    simp only [e0]
    have read : ∀ j l, j ≤ a → l ≤ b →
        w.get (fun p => if p < vs.length then atMom vs.length i [k] p else if p = vs.length then j else l)
          = data.get (withMoment (momPos data axes) [j, l] (readAs (valPos data axes) i)) := by
      intro j l hj hl'
      rw [← hV.value i hi [j, l] (List.Forall₂.cons (by omega) (List.Forall₂.cons (by omega)
        List.Forall₂.nil))]
      refine hO.proper _ _ fun p hpl => ?_
      rw [hO.length] at hpl
      rw [← atMom_two vs.length i j l hpl]
      by_cases h : p < vs.length
      · simp only [if_pos h, atMom]
      · simp only [if_neg h]
    rw [comomentsToMoments_apply]
    show _ = data.get (withMoment _ (if k ≤ b then [0, k] else [k - b, b]) _)
    by_cases hb : k ≤ b
    · rw [if_pos hb, if_pos hb, read 0 k (by omega) hb]
    · rw [if_neg hb, if_pos (by omega), if_neg hb, read (k - b) b (by omega) le_rfl]

/-! ## Objects -/

theorem IsObject_vals {obj : Arr K} {vs ms : List ℕ} (h : IsObject obj vs ms) :
    (valPos obj (Select.axesLast ms.length)).map (axisSize obj) = vs := by
  rw [h.valPos_eq]
  refine List.ext_getElem (by simp) fun p h1 h2 => ?_
  simp [axisSize, h.shape, List.getElem?_append_left h2, List.getElem?_eq_getElem h2]

theorem IsObject_read {obj : Arr K} {vs ms : List ℕ} (h : IsObject obj vs ms) (i : ℕ → ℕ) (m : List ℕ) :
    obj.get (withMoment (momPos obj (Select.axesLast ms.length)) m
      (readAs (valPos obj (Select.axesLast ms.length)) i)) = obj.get (atMom vs.length i m) := by
  refine h.get_congr fun p hp => ?_
  unfold withMoment readAs atMom
  rw [h.momPos_eq, h.valPos_eq]
  by_cases hv : p < vs.length
  · have hn : p ∉ (List.range ms.length).map (fun j => vs.length + j) := by
      simp only [List.mem_map, List.mem_range, not_exists, not_and]
      intro j _
      omega
    rw [if_neg hn, if_pos hv]
    congr 1
    have := (List.nodup_range (n := vs.length)).idxOf_getElem p (by simpa using hv)
    rwa [List.getElem_range] at this
  · have hn : p ∈ (List.range ms.length).map (fun j => vs.length + j) :=
      List.mem_map.2 ⟨p - vs.length, List.mem_range.2 (by omega), by omega⟩
    rw [if_pos hn, if_neg hv, idxOf_shift (by omega) (by omega)]

/-- `moments_to_comoments` of an array with the moment axis last. -/
theorem toComoments_object {obj : Arr K} {vs : List ℕ} {order : ℕ} (h : IsObject obj vs [order + 1])
    (mom : List ℤ) (mem : Com K) :
    (∀ a b, OrdersFor mom order a b → ∃ out, momentsToComomentsNd obj (-1) mom mem = .ok out ∧
      IsObject out vs [a + 1, b + 1] ∧
      HasValues out vs [a + 1, b + 1] (fun i m =>
        obj.get (atMom vs.length i [m.getD 0 0 + m.getD 1 0]))) ∧
    ((∀ a b, ¬ OrdersFor mom order a b) →
      momentsToComomentsNd obj (-1) mom mem = .error .valueError) := by
  have ho : 1 ≤ order := by have := h.orders (order + 1) (by simp); omega
  have hle : ([order + 1] : List ℕ).length ≤ obj.shape.length := by rw [h.length]; omega
  have hr : InRange obj.shape.length (-1) := Select.axesLast_range _ _ hle (-1) (by simp [Select.axesLast])
  have hms := h.momSizes_eq
  have hsz : axisSize obj (wrap obj.shape.length (-1)) = order + 1 := by
    have : momSizes obj (Select.axesLast ([order + 1] : List ℕ).length)
      = [axisSize obj (wrap obj.shape.length (-1))] := rfl
    rw [this] at hms
    simpa using hms
  have hvals := IsObject_vals h
  have hread := IsObject_read h
  have hal : Select.axesLast ([order + 1] : List ℕ).length = [-1] := rfl
  rw [hal] at hvals hread
  obtain ⟨h1, h2⟩ := toComoments_spec h.proper hr ho hsz mom mem
  refine ⟨fun a b hab => ?_, h2⟩
  obtain ⟨out, e, hO, hV⟩ := h1 a b hab
  rw [hvals] at hO hV
  exact ⟨out, e, hO, hV.shape, fun i hi m hm => (hV.value i hi m hm).trans (hread i _)⟩

/-- `comoments_to_moments` of an array with the moment axes last. -/
theorem toMoments_object {obj : Arr K} {vs : List ℕ} {a b : ℕ} (h : IsObject obj vs [a + 1, b + 1])
    (mem : Mom K) :
    ∃ out, comomentsToMomentsNd obj [-2, -1] mem = .ok out ∧ IsObject out vs [a + b + 1] ∧
      HasValues out vs [a + b + 1] (fun i m => obj.get (atMom vs.length i
        (if m.getD 0 0 ≤ b then [0, m.getD 0 0] else [m.getD 0 0 - b, b]))) := by
  have h0 : 1 ≤ a := by have := h.orders (a + 1) (by simp); omega
  have h1 : 1 ≤ b := by have := h.orders (b + 1) (by simp); omega
  have hle : ([a + 1, b + 1] : List ℕ).length ≤ obj.shape.length := by rw [h.length]; omega
  have hal : Select.axesLast ([a + 1, b + 1] : List ℕ).length = [-2, -1] := rfl
  have hvals := IsObject_vals h
  have hread := IsObject_read h
  have hms := h.momSizes_eq
  have hr := Select.axesLast_range obj.shape.length _ hle
  have hd := h.good.distinct
  rw [hal] at hvals hread hms hr hd
  obtain ⟨out, e, hO, hV⟩ := toMoments_spec h.proper rfl hr hd h0 h1 hms mem
  rw [hvals] at hO hV
  exact ⟨out, e, hO, hV.shape, fun i hi m hm => (hV.value i hi m hm).trans (hread i _)⟩

/-! ## Labelled arrays -/

section

variable {δ : Type} [DecidableEq δ] {α β : Type}

theorem pos_append (V outs : List δ) (c : δ → ℕ) :
    pos (V ++ outs) c = atMom V.length (pos V c) (outs.map c) := by
  funext p
  unfold pos atMom
  by_cases h : p < V.length
  · rw [if_pos h, List.getElem?_append_left h]
  · rw [if_neg h, List.getElem?_append_right (by omega), List.getD_eq_getElem?_getD, List.getElem?_map]

/-- `apply_ufunc` with new core dimensions, for a function that puts the core axes last. -/
theorem applyUfunc_object {x : DataArray δ α} {ins outs : List δ} {nd : ℕ} (hx : LabelledObject x ins nd)
    (hout : outs.Nodup) (hnew : ∀ d ∈ outs, d ∉ x.dims) {osz : δ → ℕ}
    {f : Nd.Arr α → Py (Nd.Arr β)} {F : (δ → ℕ) → List ℕ → β}
    (hf : ∀ a : Nd.Arr α, a.Proper → a.shape = (valDims x ins).map x.size ++ ins.map x.size →
      (∀ c m, m.length = ins.length → a.get (atMom (valDims x ins).length (pos (valDims x ins) c) m)
        = entry x (withNames ins m c)) →
      ∃ out, f a = .ok out ∧ out.shape = (valDims x ins).map x.size ++ outs.map osz ∧
        ∀ c, (∀ d ∈ valDims x ins, c d < x.size d) → ∀ m, Within (outs.map osz) m →
          out.get (atMom (valDims x ins).length (pos (valDims x ins) c) m) = F c m) :
    ∃ y, applyUfunc x ins [] outs [] f = .ok y ∧
      ShowsNamed y (valDims x ins ++ outs) (fun d => if d ∈ outs then osz d else x.size d)
        (fun c => F c (outs.map c)) := by
  obtain ⟨hperm, a, hs, hg, e⟩ := applyUfunc_run x hx.distinct (core := ins) (plain := [])
    (outCore := outs) (exclude := []) hx.momDistinct hx.momPresent (by
      intro d hd
      have : d ∉ outs := fun h => hnew d h hd
      simp [this]) f
  have hV : x.dims.filter (fun d => decide (d ∉ ins)) = valDims x ins := rfl
  rw [hV] at hs hg e hperm
  have hmemV : ∀ d ∈ valDims x ins, d ∈ x.dims := fun d hd => (List.mem_filter.1 hd).1
  have hnotV : ∀ d ∈ valDims x ins, d ∉ outs := fun d hd h => hnew d h (hmemV d hd)
  have hT : (valDims x ins ++ outs).Nodup := by
    refine List.nodup_append'.2 ⟨hx.distinct.filter _, hout, fun d h1 h2 => hnotV d h1 h2⟩
  obtain ⟨out, h1, h2, h3⟩ := hf a (by
      intro i j hij
      rw [hg, hg]
      refine entry_congr x fun d hdd => hij _ ?_
      rw [hs, List.length_map]
      exact List.idxOf_lt_length_iff.2 (hperm.mem_iff.2 hdd)) (by rw [hs, List.map_append]) (by
    intro c m hml
    rw [hg]
    refine entry_congr x fun d hdd => ?_
    unfold withNames
    by_cases hin : d ∈ ins
    · have : d ∉ valDims x ins := fun h => by simpa [hin] using (List.mem_filter.1 h).2
      rw [if_pos hin, List.idxOf_append_of_notMem this]
      unfold atMom
      rw [if_neg (by omega), Nat.add_sub_cancel_left]
    · have : d ∈ valDims x ins := List.mem_filter.2 ⟨hdd, by simpa using hin⟩
      rw [if_neg hin, List.idxOf_append_of_mem this]
      unfold atMom
      rw [if_pos (List.idxOf_lt_length_iff.2 this), pos_idxOf this])
  have hsz : out.shape = (valDims x ins ++ outs).map
      (fun d => if d ∈ outs then osz d else x.size d) := by
    rw [h2, List.map_append]
    congr 1
    · exact List.map_congr_left fun d hd => by rw [if_neg (hnotV d hd)]
    · exact List.map_congr_left fun d hd => by rw [if_pos hd]
  have hw := wrapResult_ok (inputs := [x.frame]) (exclude := []) hT hsz (by
    intro fr hfr d _ hdf _
    rw [List.mem_singleton] at hfr
    subst hfr
    exact if_neg fun h => hnew d h hdf)
  refine ⟨.ofNd (valDims x ins ++ outs) out, ?_, rfl, fun d hd => ?_, fun c hc => ?_⟩
  · rw [e, h1]; exact hw
  · have hil := List.idxOf_lt_length_iff.2 hd
    show out.shape.getD ((valDims x ins ++ outs).idxOf d) 0 = _
    rw [hsz, List.getD_eq_getElem _ _ (by simpa using hil), List.getElem_map, List.getElem_idxOf]
  · rw [ofNd_entry, pos_append]
    refine h3 c (fun d hd => ?_) _ ?_
    · have := hc d (List.mem_append_left _ hd)
      simpa [hnotV d hd] using this
    · unfold Within
      rw [List.forall₂_map_left_iff, List.forall₂_map_right_iff, List.forall₂_same]
      intro d hd
      have := hc d (List.mem_append_right _ hd)
      simpa [hd] using this

/-- A dimension renamed to make room for another. -/
theorem makeRoom_spec {x : DataArray δ K} {ins : List δ} {nd : ℕ} (hx : LabelledObject x ins nd) {old t : δ}
    {needed : Bool} (hold : old ∈ ins) (hfresh : needed = true → t ∉ x.dims) :
    ∃ y t', makeRoom x old needed t = .ok (y, t') ∧ t' = (if needed then t else old) ∧
      LabelledObject y (ins.map fun d => if d = old then t' else d) nd ∧
      valDims y (ins.map fun d => if d = old then t' else d) = valDims x ins ∧
      (∀ d ∈ valDims x ins, y.size d = x.size d) ∧
      (∀ d ∈ ins, y.size (if d = old then t' else d) = x.size d) ∧
      (∀ c m, m.length = ins.length →
        entry y (withNames (ins.map fun d => if d = old then t' else d) m c)
          = entry x (withNames ins m c)) ∧
      (∀ d ∈ y.dims, d ∈ x.dims ∧ d ≠ old ∨ d = t') := by
  cases needed with
  | false =>
    have hid : (ins.map fun d => if d = old then old else d) = ins := by
      conv_rhs => rw [← List.map_id ins]
      refine List.map_congr_left fun d _ => ?_
      by_cases h : d = old
      · rw [if_pos h, h]; rfl
      · rw [if_neg h]; rfl
    refine ⟨x, old, rfl, rfl, ?_, ?_, fun d _ => rfl, fun d _ => ?_, fun c m _ => ?_, fun d hd => ?_⟩
    · rw [hid]; exact hx
    · rw [hid]
    · by_cases h : d = old
      · rw [if_pos h, h]
      · rw [if_neg h]
    · rw [hid]
    · by_cases h : d = old
      · exact .inr h
      · exact .inl ⟨hd, h⟩
  | true =>
    have ht := hfresh rfl
    have hod := hx.momPresent _ hold
    have hto : t ≠ old := fun e => ht (e ▸ hod)
    have hren : x.rename old t = .ok ⟨⟨x.dims.map (fun d => if d = old then t else d), x.data⟩,
        fun d => if d = t then x.size old else x.size d⟩ := by
      unfold DataArray.rename
      rw [if_neg (by simpa using hod), if_neg hto, if_neg ht]
    have hinj : ∀ l : List δ, l.Nodup → (∀ d ∈ l, d ≠ t) →
        (l.map fun d => if d = old then t else d).Nodup := by
      intro l hl hlt
      refine hl.map_on fun p hp q hq e => ?_
      by_cases h1 : p = old <;> by_cases h2 : q = old
      · rw [h1, h2]
      · rw [if_pos h1, if_neg h2] at e; exact absurd e.symm (hlt q hq)
      · rw [if_neg h1, if_pos h2] at e; exact absurd e (hlt p hp)
      · rwa [if_neg h1, if_neg h2] at e
    have hnt : ∀ d ∈ x.dims, d ≠ t := fun d hd e => ht (e ▸ hd)
    have hmt : ∀ d ∈ ins, d ≠ t := fun d hd => hnt d (hx.momPresent d hd)
    have hmm : ∀ d, d ≠ old → d ≠ t →
        (d ∈ (ins.map fun d => if d = old then t else d) ↔ d ∈ ins) := by
      intro d h1 h2
      constructor
      · intro h
        obtain ⟨e, he, rfl⟩ := List.mem_map.1 h
        by_cases h3 : e = old
        · rw [if_pos h3] at h2; exact absurd rfl h2
        · rw [if_neg h3]; exact he
      · intro h; exact List.mem_map.2 ⟨d, h, if_neg h1⟩
    have htm : t ∈ (ins.map fun d => if d = old then t else d) :=
      List.mem_map.2 ⟨old, hold, if_pos rfl⟩
    refine ⟨_, t, by unfold makeRoom; rw [if_pos rfl, hren]; rfl, rfl, ⟨?_, ?_, ?_, ?_⟩, ?_,
      fun d hd => ?_, fun d hd => ?_, fun c m hm => ?_, fun d hd => ?_⟩
    · exact hinj _ hx.distinct hnt
    · exact hinj _ hx.momDistinct hmt
    · intro d hd
      obtain ⟨e, he, rfl⟩ := List.mem_map.1 hd
      exact List.mem_map.2 ⟨e, hx.momPresent e he, rfl⟩
    · rw [List.length_map]; exact hx.momCount
    · unfold valDims
      simp only
      rw [List.filter_map]
      have hk : x.dims.filter ((fun d => decide (d ∉ ins.map fun d => if d = old then t else d)) ∘
          fun d => if d = old then t else d) = x.dims.filter (fun d => decide (d ∉ ins)) := by
        refine List.filter_congr fun d hd => ?_
        by_cases h : d = old
        · simp only [Function.comp, if_pos h]
          rw [h]
          simp only [htm, hold]
        · simp only [Function.comp, if_neg h]
          rw [decide_eq_decide, hmm d h (hnt d hd)]
      rw [hk]
      conv_rhs => rw [← List.map_id (x.dims.filter _)]
      refine List.map_congr_left fun d hd => ?_
      have : d ≠ old := fun h => by
        have := (List.mem_filter.1 hd).2
        rw [h] at this
        simp [hold] at this
      rw [if_neg this]; rfl
    · show (if d = t then _ else _) = _
      rw [if_neg (hnt d (List.mem_filter.1 hd).1)]
    · show (if _ = t then _ else _) = _
      by_cases h : d = old
      · rw [if_pos h, if_pos rfl, h]
      · rw [if_neg h, if_neg (hmt d hd)]
    · show x.data ((x.dims.map _).map _) = x.data (x.dims.map _)
      rw [List.map_map]
      refine congrArg x.data (List.map_congr_left fun d hd => ?_)
      simp only [Function.comp]
      unfold withNames
      by_cases h : d ∈ ins
      · have hin : (if d = old then t else d) ∈ (ins.map fun d => if d = old then t else d) :=
          List.mem_map.2 ⟨d, h, rfl⟩
        rw [if_pos hin, if_pos h]
        congr 1
        have hl := List.idxOf_lt_length_iff.2 h
        have := (hinj _ hx.momDistinct hmt).idxOf_getElem (ins.idxOf d) (by simpa using hl)
        rw [List.getElem_map, List.getElem_idxOf] at this
        exact this
      · have h1 : d ≠ old := fun e => h (e ▸ hold)
        rw [if_neg h1, if_neg h, if_neg (fun h' => h ((hmm d h1 (hnt d hd)).1 h'))]
    · obtain ⟨e, he, rfl⟩ := List.mem_map.1 hd
      by_cases h : e = old
      · right; rw [if_pos h]
      · left; rw [if_neg h]; exact ⟨he, h⟩

/-- `moments_to_comoments` of a labelled array. -/
theorem toComomentsX_spec {x : DataArray δ K} {d e f : δ} (tmp : δ → δ) (hx : LabelledObject x [d] 1)
    (hef : e ≠ f) (he : e ∉ valDims x [d]) (hf : f ∉ valDims x [d])
    (hfresh : d ∈ [e, f] → tmp d ∉ x.dims ∧ tmp d ∉ [e, f]) {order : ℕ} (ho : 1 ≤ order)
    (hs : x.size d = order + 1) (mom : List ℤ) (mem : Com K) :
    (∀ a b, OrdersFor mom order a b → ∃ y, momentsToComomentsX tmp x d [e, f] mom mem = .ok y ∧
      ShowsNamed y (valDims x [d] ++ [e, f]) (sizesPair x.size e f (a + 1) (b + 1))
        (fun c => entry x (withNames [d] [c e + c f] c))) ∧
    ((∀ a b, ¬ OrdersFor mom order a b) →
      momentsToComomentsX tmp x d [e, f] mom mem = .error .valueError) := by
  obtain ⟨y, t', hm, ht, hO, hV, hsv, hsm, hent, hdims⟩ := makeRoom_spec hx (old := d) (t := tmp d)
    (needed := decide (d ∈ [e, f])) (by simp) (fun h => (hfresh (of_decide_eq_true h)).1)
  have hmap : ([d].map fun g => if g = d then t' else g) = [t'] := by simp
  rw [hmap] at hO hV hent
  have hst : y.size t' = order + 1 := by
    have := hsm d (by simp)
    rw [if_pos rfl] at this
    rw [this, hs]
  unfold momentsToComomentsX
  rw [hm]
  simp only [Except.bind, hst]
  refine ⟨fun a b hab => ?_, fun h => ?_⟩
  · rw [(validateMom_iff mom (order + 1) (by omega) ((a : ℤ), (b : ℤ))).2 ⟨a, b, rfl, hab⟩]
    simp only
    have hnew : ∀ g ∈ [e, f], g ∉ y.dims := by
      intro g hg hgd
      rcases hdims g hgd with ⟨h1, h2⟩ | h1
      · have : g ∈ valDims x [d] := mem_valDims.2 ⟨h1, by simpa using h2⟩
        rcases List.mem_cons.1 hg with rfl | hg
        · exact he this
        · rw [List.mem_singleton] at hg; subst hg; exact hf this
      · by_cases hn : d ∈ [e, f]
        · rw [if_pos (decide_eq_true hn)] at ht
          exact (hfresh hn).2 (by rw [← ht, ← h1]; exact hg)
        · rw [if_neg (by simpa using hn)] at ht
          exact hn (by rw [← ht, ← h1]; exact hg)
    obtain ⟨z, hz, hS⟩ := applyUfunc_object hO (outs := [e, f]) (by simpa using hef) hnew
      (osz := fun g => if g = e then a + 1 else b + 1)
      (f := fun v => momentsToComomentsNd v (-1) mom mem)
      (F := fun c m => entry x (withNames [d] [m.getD 0 0 + m.getD 1 0] c)) (by
        intro v hpv hsh hget
        have hvs : (valDims y [t']).map y.size = (valDims x [d]).map x.size := by
          rw [hV]; exact List.map_congr_left hsv
        have hob : IsObject v ((valDims y [t']).map y.size) [order + 1] :=
          ⟨hpv, by rw [hsh, List.map_singleton, hst], .inl rfl, by
            intro m hm'; rw [List.mem_singleton] at hm'; omega⟩
        obtain ⟨out, e1, hO1, hV1⟩ := (toComoments_object hob mom mem).1 a b hab
        refine ⟨out, e1, ?_, fun c hc m hm' => ?_⟩
        · rw [hO1.shape]
          simp [hef.symm]
        · have hmE : [e, f].map (fun g => if g = e then a + 1 else b + 1) = [a + 1, b + 1] := by
            simp [hef.symm]
          rw [hmE] at hm'
          have := hV1.value (pos (valDims y [t']) c) (by
            intro ax hax
            rw [List.length_map] at hax
            rw [pos_lt hax, List.getD_eq_getElem _ _ (by simpa using hax), List.getElem_map]
            exact hc _ (List.getElem_mem hax)) m hm'
          rw [List.length_map] at this
          rw [this, hget c _ rfl]
          exact hent c _ rfl)
    refine ⟨z, hz, ?_⟩
    rw [hV] at hS
    refine ⟨hS.dims_eq, fun g hg => ?_, fun c hc => ?_⟩
    · rw [hS.size_eq g hg]
      unfold sizesPair
      by_cases h1 : g = e
      · subst h1; simp
      · by_cases h2 : g = f
        · subst h2; simp [h1]
        · have : g ∈ valDims x [d] := by
            rcases List.mem_append.1 hg with h | h
            · exact h
            · simp [h1, h2] at h
          simp [h1, h2, hsv g this]
    · have := hS.entry_eq c (fun g hg => by
        have hb := hc g hg
        unfold sizesPair at hb
        by_cases h1 : g = e
        · subst h1; simpa using hb
        · by_cases h2 : g = f
          · subst h2; simpa [h1] using hb
          · have : g ∈ valDims x [d] := by
              rcases List.mem_append.1 hg with h | h
              · exact h
              · simp [h1, h2] at h
            simpa [h1, h2, hsv g this] using hb)
      rw [this]
      rfl
  · rw [validateMom_refuse mom (order + 1) (by omega) h]

/-- `comoments_to_moments` of a labelled array. -/
theorem toMomentsX_spec {x : DataArray δ K} {d0 d1 e : δ} (tmp : δ → δ)
    (hx : LabelledObject x [d0, d1] 2) (he : e ∉ valDims x [d0, d1])
    (hfresh : e ∈ [d0, d1] → tmp e ∉ x.dims ∧ tmp e ≠ e) {a b : ℕ} (h0 : 1 ≤ a) (h1 : 1 ≤ b)
    (hs0 : x.size d0 = a + 1) (hs1 : x.size d1 = b + 1) (mem : Mom K) :
    ∃ y, comomentsToMomentsX tmp x [d0, d1] e mem = .ok y ∧
      ShowsNamed y (valDims x [d0, d1] ++ [e]) (fun g => if g = e then a + b + 1 else x.size g)
        (fun c => entry x (withNames [d0, d1] (if c e ≤ b then [0, c e] else [c e - b, b]) c)) := by
  -- the array that is handed on, with moment names `ns`
  obtain ⟨y, t', ns, hm, hns, hO, hV, hsv, hsz0, hsz1, hent, hnew⟩ : ∃ (y : DataArray δ K) (t' : δ)
      (ns : List δ), makeRoom x e (decide (e ∈ [d0, d1])) (tmp e) = .ok (y, t') ∧
      [d0, d1].map (fun d => if d = e then t' else d) = ns ∧
      LabelledObject y ns 2 ∧ valDims y ns = valDims x [d0, d1] ∧
      (∀ d ∈ valDims x [d0, d1], y.size d = x.size d) ∧
      y.size (if d0 = e then t' else d0) = a + 1 ∧ y.size (if d1 = e then t' else d1) = b + 1 ∧
      (∀ c m, m.length = 2 → entry y (withNames ns m c) = entry x (withNames [d0, d1] m c)) ∧
      e ∉ y.dims := by
    by_cases hin : e ∈ [d0, d1]
    · obtain ⟨y, t', hm, ht, hO, hV, hsv, hsm, hent, hdims⟩ := makeRoom_spec hx (old := e) (t := tmp e)
        (needed := decide (e ∈ [d0, d1])) hin (fun h => (hfresh hin).1)
      rw [if_pos (decide_eq_true hin)] at ht
      refine ⟨y, t', _, hm, rfl, hO, hV, hsv, ?_, ?_, fun c m h => hent c m h, fun h => ?_⟩
      · rw [hsm d0 (by simp), hs0]
      · rw [hsm d1 (by simp), hs1]
      · rcases hdims e h with ⟨-, h⟩ | h
        · exact h rfl
        · exact (hfresh hin).2 (by rw [← ht, ← h])
    · have hn0 : d0 ≠ e := fun h => hin (by simp [h])
      have hn1 : d1 ≠ e := fun h => hin (by simp [h])
      refine ⟨x, e, [d0, d1], ?_, by simp [hn0, hn1], hx, rfl, fun _ _ => rfl, by rw [if_neg hn0, hs0],
        by rw [if_neg hn1, hs1], fun c m _ => rfl, fun h => he (mem_valDims.2 ⟨h, hin⟩)⟩
      unfold makeRoom
      rw [if_neg (by simpa using hin)]
  unfold comomentsToMomentsX
  rw [hm]
  simp only [Except.bind, hns]
  obtain ⟨z, hz, hS⟩ := applyUfunc_object hO (outs := [e]) (by simp) (by simpa using hnew)
    (osz := fun _ => a + b + 1) (f := fun v => comomentsToMomentsNd v [-2, -1] mem)
    (F := fun c m => entry x (withNames [d0, d1]
      (if m.getD 0 0 ≤ b then [0, m.getD 0 0] else [m.getD 0 0 - b, b]) c)) (by
      intro v hpv hsh hget
      have hob : IsObject v ((valDims y ns).map y.size) [a + 1, b + 1] := by
        refine ⟨hpv, ?_, .inr rfl, ?_⟩
        · rw [hsh, ← hns]
          simp [hsz0, hsz1]
        · intro m hm'
          simp only [List.mem_cons, List.not_mem_nil, or_false] at hm'
          omega
      obtain ⟨out, e1, hO1, hV1⟩ := toMoments_object hob mem
      refine ⟨out, e1, ?_, fun c hc m hm' => ?_⟩
      · rw [hO1.shape]; rfl
      · have hl2 : ns.length = 2 := hO.momCount
        have := hV1.value (pos (valDims y ns) c) (by
          intro ax hax
          rw [List.length_map] at hax
          rw [pos_lt hax, List.getD_eq_getElem _ _ (by simpa using hax), List.getElem_map]
          exact hc _ (List.getElem_mem hax)) m hm'
        rw [List.length_map] at this
        have hl : (if m.getD 0 0 ≤ b then [0, m.getD 0 0] else [m.getD 0 0 - b, b]).length = 2 := by
          split_ifs <;> rfl
        rw [this, hget c _ (by rw [hl, hl2])]
        exact hent c _ hl)
  refine ⟨z, hz, ?_⟩
  rw [hV] at hS
  have hsz : ∀ g ∈ valDims x [d0, d1] ++ [e], (if g ∈ [e] then a + b + 1 else y.size g)
      = if g = e then a + b + 1 else x.size g := by
    intro g hg
    by_cases h2 : g = e
    · subst h2; simp
    · have : g ∈ valDims x [d0, d1] := by
        rcases List.mem_append.1 hg with h | h
        · exact h
        · simp [h2] at h
      simp [h2, hsv g this]
  exact ⟨hS.dims_eq, fun g hg => (hS.size_eq g hg).trans (hsz g hg), fun c hc =>
    hS.entry_eq c fun g hg => (hc g hg).trans_eq (hsz g hg).symm⟩

end

end Cmomy
