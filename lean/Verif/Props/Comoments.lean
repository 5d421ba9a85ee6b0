import Verif.Lemmas.Comoments
import Verif.Props.LabelledStats

/-!
# C68: moments to comoments and back, for whole arrays, objects and labelled arrays
-/

namespace Cmomy

open Spec Nd Axes Select Labelled Cmomy.Convert
open Spec (momPos valPos momSizes)

/-! ## Arrays -/

section Arrays

variable {K : Type} [Field K]

/-- **C68** `moments_to_comoments` of an array with its moment axis anywhere: the other axes keep their
order, two moment axes follow, and the comoment of orders `j` and `k` is the moment of order `j + k`
found at the same place. -/
theorem C68_array {data : Arr K} {z : ℤ} (hp : data.Proper) (hr : InRange data.shape.length z)
    {order a b : ℕ} (hs : axisSize data (wrap data.shape.length z) = order + 1) {mom : List ℤ}
    (h : OrdersFor mom order a b) (mem : Com K) :
    ∃ out, momentsToComomentsNd data z mom mem = .ok out ∧
      HasValues out ((valPos data [z]).map (axisSize data)) [a + 1, b + 1] (fun i m =>
        data.get (withMoment [wrap data.shape.length z] [m.getD 0 0 + m.getD 1 0]
          (readAs (valPos data [z]) i))) := by
  obtain ⟨out, e, -, hV⟩ := (toComoments_spec hp hr (by have := h.1; have := h.2.2.1; omega) hs mom
    mem).1 a b h
  exact ⟨out, e, hV⟩

/-- **C68** Orders that cannot be made from the moments at hand are refused. -/
theorem C68_array_refused {data : Arr K} {z : ℤ} (hp : data.Proper) (hr : InRange data.shape.length z)
    {order : ℕ} (ho : 1 ≤ order) (hs : axisSize data (wrap data.shape.length z) = order + 1)
    {mom : List ℤ} (h : ∀ a b, ¬ OrdersFor mom order a b) (mem : Com K) :
    momentsToComomentsNd data z mom mem = .error .valueError :=
  (toComoments_spec hp hr ho hs mom mem).2 h

/-- **C68** `comoments_to_moments` of an array with its moment axes anywhere and in any order: the other
axes keep their order, one moment axis follows, and the moment of order `k` is the first comoment of
total order `k`. -/
theorem C68_array_back {data : Arr K} {axes : List ℤ} (hp : data.Proper) (hl : axes.length = 2)
    (hr : ∀ z ∈ axes, InRange data.shape.length z) (hd : (axes.map (wrap data.shape.length)).Nodup)
    {a b : ℕ} (h0 : 1 ≤ a) (h1 : 1 ≤ b) (hs : momSizes data axes = [a + 1, b + 1]) (mem : Mom K) :
    ∃ out, comomentsToMomentsNd data axes mem = .ok out ∧
      HasValues out ((valPos data axes).map (axisSize data)) [a + b + 1] (fun i m =>
        data.get (withMoment (momPos data axes)
          (if m.getD 0 0 ≤ b then [0, m.getD 0 0] else [m.getD 0 0 - b, b])
          (readAs (valPos data axes) i))) := by
  obtain ⟨out, e, -, hV⟩ := toMoments_spec hp hl hr hd h0 h1 hs mem
  exact ⟨out, e, hV⟩

/-- **C68** There and back, the moments up to the sum of the two orders are unchanged. -/
theorem C68_array_round_trip {obj : Arr K} {vs : List ℕ} {order a b : ℕ}
    (h : IsObject obj vs [order + 1]) {mom : List ℤ} (hab : OrdersFor mom order a b) (mem : Com K)
    (mem' : Mom K) :
    ∃ mid out, momentsToComomentsNd obj (-1) mom mem = .ok mid ∧
      comomentsToMomentsNd mid [-2, -1] mem' = .ok out ∧
      HasValues out vs [a + b + 1] (fun i m => obj.get (atMom vs.length i m)) := by
  obtain ⟨mid, e, hO, hV⟩ := (toComoments_object h mom mem).1 a b hab
  obtain ⟨out, e', -, hV'⟩ := toMoments_object hO mem'
  refine ⟨mid, out, e, e', hV'.shape, fun i hi m hm => ?_⟩
  rw [hV'.value i hi m hm]
  obtain ⟨k, rfl, hk⟩ := within_single hm
  show mid.get (atMom _ i (if k ≤ b then [0, k] else [k - b, b])) = _
  by_cases hb : k ≤ b
  · rw [if_pos hb, hV.value i hi [0, k] (.cons (by omega) (.cons (by omega) .nil))]
    simp
  · rw [if_neg hb, hV.value i hi [k - b, b] (.cons (by omega) (.cons (by omega) .nil))]
    simp only [List.getD_cons_zero, List.getD_cons_succ]
    rw [Nat.sub_add_cancel (by omega)]

end Arrays

/-! ## What records made this way stand for -/

section Records

variable {K : Type} [Field K]

theorem wsum2_diagonal (L : List (Sample K)) (f : K → K → K) :
    wsum2 (diagonal L) f = wsum L (fun x => f x x) := by
  simp [wsum2, wsum, diagonal, Function.comp_def]

theorem weight2_diagonal (L : List (Sample K)) : weight2 (diagonal L) = weight L := by
  simp [weight2, Spec.weight, diagonal, Function.comp_def]

/-- `c` has the entry `j + k` of `d` wherever the orders are at most `a` and `b`. -/
def SpreadOut (a b : ℕ) (d : Mom K) (c : Com K) : Prop := ∀ j k, j ≤ a → k ≤ b → c j k = d (j + k)

/-- The moments of `x` become comoments of `(x, x)`. -/
theorem holds_spread {order a b : ℕ} (ha : 1 ≤ a) (hb : 1 ≤ b) (hab : a + b ≤ order)
    {L : List (Sample K)} {d : Mom K} {c : Com K} (h : Holds order L d) (hc : SpreadOut a b d c) :
    Holds2 a b (diagonal L) c := by
  rcases h with ⟨hW, hm⟩ | ⟨hz, hs⟩
  · refine .inl ⟨by rwa [weight2_diagonal], ?_⟩
    refine isComoments_of_eqUpTo2 ha hb ?_ (C16_moments_to_comoments order a b ha hb hab L d c hm)
    intro j k hj hk
    rw [hc j k hj hk, momentsToComoments_at a b d c hj hk]
  · refine .inr ⟨by rw [hc 0 0 (by omega) (by omega)]; exact hz, fun i j hi hj => ?_⟩
    rw [wsum2_diagonal, ← hs (i + j) (by omega)]
    congr 1
    funext x
    rw [pow_add]

/-- The raw moments of `x` become raw comoments of `(x, x)`. -/
theorem raw_spread {order a b : ℕ} (hab : a + b ≤ order) {L : List (Sample K)} {d : Mom K} {c : Com K}
    (h : IsRawMoments order L d) (hc : SpreadOut a b d c) : IsRawComoments a b (diagonal L) c := by
  refine ⟨by rw [hc 0 0 (by omega) (by omega), weight2_diagonal]; exact h.1, fun i j hi hj hij => ?_⟩
  rw [hc i j hi hj, h.2 (i + j) hij (by omega), rawMoment, rawMoment2, wsum2_diagonal, weight2_diagonal]
  congr 2
  funext x
  rw [pow_add]

/-- The comoments of `(x, x)` become moments of `x`. -/
theorem holds_gather {a b : ℕ} (ha : 1 ≤ a) (hb : 1 ≤ b) {L : List (Sample K)} {c : Com K} {d : Mom K}
    (h : Holds2 a b (diagonal L) c)
    (hd : ∀ k, k ≤ a + b → d k = if k ≤ b then c 0 k else c (k - b) b) : Holds (a + b) L d := by
  have hd' : EqUpTo (a + b) d (comomentsToMoments a b c d) := by
    intro k hk
    rw [hd k hk, comomentsToMoments_apply]
    by_cases hkb : k ≤ b
    · rw [if_pos hkb, if_pos hkb]
    · rw [if_neg hkb, if_neg hkb, if_pos hk]
  rcases h with ⟨hW, hm⟩ | ⟨hz, hs⟩
  · refine .inl ⟨by rwa [weight2_diagonal] at hW, ?_⟩
    exact isMoments_of_eqUpTo (by omega) hd' (C16_comoments_to_moments a b ha hb L c d hm)
  · refine .inr ⟨by rw [hd 0 (by omega), if_pos (by omega)]; exact hz, fun n hn => ?_⟩
    have key : ∀ i j, i ≤ a → j ≤ b → i + j = n → wsum L (fun x => x ^ n) = 0 := by
      intro i j hi hj hij
      have := hs i j hi hj
      rw [wsum2_diagonal] at this
      rw [← this]
      congr 1
      funext x
      rw [← pow_add, hij]
    by_cases hnb : n ≤ b
    · exact key 0 n (by omega) hnb (by omega)
    · exact key (n - b) b (by omega) le_rfl (by omega)

end Records

/-! ## Objects over arrays -/

section Objects

variable {K : Type} [Field K]

theorem construct_keeps {obj : Arr K} {vs ms : List ℕ} (h : IsObject obj vs ms) :
    ∃ out, Validate.construct (δ := Unit) obj (.obj ⟨ms.length, Select.axesLast ms.length⟩) none none
        = .ok (out, ⟨ms.length, Select.axesLast ms.length⟩) ∧
      IsObject out vs ms ∧ HasValues out vs ms (fun i m => obj.get (atMom vs.length i m)) := by
  have hl : (Select.axesLast ms.length).length = ms.length := by simp [Select.axesLast]
  have hle : ms.length ≤ obj.shape.length := by rw [h.shape, List.length_append]; omega
  have hsz := h.momSizes_eq
  obtain ⟨out, e, h1, h2⟩ := construct_cells (δ := Unit) (obj := obj)
    (mp := .obj ⟨ms.length, Select.axesLast ms.length⟩) (ndim := none) (axes := none) rfl
    ⟨by have := h.count; simp only; omega, by simp [hl]⟩ h.proper
    ⟨Select.axesLast_range _ _ hle, h.good.distinct⟩
    (fun z hz => h.orders _ (by
      rw [← hsz]
      exact List.mem_map.2 ⟨_, List.mem_map.2 ⟨z, hz, rfl⟩, rfl⟩))
  simp only [hl, hsz, IsObject_vals h] at e h1 h2
  refine ⟨out, e, h1, h2.shape, fun i hi m hm => ?_⟩
  rw [h2.value i hi m hm]
  exact IsObject_read h i m

/-- **C68** The method of an object: the result has two moment axes, and at every place the comoment of
orders `j` and `k` is the object's moment of order `j + k`. -/
theorem C68_object {obj : Arr K} {vs : List ℕ} {order a b : ℕ} (h : IsObject obj vs [order + 1])
    {mom : List ℤ} (hab : OrdersFor mom order a b) (mem : Com K) :
    ∃ out, objectToComoments 1 obj mom mem = .ok out ∧ IsObject out vs [a + 1, b + 1] ∧
      ∀ i, InBounds vs i → ∀ j k, j ≤ a → k ≤ b →
        out.get (atMom vs.length i [j, k]) = obj.get (atMom vs.length i [j + k]) := by
  obtain ⟨mid, e, hO, hV⟩ := (toComoments_object h mom mem).1 a b hab
  obtain ⟨out, e', hO', hV'⟩ := construct_keeps hO
  refine ⟨out, ?_, hO', fun i hi j k hj hk => ?_⟩
  · unfold objectToComoments
    rw [if_neg (by decide), e]
    show Except.map _ (Validate.construct (δ := Unit) mid
      (.obj ⟨([a + 1, b + 1] : List ℕ).length, Select.axesLast ([a + 1, b + 1] : List ℕ).length⟩) none none)
      = _
    rw [e']
    rfl
  · have hm : Within [a + 1, b + 1] [j, k] := .cons (by omega) (.cons (by omega) .nil)
    rw [hV'.value i hi _ hm, hV.value i hi _ hm]
    rfl

/-- **C68** An object that stands for samples becomes one that stands for the pairs `(x, x)`. -/
theorem C68_object_samples {obj : Arr K} {vs : List ℕ} {order a b : ℕ} {L : (ℕ → ℕ) → List (Sample K)}
    (h : Stands core1 (Holds order) obj vs [order + 1] L) {mom : List ℤ} (hab : OrdersFor mom order a b)
    (mem : Com K) :
    ∃ out, objectToComoments 1 obj mom mem = .ok out ∧
      Stands core2 (Holds2 a b) out vs [a + 1, b + 1] (fun i => diagonal (L i)) := by
  obtain ⟨out, e, hO, hV⟩ := C68_object h.object hab mem
  exact ⟨out, e, hO, rfl, fun i hi => holds_spread hab.1 hab.2.1 hab.2.2.1 (h.holds i hi) (hV i hi)⟩

/-- **C68** The same for raw moments. -/
theorem C68_object_raw {obj : Arr K} {vs : List ℕ} {order a b : ℕ} {L : (ℕ → ℕ) → List (Sample K)}
    (h : Stands core1 (IsRawMoments order) obj vs [order + 1] L) {mom : List ℤ}
    (hab : OrdersFor mom order a b) (mem : Com K) :
    ∃ out, objectToComoments 1 obj mom mem = .ok out ∧
      Stands core2 (IsRawComoments a b) out vs [a + 1, b + 1] (fun i => diagonal (L i)) := by
  obtain ⟨out, e, hO, hV⟩ := C68_object h.object hab mem
  exact ⟨out, e, hO, rfl, fun i hi => raw_spread hab.2.2.1 (h.holds i hi) (hV i hi)⟩

/-- **C68** The method is refused for objects that hold comoments already, and when the orders do not
fit. -/
theorem C68_object_refused {obj : Arr K} {mom : List ℤ} (mem : Com K) :
    (∀ nd, nd ≠ 1 → objectToComoments nd obj mom mem = .error .valueError) ∧
    ∀ vs order, IsObject obj vs [order + 1] → (∀ a b, ¬ OrdersFor mom order a b) →
      objectToComoments 1 obj mom mem = .error .valueError := by
  refine ⟨fun nd h => if_pos h, fun vs order h hn => ?_⟩
  unfold objectToComoments
  rw [if_neg (by decide), (toComoments_object h mom mem).2 hn]
  rfl

/-- **C68** Comoments that stand for pairs `(x, x)` give back moments that stand for the `x`. -/
theorem C68_back_samples {obj : Arr K} {vs : List ℕ} {a b : ℕ} {L : (ℕ → ℕ) → List (Sample K)}
    (h : Stands core2 (Holds2 a b) obj vs [a + 1, b + 1] (fun i => diagonal (L i))) (mem : Mom K) :
    ∃ out, comomentsToMomentsNd obj [-2, -1] mem = .ok out ∧
      Stands core1 (Holds (a + b)) out vs [a + b + 1] L := by
  have h0 : 1 ≤ a := by have := h.object.orders (a + 1) (by simp); omega
  have h1 : 1 ≤ b := by have := h.object.orders (b + 1) (by simp); omega
  obtain ⟨out, e, hO, hV⟩ := toMoments_object h.object mem
  refine ⟨out, e, hO, rfl, fun i hi => holds_gather h0 h1 (h.holds i hi) fun k hk => ?_⟩
  have := hV.value i hi [k] (.cons (by omega) .nil)
  refine this.trans ?_
  simp only [List.getD_cons_zero]
  by_cases hb : k ≤ b
  · rw [if_pos hb, if_pos hb]; rfl
  · rw [if_neg hb, if_neg hb]; rfl

end Objects

/-! ## Labelled arrays -/

section Named

variable {K : Type} [Field K] {δ : Type} [DecidableEq δ] {x : DataArray δ K}

variable {d e f : δ} {order a b : ℕ} {tmp : δ → δ} {mom : List ℤ}

/-- **C68** `moments_to_comoments` of a labelled array: the new moment dimensions come last, and the
comoment of orders `j` and `k` is the moment of order `j + k` at the same coordinates. A new dimension
may have the name of the old one. -/
theorem C68_named (hx : LabelledObject x [d] 1) (hn : FreeNames x [d] [e, f] tmp)
    (hs : x.size d = order + 1) (hab : OrdersFor mom order a b) (mem : Com K) :
    ∃ y, momentsToComomentsX tmp x d [e, f] mom mem = .ok y ∧
      ShowsNamed y (valDims x [d] ++ [e, f]) (sizesPair x.size e f (a + 1) (b + 1))
        (fun c => entry x (withNames [d] [c e + c f] c)) :=
  (toComomentsX_spec tmp hx (by simpa using hn.distinct) (hn.free e (by simp)) (hn.free f (by simp))
    (hn.temporary d (by simp)) (by have := hab.1; have := hab.2.2.1; omega) hs mom mem).1 a b hab

/-- **C68** Orders that do not fit are refused for labelled arrays as well. -/
theorem C68_named_refused (hx : LabelledObject x [d] 1) (hn : FreeNames x [d] [e, f] tmp)
    (ho : 1 ≤ order) (hs : x.size d = order + 1) (hab : ∀ a b, ¬ OrdersFor mom order a b) (mem : Com K) :
    momentsToComomentsX tmp x d [e, f] mom mem = .error .valueError :=
  (toComomentsX_spec tmp hx (by simpa using hn.distinct) (hn.free e (by simp)) (hn.free f (by simp))
    (hn.temporary d (by simp)) ho hs mom mem).2 hab

omit [Field K] in
theorem applyUfunc_name_in_use {β : Type} {ins outs : List δ} {fn : Nd.Arr K → Py (Nd.Arr β)}
    (h : ∃ g ∈ outs, g ∈ x.dims ∧ g ∉ ins) : applyUfunc x ins [] outs [] fn = .error .valueError := by
  obtain ⟨g, hg, hgx, hgi⟩ := h
  unfold applyUfunc
  cases hl : loopDims [x.frame] [] (ins ++ [] ++ outs) with
  | error er => rw [loopDims_error hl]; rfl
  | ok loop =>
    simp only [Except.bind]
    cases hc : compatData x loop ins with
    | error er => rw [compatData_error hc]
    | ok v =>
      have := (compatData_inv hc).2 g hgx
      rcases List.mem_append.1 this with h | h
      · have := ((loopDims_inv hl).2.2.2 g).1 h
        exact absurd (by simp [hg]) this.1
      · exact absurd h hgi

/-- **C68** A new moment dimension cannot have the name of a dimension that is kept. -/
theorem C68_named_name_in_use (hx : LabelledObject x [d] 1) {outs : List δ}
    (hu : ∃ g ∈ outs, g ∈ valDims x [d]) (ht : d ∈ outs → tmp d ∉ x.dims) (mem : Com K) :
    momentsToComomentsX tmp x d outs mom mem = .error .valueError := by
  obtain ⟨y, t', hm, ht', hO, hV, hsv, hsm, hent, hdims⟩ := makeRoom_spec hx (old := d) (t := tmp d)
    (needed := decide (d ∈ outs)) (by simp) (fun h => ht (of_decide_eq_true h))
  have hmap : ([d].map fun g => if g = d then t' else g) = [t'] := by simp
  rw [hmap] at hO hV
  obtain ⟨g, hg, hgv⟩ := hu
  rw [← hV, mem_valDims] at hgv
  unfold momentsToComomentsX
  rw [hm]
  simp only [Except.bind]
  rcases (C16_validate_rejects mom ((y.size t' : ℤ) - 1)).1 with ⟨p, hp⟩ | hp
  · rw [hp]
    exact applyUfunc_name_in_use ⟨g, hg, hgv⟩
  · rw [hp]

omit [Field K] in
theorem record_spread {y : DataArray δ K} (hx : LabelledObject x [d] 1) (hn : FreeNames x [d] [e, f] tmp)
    (hS : ShowsNamed y (valDims x [d] ++ [e, f]) (sizesPair x.size e f (a + 1) (b + 1))
        (fun c => entry x (withNames [d] [c e + c f] c))) :
    LabelledObject y [e, f] 2 ∧ valDims y [e, f] = valDims x [d] ∧
    (∀ g ∈ valDims x [d], y.size g = x.size g) ∧ y.size e = a + 1 ∧ y.size f = b + 1 ∧
    ∀ c, (∀ g ∈ valDims x [d], c g < x.size g) → ∀ j k, j ≤ a → k ≤ b →
      entry y (withNames [e, f] [j, k] c) = entry x (withNames [d] [j + k] c) := by
  have hef : e ≠ f := by simpa using hn.distinct
  have hve : ∀ g ∈ valDims x [d], g ≠ e ∧ g ≠ f := fun g hg =>
    ⟨fun h => hn.free e (by simp) (h ▸ hg), fun h => hn.free f (by simp) (h ▸ hg)⟩
  have hyv : valDims y [e, f] = valDims x [d] := by
    have h1 : valDims y [e, f] = (valDims x [d] ++ [e, f]).filter (fun g => decide (g ∉ [e, f])) := by
      unfold valDims
      rw [hS.dims_eq]
      rfl
    rw [h1, List.filter_append, List.filter_eq_self.2 (fun g hg => by simp [hve g hg])]
    simp
  refine ⟨⟨?_, hn.distinct, ?_, rfl⟩, hyv, fun g hg => ?_, ?_, ?_, fun c hc j k hj hk => ?_⟩
  · rw [hS.dims_eq]
    exact List.nodup_append'.2 ⟨hx.distinct.filter _, hn.distinct, fun g h1 h2 => hn.free g h2 h1⟩
  · intro g hg; rw [hS.dims_eq]; exact List.mem_append_right _ hg
  · rw [hS.size_eq g (List.mem_append_left _ hg)]
    simp [sizesPair, hve g hg]
  · rw [hS.size_eq e (by simp)]; simp [sizesPair]
  · rw [hS.size_eq f (by simp)]; simp [sizesPair, hef.symm]
  · rw [hS.entry_eq]
    · have e0 : withNames [e, f] [j, k] c e = j := by simp [withNames]
      have e1 : withNames [e, f] [j, k] c f = k := by
        simp [withNames, List.idxOf_cons, hef]
      rw [e0, e1]
      refine entry_congr x fun g hg => ?_
      by_cases h : g = d
      · subst h; simp [withNames]
      · have hgv : g ∈ valDims x [d] := mem_valDims.2 ⟨hg, by simpa using h⟩
        simp [withNames, h, hve g hgv]
    · intro g hg
      rcases List.mem_append.1 hg with h | h
      · simpa [withNames, sizesPair, hve g h] using hc g h
      · by_cases h1 : g = e
        · subst h1; simp [withNames, sizesPair]; omega
        · have h2 : g = f := by simpa [h1] using h
          subst h2
          simp [withNames, sizesPair, List.idxOf_cons, hef, h1]; omega

/-- **C68** A labelled object that stands for samples becomes one that stands for the pairs `(x, x)` at the
same coordinates. -/
theorem C68_named_samples {L : (δ → ℕ) → List (Sample K)} (h : StandsNamed core1 (Holds order) x [d] L)
    (hn : FreeNames x [d] [e, f] tmp) (hs : x.size d = order + 1) (hab : OrdersFor mom order a b)
    (mem : Com K) :
    ∃ y, objectToComomentsX tmp x [d] [e, f] mom mem = .ok y ∧ y.dims = valDims x [d] ++ [e, f] ∧
      (∀ g ∈ valDims x [d], y.size g = x.size g) ∧ y.size e = a + 1 ∧ y.size f = b + 1 ∧
      StandsNamed core2 (Holds2 a b) y [e, f] (fun c => diagonal (L c)) := by
  obtain ⟨y, hy, hS⟩ := C68_named h.object hn hs hab mem
  obtain ⟨hO, hyv, hsz, h1, h2, hent⟩ := record_spread h.object hn hS
  refine ⟨y, hy, hS.dims_eq, hsz, h1, h2, hO, fun c hc => ?_⟩
  have hc' : ∀ g ∈ valDims x [d], c g < x.size g := fun g hg => by
    rw [← hsz g hg]
    exact hc g (hyv.symm ▸ hg)
  exact holds_spread hab.1 hab.2.1 hab.2.2.1 (h.holds c hc') (hent c hc')

/-- **C68** The method is refused for labelled objects that hold comoments already. -/
theorem C68_named_object_refused {moms outs : List δ} (h : moms.length ≠ 1) (mem : Com K) :
    objectToComomentsX tmp x moms outs mom mem = .error .valueError := by
  match moms with
  | [] => rfl
  | [_] => exact absurd rfl h
  | _ :: _ :: _ => rfl

/-- **C68** `comoments_to_moments` of a labelled array: the new moment dimension comes last, and the moment
of order `k` is the first comoment of total order `k` at the same coordinates. The new dimension may have
the name of an old one. -/
theorem C68_named_back {d0 d1 : δ} (hx : LabelledObject x [d0, d1] 2)
    (hn : FreeNames x [d0, d1] [e] tmp) (h0 : 1 ≤ a) (h1 : 1 ≤ b) (hs0 : x.size d0 = a + 1)
    (hs1 : x.size d1 = b + 1) (mem : Mom K) :
    ∃ y, comomentsToMomentsX tmp x [d0, d1] e mem = .ok y ∧
      ShowsNamed y (valDims x [d0, d1] ++ [e]) (fun g => if g = e then a + b + 1 else x.size g)
        (fun c => entry x (withNames [d0, d1] (if c e ≤ b then [0, c e] else [c e - b, b]) c)) :=
  toMomentsX_spec tmp hx (hn.free e (by simp)) (fun h => by simpa using hn.temporary e h (by simp)) h0 h1
    hs0 hs1 mem

/-- **C68** The new moment dimension cannot have the name of a dimension that is kept. -/
theorem C68_named_back_name_in_use {moms : List δ} (hu : e ∈ valDims x moms) (mem : Mom K) :
    comomentsToMomentsX tmp x moms e mem = .error .valueError := by
  obtain ⟨h1, h2⟩ := mem_valDims.1 hu
  unfold comomentsToMomentsX makeRoom
  rw [if_neg (by simpa using h2)]
  refine applyUfunc_name_in_use ⟨e, by simp, h1, fun h => ?_⟩
  obtain ⟨g, hg, hge⟩ := List.mem_map.1 h
  by_cases hgd : g = e
  · exact h2 (hgd ▸ hg)
  · rw [if_neg hgd] at hge; exact hgd hge

/-- **C68** Labelled comoments that stand for pairs `(x, x)` give back moments that stand for the `x`. -/
theorem C68_named_back_samples {d0 d1 : δ} {L : (δ → ℕ) → List (Sample K)}
    (h : StandsNamed core2 (Holds2 a b) x [d0, d1] (fun c => diagonal (L c)))
    (hn : FreeNames x [d0, d1] [e] tmp) (h0 : 1 ≤ a) (h1 : 1 ≤ b) (hs0 : x.size d0 = a + 1)
    (hs1 : x.size d1 = b + 1) (mem : Mom K) :
    ∃ y, comomentsToMomentsX tmp x [d0, d1] e mem = .ok y ∧ y.dims = valDims x [d0, d1] ++ [e] ∧
      (∀ g ∈ valDims x [d0, d1], y.size g = x.size g) ∧ y.size e = a + b + 1 ∧
      StandsNamed core1 (Holds (a + b)) y [e] L := by
  obtain ⟨y, hy, hS⟩ := C68_named_back h.object hn h0 h1 hs0 hs1 mem
  have hve : ∀ g ∈ valDims x [d0, d1], g ≠ e := fun g hg h => hn.free e (by simp) (h ▸ hg)
  have hyv : valDims y [e] = valDims x [d0, d1] := by
    have h1 : valDims y [e] = (valDims x [d0, d1] ++ [e]).filter (fun g => decide (g ∉ [e])) := by
      unfold valDims
      rw [hS.dims_eq]
      rfl
    rw [h1, List.filter_append, List.filter_eq_self.2 (fun g hg => by simp [hve g hg])]
    simp
  have hsz : ∀ g ∈ valDims x [d0, d1], y.size g = x.size g := fun g hg => by
    rw [hS.size_eq g (List.mem_append_left _ hg), if_neg (hve g hg)]
  refine ⟨y, hy, hS.dims_eq, hsz, by rw [hS.size_eq e (by simp), if_pos rfl], ⟨?_, by simp, ?_, rfl⟩,
    fun c hc => ?_⟩
  · rw [hS.dims_eq]
    exact List.nodup_append'.2 ⟨h.object.distinct.filter _, by simp, fun g h1 h2 => hn.free g h2 h1⟩
  · intro g hg; rw [hS.dims_eq]; exact List.mem_append_right _ hg
  · have hc' : ∀ g ∈ valDims x [d0, d1], c g < x.size g := fun g hg => by
      rw [← hsz g hg]
      exact hc g (hyv.symm ▸ hg)
    refine holds_gather h0 h1 (h.holds c hc') fun k hk => ?_
    have hek : withNames [e] [k] c e = k := by simp [withNames]
    have : entry y (withNames [e] [k] c)
        = entry x (withNames [d0, d1] (if k ≤ b then [0, k] else [k - b, b]) c) := by
      rw [hS.entry_eq]
      · rw [hek]
        refine entry_congr x fun g hg => ?_
        by_cases hgm : g ∈ [d0, d1]
        · unfold withNames; rw [if_pos hgm, if_pos hgm]
        · have := hve g (mem_valDims.2 ⟨hg, hgm⟩)
          conv_lhs => unfold withNames
          conv_rhs => unfold withNames
          rw [if_neg hgm, if_neg hgm, if_neg (by simpa using this)]
      · intro g hg
        by_cases hge : g = e
        · subst hge; rw [if_pos rfl, hek]; omega
        · rw [if_neg hge]
          have hgv : g ∈ valDims x [d0, d1] := by
            rcases List.mem_append.1 hg with h | h
            · exact h
            · exact absurd (by simpa using h) hge
          simpa [withNames, hge] using hc' g hgv
    refine this.trans ?_
    by_cases hb : k ≤ b
    · rw [if_pos hb, if_pos hb]; rfl
    · rw [if_neg hb, if_neg hb]; rfl

/-- **C68** There and back, with names: the moments up to the sum of the two orders are unchanged. -/
theorem C68_named_round_trip {g : δ} (hx : LabelledObject x [d] 1) (hn : FreeNames x [d] [e, f] tmp)
    (hs : x.size d = order + 1) (hab : OrdersFor mom order a b) (hg : g ∉ valDims x [d])
    (ht : g ∈ [e, f] → tmp g ∉ valDims x [d] ++ [e, f] ∧ tmp g ≠ g) (mem : Com K) (mem' : Mom K) :
    ∃ mid y, momentsToComomentsX tmp x d [e, f] mom mem = .ok mid ∧
      comomentsToMomentsX tmp mid [e, f] g mem' = .ok y ∧
      ShowsNamed y (valDims x [d] ++ [g]) (fun h => if h = g then a + b + 1 else x.size h)
        (fun c => entry x (withNames [d] [c g] c)) := by
  obtain ⟨mid, hm, hS⟩ := C68_named hx hn hs hab mem
  obtain ⟨hO, hyv, hsz, h1, h2, hent⟩ := record_spread hx hn hS
  obtain ⟨y, hy, hT⟩ := toMomentsX_spec tmp hO (hyv ▸ hg) (by rw [hS.dims_eq]; exact ht) hab.1 hab.2.1
    h1 h2 mem'
  rw [hyv] at hT
  have hin : ∀ h ∈ valDims x [d] ++ [g], h ≠ g → h ∈ valDims x [d] := fun h hh hne => by
    rcases List.mem_append.1 hh with h' | h'
    · exact h'
    · exact absurd (by simpa using h') hne
  refine ⟨mid, y, hm, hy, hT.dims_eq, fun h hh => ?_, fun c hc => ?_⟩
  · rw [hT.size_eq h hh]
    by_cases hhg : h = g
    · rw [if_pos hhg, if_pos hhg]
    · rw [if_neg hhg, if_neg hhg, hsz h (hin h hh hhg)]
  · have hcv : ∀ h ∈ valDims x [d], c h < x.size h := fun h hh => by
      have hne : h ≠ g := fun e => hg (e ▸ hh)
      simpa [hne] using hc h (List.mem_append_left _ hh)
    have hcg : c g ≤ a + b := by
      have := hc g (by simp)
      rw [if_pos rfl] at this
      omega
    rw [hT.entry_eq c fun h hh => ?_]
    · by_cases hb : c g ≤ b
      · rw [if_pos hb, hent c hcv 0 (c g) (by omega) hb, Nat.zero_add]
      · rw [if_neg hb, hent c hcv (c g - b) b (by omega) le_rfl, Nat.sub_add_cancel (by omega)]
    · by_cases hhg : h = g
      · subst hhg; rw [if_pos rfl]; omega
      · rw [if_neg hhg, hsz h (hin h hh hhg)]; exact hcv h (hin h hh hhg)

end Named

/-! ## Examples -/

open ExDim

theorem exStat_orders : OrdersFor [1, -1] 3 1 2 := ⟨by omega, by omega, by omega, 1, -1, rfl, by omega⟩
theorem exStat_no_orders (a b : ℕ) : ¬ OrdersFor [2, 2] 3 a b := by
  rintro ⟨h1, h2, h3, m0, m1, e, h⟩
  obtain ⟨e0, e⟩ := List.cons.inj e
  obtain ⟨e1, -⟩ := List.cons.inj e
  omega

/-- The moment axis first. -/
def exFront : Arr ℚ := ⟨[4, 2], fun i => 10 * (i 0 : ℚ) + (i 1 : ℚ)⟩

theorem exFront_proper : exFront.Proper := by
  intro i j h
  have h0 := h 0 (by decide)
  have h1 := h 1 (by decide)
  simp [exFront, h0, h1]

example := C68_array exFront_proper (z := 0) (by simp [InRange, exFront]) (order := 3) (by decide) exStat_orders (fun _ _ => 7)
example := C68_array exFront_proper (z := -2) (by simp [InRange, exFront]) (order := 3) (by decide) exStat_orders
  (fun _ _ => 7)
example : items (momentsToComomentsNd exFront 0 [1, -1] (fun _ _ => 7))
    [[1, 0, 0], [1, 0, 2], [1, 1, 0], [1, 1, 2], [0, 1, 1]] = some ([2, 2, 3], [1, 21, 11, 31, 20]) := by
  decide +kernel
example := C68_array_refused exFront_proper (z := 0) (by simp [InRange, exFront]) (order := 3) (by omega) (by decide)
  exStat_no_orders (fun _ _ => 7)

/-- Moment axes around a value axis. -/
def exAround : Arr ℚ := ⟨[3, 2, 2], fun i => 100 * (i 0 : ℚ) + 10 * (i 1 : ℚ) + (i 2 : ℚ)⟩

theorem exAround_proper : exAround.Proper := by
  intro i j h
  have h0 := h 0 (by decide)
  have h1 := h 1 (by decide)
  have h2 := h 2 (by decide)
  simp [exAround, h0, h1, h2]

example := C68_array_back exAround_proper (axes := [2, 0]) rfl (by simp [InRange, exAround]) (by decide) (a := 1) (b := 2)
  (by omega) (by omega) (by decide) (fun _ => 7)
example : items (comomentsToMomentsNd exAround [2, 0] (fun _ => 7)) [[1, 0], [1, 1], [1, 2], [1, 3]]
    = some ([2, 4], [10, 110, 210, 211]) := by decide +kernel
example : items (comomentsToMomentsNd exAround [0, 2] (fun _ => 7)) [[1, 0], [1, 1], [1, 2], [1, 3]]
    = some ([2, 4], [10, 11, 111, 211]) := by decide +kernel

example := C68_array_round_trip exStat_object.object exStat_orders (fun _ _ => 7) (fun _ => 8)
example : items ((momentsToComomentsNd exStat (-1) [1, -1] (fun _ _ => 7)).bind fun mid =>
    comomentsToMomentsNd mid [-2, -1] (fun _ => 8)) [[1, 0], [1, 1], [1, 2], [1, 3]]
    = some ([2, 4], [3, 3, 2, -2]) := by decide +kernel

example := C68_object exStat_object.object exStat_orders (fun _ _ => 7)
example := C68_object_samples exStat_object.stands exStat_orders (fun _ _ => 7)
example : items (objectToComoments 1 exStat [1, -1] (fun _ _ => 7))
    [[1, 0, 0], [1, 0, 1], [1, 1, 0], [1, 1, 1], [1, 1, 2]] = some ([2, 2, 3], [3, 3, 3, 2, -2]) := by
  decide +kernel

/-- The raw moments of the samples 0 and 2. -/
def exRawSum : Arr ℚ := ⟨[4], fun i => [2, 1, 2, 4].getD (i 0) 0⟩

theorem exRawSum_stands : Stands core1 (IsRawMoments 3) exRawSum [] [3 + 1] (fun _ => [⟨1, 0⟩, ⟨1, 2⟩]) where
  object := {
    proper := by
      intro i j h
      have h0 := h 0 (by decide)
      simp [exRawSum, h0]
    shape := rfl
    count := by decide
    orders := by decide }
  nd := rfl
  holds := by
    intro i _
    refine ⟨by norm_num [core1, exRawSum, atMom, weight], fun n h1 h3 => ?_⟩
    obtain rfl | rfl | rfl : n = 1 ∨ n = 2 ∨ n = 3 := by omega
    all_goals norm_num [core1, exRawSum, atMom, rawMoment, wsum, weight]

example := C68_object_raw exRawSum_stands exStat_orders (fun _ _ => 7)
example := (C68_object_refused (obj := exStat2) (mom := [1, 1]) (fun _ _ => 7)).1 2 (by decide)
example := (C68_object_refused (obj := exStat) (mom := [2, 2]) (fun _ _ => 7)).2 [2] 3 exStat_object.object
  exStat_no_orders
example := C68_back_samples (C68_object_samples exStat_object.stands exStat_orders (fun _ _ => 7)).choose_spec.2
  (fun _ => 8)

/-- Some temporary name. -/
def exTmp : ExDim → ExDim := fun _ => b

theorem exGather_orders : OrdersFor [-1, 1] 2 1 1 := ⟨by omega, by omega, by omega, -1, 1, rfl, by omega⟩
theorem exGather_free : FreeNames exGather [m] [m, n] exTmp := ⟨by decide, by decide, by decide⟩

example := C68_named exGather_object.object exGather_free (order := 2) rfl exGather_orders (fun _ _ => 7)
example := C68_named_samples exGather_stands exGather_free rfl exGather_orders (fun _ _ => 7)
example : dimEntries (momentsToComomentsX exTmp exGather m [m, n] [-1, 1] (fun _ _ => 7))
    [[(p, 2), (t, 1), (m, 0), (n, 0)], [(p, 2), (t, 1), (m, 0), (n, 1)], [(p, 2), (t, 1), (m, 1), (n, 0)],
      [(p, 2), (t, 1), (m, 1), (n, 1)]] = some ([p, t, m, n], [3, 2, 2, 2], [1, 12, 12, 0]) := by
  decide +kernel
example := C68_named_refused exGather_object.object exGather_free (order := 2) (mom := [2, 1]) (by omega) rfl
  (by
    rintro a b ⟨h1, h2, h3, m0, m1, e, h⟩
    obtain ⟨e0, e⟩ := List.cons.inj e
    obtain ⟨e1, -⟩ := List.cons.inj e
    omega) (fun _ _ => 7)
example := C68_named_name_in_use exGather_object.object (tmp := exTmp) (mom := [-1, 1]) (outs := [p, m])
  ⟨p, by decide, by decide⟩ (by decide) (fun _ _ => 7)
example := C68_named_object_refused (x := exGather2) (tmp := exTmp) (mom := [1, 1]) (moms := [m, n])
  (outs := [m, n]) (by decide) (fun _ _ => 7)

theorem exGather3_free : FreeNames exGather3 [m, n] [n] exTmp := ⟨by decide, by decide, by decide⟩

example := C68_named_back exGather3_moments.object exGather3_free (a := 2) (b := 2) (by omega) (by omega)
  rfl rfl (fun _ => 7)
example : dimEntries (comomentsToMomentsX exTmp exGather3 [m, n] n (fun _ => 7))
    [[(p, 1), (n, 0)], [(p, 1), (n, 1)], [(p, 1), (n, 2)], [(p, 1), (n, 3)]]
    = some ([p, n], [3, 5], [1, 2, 0, 0]) := by decide +kernel
example : dimEntries (comomentsToMomentsX exTmp exGather3 [n, m] t (fun _ => 7))
    [[(p, 1), (t, 0)], [(p, 1), (t, 1)], [(p, 1), (t, 2)], [(p, 1), (t, 3)]]
    = some ([p, t], [3, 5], [1, 1, 0, 0]) := by decide +kernel
example := C68_named_back_name_in_use (x := exGather3) (tmp := exTmp) (moms := [m, n]) (e := p) (by decide)
  (fun _ => 7)
example := C68_named_round_trip exGather_object.object exGather_free (order := 2) rfl exGather_orders
  (g := m) (by decide) (by decide) (fun _ _ => 7) (fun _ => 8)

-- back to the samples of the labelled object
example : ∃ mid y, objectToComomentsX exTmp exGather [m] [m, n] [-1, 1] (fun _ _ => 7) = .ok mid ∧
    comomentsToMomentsX exTmp mid [m, n] m (fun _ => 7) = .ok y ∧
    StandsNamed core1 (Holds 2) y [m] exGatherL := by
  obtain ⟨mid, h1, hd, hs, hm, hn, hS⟩ := C68_named_samples exGather_stands exGather_free rfl exGather_orders
    (fun _ _ => 7)
  have hv : valDims mid [m, n] = [p, t] := by
    unfold valDims; rw [hd]; decide
  obtain ⟨y, h2, -, -, -, hT⟩ := C68_named_back_samples hS (e := m) (tmp := exTmp)
    ⟨by decide, by rw [hv]; decide, by rw [hd]; decide⟩ (by omega) (by omega) hm hn (fun _ => 7)
  exact ⟨mid, y, h1, h2, hT⟩

end Cmomy
