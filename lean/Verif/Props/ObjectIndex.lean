import Verif.Lemmas.ObjectIndex
import Verif.Props.ObjectCollect
import Verif.Props.Validate

/-!
# C63: indexing, iterating and concatenating array objects
-/

set_option linter.unusedSectionVars false

namespace Cmomy

open Spec Nd Axes ObjectIndex

section Index

variable {K : Type*} {obj : Arr K} {vs ms : List ℕ}

/-- **C63** `c[key]` for a key without `...` that does not reach the moment axes: an object with the cells
the key selects. -/
theorem C63_getitem (h : IsObject obj vs ms) {keys : List Key} {vs' : List ℕ} {f : (ℕ → ℕ) → ℕ → ℕ}
    (hr : Reads keys vs vs' f) (hp : PlainKey keys) (hE : Key.ellipsis ∉ keys) :
    ∃ out, getitem ms.length obj keys = .ok out ∧ CellsFrom out obj vs' vs ms f := by
  have := getitem_reads h hr hp
  rwa [if_neg hE] at this

/-- **C63** The same for a key with `...`, if it ends with one `:` for every moment axis. -/
theorem C63_getitem_ellipsis (h : IsObject obj vs ms) {keys : List Key} {vs' : List ℕ}
    {f : (ℕ → ℕ) → ℕ → ℕ} (hr : Reads keys vs vs' f) (hp : PlainKey keys) (hE : Key.ellipsis ∈ keys) :
    ∃ out, getitem ms.length obj (keys ++ List.replicate ms.length .full) = .ok out ∧
      CellsFrom out obj vs' vs ms f := by
  have := getitem_reads h hr hp
  rwa [if_pos hE] at this

/-- **C63** For any key that numpy accepts, reaching the moment axes or not, what is checked is that the
last axes of the result have the sizes of the moment axes: then, and only then, the result is accepted. -/
theorem C63_getitem_checked (h : IsObject obj vs ms) {keys : List Key} {ws : List ℕ}
    {f : (ℕ → ℕ) → ℕ → ℕ} (hr : Reads keys obj.shape ws f) (hp : PlainKey keys) :
    (ms <:+ ws → ∃ out, getitem ms.length obj keys = .ok out ∧ out.Proper ∧ out.shape = ws ∧
      ∀ i, InBounds ws i → out.get i = obj.get (f i)) ∧
    (¬ ms <:+ ws → getitem ms.length obj keys = .error .valueError) := getitem_all h hr hp

/-- **C63** A key that selects nothing from the array is refused: with an `IndexError`, unless some slice
has step zero. -/
theorem C63_getitem_error {keys : List Key} (hp : PlainKey keys)
    (hn : ¬ ∃ ws f, Reads keys obj.shape ws f) (d : ℕ) :
    getitem d obj keys = .error .indexError ∨
      (getitem d obj keys = .error .valueError ∧ ∃ a b, Key.slice a b (some 0) ∈ keys) :=
  getitem_fails hp hn d

/-- **C63** An integer out of range is an `IndexError`. -/
theorem C63_getitem_out_of_range (h : IsObject obj vs ms) {z : ℤ} {n : ℕ} {vs' : List ℕ}
    (hv : vs = n :: vs') (hz : ¬ InRange n z) :
    getitem ms.length obj [.int z] = .error .indexError := by
  rcases getitem_fails (obj := obj) (keys := [.int z]) (.inl rfl) (by
      rintro ⟨ws, f, hr⟩
      rw [h.shape, hv] at hr
      cases hr with
      | int hz' _ => exact hz hz') ms.length with e | ⟨_, a, b, hm⟩
  · exact e
  · simp at hm

/-- **C63** Finding: an integer on the moment axis is accepted if the last value axis happens to have the
size of the moment axis. The object found has, for its moments, the `k`-th moments of neighbouring cells. -/
theorem C63_moment_index_accepted {s : ℕ} (h : IsObject obj (vs ++ [s]) [s]) {k : ℕ} (hk : k < s) :
    ∃ out, getitem 1 obj [.ellipsis, .int k] = .ok out ∧ IsObject out vs [s] ∧
      ∀ i, InBounds vs i → ∀ m < s, out.get (atMom vs.length i [m])
        = obj.get (atMom (vs.length + 1) (atMom vs.length i [m]) [k]) := by
  have hz : InRange s (k : ℤ) := ⟨by omega, by omega⟩
  have hr := Reads.ellipsis (vs ++ [s]) (ks := [.int (k : ℤ)]) (back := [s]) (by simp) (by rfl)
    (.int hz (.rest []))
  rw [List.append_nil, ← h.shape] at hr
  obtain ⟨out, h1, h2, h3, h4⟩ := (getitem_all h hr (.inl rfl)).1 ⟨vs, rfl⟩
  refine ⟨out, h1, ⟨h2, h3, h.count, h.orders⟩, fun i hi m hm => ?_⟩
  have hb : InBounds (vs ++ [s]) (atMom vs.length i [m]) := by
    intro a ha
    unfold atMom
    split_ifs with hlt
    · rw [List.getD_append _ _ _ _ hlt]; exact hi a hlt
    · obtain rfl : a = vs.length := by simp at ha; omega
      simpa using hm
  rw [h4 _ hb]
  refine h.proper _ _ fun a ha => ?_
  simp only [List.length_append, List.length_singleton]
  have hw : wrap s (k : ℤ) = k := by
    unfold wrap
    rw [Int.emod_eq_of_lt (by omega) (by omega)]
    rfl
  by_cases hlt : a < vs.length + 1
  · rw [if_pos hlt]
    exact (if_pos hlt).symm
  · obtain rfl : a = vs.length + 1 := by
      rw [h.shape] at ha
      simp at ha
      omega
    rw [if_neg hlt, Nat.sub_self]
    show wrap s k = _
    rw [hw]
    conv_rhs => unfold atMom
    simp

/-- **C63** If it has not, the integer is refused. -/
theorem C63_moment_index_rejected {s n : ℕ} (h : IsObject obj (vs ++ [n]) [s]) (hn : n ≠ s) {z : ℤ}
    (hz : InRange s z) : getitem 1 obj [.ellipsis, .int z] = .error .valueError := by
  have hr := Reads.ellipsis (vs ++ [n]) (ks := [.int z]) (back := [s]) (by simp) (by rfl)
    (.int hz (.rest []))
  rw [List.append_nil, ← h.shape] at hr
  refine (getitem_all h hr (.inl rfl)).2 fun hs => hn ?_
  obtain ⟨t, ht⟩ := hs
  have := (List.append_inj' ht rfl).2
  simpa using this.symm

/-- **C63** Finding: a slice of the moment axis is accepted if it keeps the size; `c[..., ::-1]` gives an
object whose moments are in the opposite order. -/
theorem C63_moments_reversed {s : ℕ} (h : IsObject obj vs [s]) :
    ∃ out, getitem 1 obj [.ellipsis, .slice none none (some (-1))] = .ok out ∧ IsObject out vs [s] ∧
      ∀ i, InBounds vs i → ∀ m < s, out.get (atMom vs.length i [m])
        = obj.get (atMom vs.length i [s - 1 - m]) := by
  have hs : IsSlice s none none (some (-1)) (List.range s).reverse := by
    refine ⟨by simp, .inr ⟨by simp, ?_, fun p => ?_⟩⟩
    · rw [List.pairwise_reverse]
      exact List.pairwise_lt_range
    · simp
      omega
  have hr := Reads.ellipsis vs (ks := [.slice none none (some (-1))]) (back := [s]) (by simp) (by rfl)
    (.slice hs (.rest []))
  rw [← h.shape] at hr
  obtain ⟨out, h1, h2, h3, h4⟩ := (getitem_all h hr (.inl rfl)).1 ⟨vs, by simp⟩
  refine ⟨out, h1, ⟨h2, by simpa using h3, h.count, h.orders⟩, fun i hi m hm => ?_⟩
  rw [h4 _ (by
    intro a ha
    unfold atMom
    split_ifs with hlt
    · rw [List.getD_append _ _ _ _ hlt]; exact hi a hlt
    · obtain rfl : a = vs.length := by simp at ha; omega
      simpa using hm)]
  refine h.proper _ _ fun a ha => ?_
  simp only
  by_cases hlt : a < vs.length
  · rw [if_pos hlt]
    unfold atMom
    rw [if_pos hlt, if_pos hlt]
  · obtain rfl : a = vs.length := by
      rw [h.shape] at ha
      simp at ha
      omega
    rw [if_neg hlt, Nat.sub_self]
    simp [consIdx, atMom, hm]

/-- **C63** Iterating over an object: one object for every position of the first axis, with the cells at
this position. -/
theorem C63_iter {n : ℕ} (h : IsObject obj (n :: vs) ms) :
    ∃ outs, iter ms.length obj = .ok outs ∧ outs.length = n ∧ ∀ k out, outs[k]? = some out →
      CellsFrom out obj vs (n :: vs) ms (consIdx k) := by
  have key : ∀ k < n, ∃ out, getitem ms.length obj [.int (k : ℕ)] = .ok out ∧
      CellsFrom out obj vs (n :: vs) ms (consIdx k) := by
    intro k hk
    have hz : InRange n (k : ℤ) := ⟨by omega, by omega⟩
    have hw : wrap n (k : ℤ) = k := by
      unfold wrap
      rw [Int.emod_eq_of_lt (by omega) (by omega)]
      rfl
    obtain ⟨out, h1, h2⟩ := C63_getitem h (.int hz (.rest vs)) (.inl rfl) (by simp)
    refine ⟨out, h1, ?_⟩
    rw [hw] at h2
    exact h2
  have hget : Validate.pyGet obj.shape 0 = .ok n := by
    rw [h.shape]
    rfl
  unfold iter
  rw [hget]
  change ∃ outs, (List.range n).mapM (fun k : ℕ => getitem ms.length obj [.int (k : ℕ)]) = .ok outs ∧ _
  have gen : ∀ l : List ℕ, (∀ k ∈ l, k < n) → ∃ outs, l.mapM (fun k : ℕ => getitem ms.length obj
      [.int (k : ℕ)]) = .ok outs ∧ List.Forall₂ (fun k out => CellsFrom out obj vs (n :: vs) ms (consIdx k))
        l outs := by
    intro l
    induction l with
    | nil => exact fun _ => ⟨[], rfl, .nil⟩
    | cons k l ih =>
      intro hl
      obtain ⟨outs, e1, e2⟩ := ih (fun k hk => hl k (by simp [hk]))
      obtain ⟨out, e3, e4⟩ := key k (hl k (by simp))
      refine ⟨out :: outs, ?_, .cons e4 e2⟩
      rw [List.mapM_cons, e3, e1]
      rfl
  obtain ⟨outs, e1, e2⟩ := gen (List.range n) (fun k hk => List.mem_range.1 hk)
  refine ⟨outs, e1, by rw [← e2.length_eq, List.length_range], fun k out hk => ?_⟩
  obtain ⟨hk', rfl⟩ := List.getElem?_eq_some_iff.1 hk
  have := e2.get (i := k) (by rw [e2.length_eq]; exact hk') hk'
  simpa using this

/-- **C63** Iterating over an object without value axes is a `ValueError`, and so is any integer in range
as key of it. -/
theorem C63_iter_scalar (h : IsObject obj [] ms) :
    iter ms.length obj = .error .valueError ∧
    ∀ s ms' z, ms = s :: ms' → InRange s z → getitem ms.length obj [.int z] = .error .valueError := by
  have key : ∀ s ms' z, ms = s :: ms' → InRange s z →
      getitem ms.length obj [.int z] = .error .valueError := by
    intro s ms' z e hz
    have hr := Reads.int hz (.rest ms')
    have hsh : obj.shape = s :: ms' := by rw [h.shape, e]; rfl
    rw [← hsh] at hr
    refine (getitem_all h hr (.inl rfl)).2 fun hs => ?_
    have := hs.length_le
    rw [e] at this
    simp at this
  refine ⟨?_, key⟩
  obtain ⟨s, ms', e⟩ : ∃ s ms', ms = s :: ms' := by
    cases ms with
    | nil => have := h.count; simp at this
    | cons s ms' => exact ⟨s, ms', rfl⟩
  have hs : 2 ≤ s := h.orders s (by simp [e])
  unfold iter
  have hget : Validate.pyGet obj.shape 0 = .ok s := by
    rw [h.shape, e]
    rfl
  rw [hget]
  change (List.range s).mapM (fun k : ℕ => getitem ms.length obj [.int (k : ℕ)]) = _
  obtain ⟨t, rfl⟩ : ∃ t, s = t + 1 := ⟨s - 1, by omega⟩
  rw [List.range_succ_eq_map, List.mapM_cons]
  have := key (t + 1) ms' ((0 : ℕ) : ℤ) e ⟨by push_cast; omega, by push_cast; omega⟩
  rw [this]
  rfl

end Index

section Concat

/-- **C63** `concat(arrays, axis)` for arrays that differ in the size of that axis at most: the arrays one
behind the other. Without `axis` it is the first one. -/
theorem C63_concat {K : Type*} {arrays : List (Arr K)} {shape : List ℕ} {axis : Option ℤ}
    (hne : arrays ≠ []) (hz : InRange shape.length (axis.getD 0)) (hp : ∀ b ∈ arrays, b.Proper)
    (hs : ∀ b ∈ arrays, ∃ n, b.shape = shape.set (wrap shape.length (axis.getD 0)) n) :
    ∃ out, concat arrays axis = .ok out ∧
      Joins out arrays shape (wrap shape.length (axis.getD 0)) :=
  npConcat_joins hne hz hp hs

/-- **C63** Arrays that differ in more than that are refused with a `ValueError`. -/
theorem C63_concat_rejects {K : Type*} {a : Arr K} {as : List (Arr K)} {axis : Option ℤ}
    (hz : InRange a.shape.length (axis.getD 0))
    (hbad : ∃ b ∈ as, ¬ ∃ n, b.shape = a.shape.set (wrap a.shape.length (axis.getD 0)) n) :
    concat (a :: as) axis = .error .valueError := npConcat_rejects rfl hz hbad

/-- **C63** An axis the first array does not have is an `AxisError`. -/
theorem C63_concat_axis_error {K : Type*} {a : Arr K} {as : List (Arr K)} {axis : Option ℤ}
    (h0 : a.shape ≠ []) (hz : ¬ InRange a.shape.length (axis.getD 0)) :
    concat (a :: as) axis = .error .axisError := by
  unfold concat
  simp only [npConcat]
  rw [if_neg (by simpa using h0), if_pos (by exact hz)]

variable {K : Type} {vs ms : List ℕ}

/-- **C63** `concat` of array objects along a value axis: an object of the same kind, with the cells of the
objects one behind the other. -/
theorem C63_concat_objects {objs : List (Arr K × Validate.PArray)} {axis : Option ℤ}
    (hne : objs ≠ []) (hz : InRange (vs.length + ms.length) (axis.getD 0))
    (hax : wrap (vs.length + ms.length) (axis.getD 0) < vs.length)
    (hobj : ∀ c ∈ objs, (∃ n, IsObject c.1
        (vs.set (wrap (vs.length + ms.length) (axis.getD 0)) n) ms) ∧
      c.2 = ⟨ms.length, Select.axesLast ms.length⟩) :
    ∃ out, concatObjects objs axis = .ok (out, ⟨ms.length, Select.axesLast ms.length⟩) ∧
      IsObject out (vs.set (wrap (vs.length + ms.length) (axis.getD 0))
        (startOf (objs.map Prod.fst) (wrap (vs.length + ms.length) (axis.getD 0)) objs.length)) ms ∧
      Joins out (objs.map Prod.fst) (vs ++ ms) (wrap (vs.length + ms.length) (axis.getD 0)) := by
  have hlen : (vs ++ ms).length = vs.length + ms.length := List.length_append
  obtain ⟨out, h1, h2⟩ := C63_concat (arrays := objs.map Prod.fst) (shape := vs ++ ms) (axis := axis)
    (by simpa using hne) (by rw [hlen]; exact hz)
    (by
      intro b hb
      obtain ⟨c, hc, rfl⟩ := List.mem_map.1 hb
      obtain ⟨⟨n, ho⟩, _⟩ := hobj c hc
      exact ho.proper)
    (by
      intro b hb
      obtain ⟨c, hc, rfl⟩ := List.mem_map.1 hb
      obtain ⟨⟨n, ho⟩, _⟩ := hobj c hc
      exact ⟨n, by rw [ho.shape, hlen, List.set_append_left _ _ hax]⟩)
  rw [hlen] at h2
  cases objs with
  | nil => exact absurd rfl hne
  | cons c cs =>
    obtain ⟨⟨n, ho⟩, hc2⟩ := hobj c (by simp)
    have hO := h2.isObject hax ho.count ho.orders
    rw [List.length_map] at hO
    refine ⟨out, ?_, hO, h2⟩
    show Except.bind (concat _ axis) _ = _
    rw [h1, hc2]
    exact construct_object hO

/-- **C63** Finding: `concat` does not stop at the moment axis. Objects are joined into one with more
"moments": first those of one object, then, counted on, those of the other. For objects without value axes
this is what `concat` does by default. -/
theorem C63_concat_moment_axis {s t : ℕ} {a b : Arr K} {axis : Option ℤ} (ha : IsObject a vs [s])
    (hb : IsObject b vs [t]) (hz : InRange (vs.length + 1) (axis.getD 0))
    (hax : wrap (vs.length + 1) (axis.getD 0) = vs.length) :
    ∃ out, concatObjects [(a, ⟨1, [-1]⟩), (b, ⟨1, [-1]⟩)] axis = .ok (out, ⟨1, [-1]⟩) ∧
      IsObject out vs [s + t] ∧ ∀ i, InBounds vs i →
        (∀ m < s, out.get (atMom vs.length i [m]) = a.get (atMom vs.length i [m])) ∧
        ∀ m < t, out.get (atMom vs.length i [s + m]) = b.get (atMom vs.length i [m]) := by
  have hlen : (vs ++ [s]).length = vs.length + 1 := by simp
  have hset : ∀ n, (vs ++ [s]).set vs.length n = vs ++ [n] := by
    intro n
    rw [List.set_append_right _ _ (le_refl _)]
    simp
  obtain ⟨out, h1, h2⟩ := C63_concat (arrays := [a, b]) (shape := vs ++ [s]) (axis := axis) (by simp)
    (by rw [hlen]; exact hz)
    (by simp only [List.mem_cons, List.not_mem_nil, or_false]
        rintro x (rfl | rfl)
        · exact ha.proper
        · exact hb.proper)
    (by simp only [List.mem_cons, List.not_mem_nil, or_false]
        rw [hlen, hax]
        rintro x (rfl | rfl)
        · exact ⟨s, by rw [hset, ha.shape]⟩
        · exact ⟨t, by rw [hset, hb.shape]⟩)
  rw [hlen, hax] at h2
  have sa : axisSize a vs.length = s := by simp [axisSize, ha.shape]
  have sb : axisSize b vs.length = t := by simp [axisSize, hb.shape]
  have hO : IsObject out vs [s + t] := by
    refine ⟨h2.proper, ?_, .inl rfl, ?_⟩
    · rw [h2.shape, hset]
      simp [startOf, sa, sb]
    · have := ha.orders s (by simp)
      simp
      omega
  have hin : ∀ (i : ℕ → ℕ) (m n : ℕ), InBounds vs i → m < n →
      InBounds (vs ++ [n]) (atMom vs.length i [m]) := by
    intro i m n hi hm p hp
    unfold atMom
    split_ifs with hlt
    · rw [List.getD_append _ _ _ _ hlt]; exact hi p hlt
    · obtain rfl : p = vs.length := by simp at hp; omega
      simpa using hm
  have hupd : ∀ (i : ℕ → ℕ) (m q : ℕ), Function.update (atMom vs.length i [m]) vs.length q
      = fun p => if p = vs.length then q else atMom vs.length i [m] p := by
    intro i m q
    funext p
    by_cases hp : p = vs.length
    · simp [hp]
    · simp [hp]
  refine ⟨out, ?_, hO, fun i hi => ⟨fun m hm => ?_, fun m hm => ?_⟩⟩
  · show Except.bind (concat [a, b] axis) _ = _
    rw [h1]
    exact construct_object hO
  · have := h2.part 0 a rfl _ (by rw [ha.shape]; exact hin i m s hi hm)
    rw [← this]
    congr 1
    funext p
    by_cases hp : p = vs.length
    · subst hp; simp [startOf]
    · rw [Function.update_of_ne hp]
  · have := h2.part 1 b rfl _ (by rw [hb.shape]; exact hin i m t hi hm)
    rw [← this]
    refine hO.proper _ _ fun p hp => ?_
    rw [hO.shape] at hp
    by_cases hpv : p = vs.length
    · subst hpv
      simp [startOf, atMom, sa]
    · rw [Function.update_of_ne hpv]
      have : p < vs.length := by simp at hp; omega
      simp [atMom, this]

/-- **C63** Finding: nothing compares the kinds of the objects; the number of moment axes is that of the
first one. -/
theorem C63_concat_mixed {s t n n' : ℕ} {a b : Arr K} (ha : IsObject a [n, s] [t])
    (hb : IsObject b [n'] [s, t]) :
    ∃ out, concatObjects [(a, ⟨1, [-1]⟩), (b, ⟨2, [-2, -1]⟩)] none = .ok (out, ⟨1, [-1]⟩) ∧
      IsObject out [n + n', s] [t] ∧ ∀ k < n', ∀ p < s, ∀ m < t,
        out.get (atMom 2 (fun q => [n + k, p].getD q 0) [m]) = b.get (atMom 1 (fun _ => k) [p, m]) := by
  have hw : wrap 3 0 = 0 := rfl
  obtain ⟨out, h1, h2⟩ := C63_concat (arrays := [a, b]) (shape := [n, s, t]) (axis := none) (by simp)
    (by simp [InRange])
    (by simp only [List.mem_cons, List.not_mem_nil, or_false]
        rintro x (rfl | rfl)
        · exact ha.proper
        · exact hb.proper)
    (by simp only [List.mem_cons, List.not_mem_nil, or_false]
        rintro x (rfl | rfl)
        · exact ⟨n, by rw [ha.shape]; rfl⟩
        · exact ⟨n', by rw [hb.shape]; rfl⟩)
  have h2' : Joins out [a, b] [n, s, t] 0 := h2
  have sa : axisSize a 0 = n := by simp [axisSize, ha.shape]
  have sb : axisSize b 0 = n' := by simp [axisSize, hb.shape]
  have hO : IsObject out [n + n', s] [t] := by
    refine ⟨h2'.proper, ?_, .inl rfl, ha.orders⟩
    rw [h2'.shape]
    simp [startOf, sa, sb]
  refine ⟨out, ?_, hO, fun k hk p hp m hm => ?_⟩
  · show Except.bind (concat [a, b] none) _ = _
    rw [h1]
    exact construct_object hO
  · have := h2'.part 1 b rfl (atMom 1 (fun _ => k) [p, m]) (by
      rw [hb.shape]
      intro q hq
      have hq' : q = 0 ∨ q = 1 ∨ q = 2 := by simp at hq; omega
      rcases hq' with rfl | rfl | rfl <;> simp [atMom, hk, hp, hm])
    rw [← this]
    refine hO.proper _ _ fun q hq => ?_
    rw [hO.shape] at hq
    have hq' : q = 0 ∨ q = 1 ∨ q = 2 := by simp at hq; omega
    rcases hq' with rfl | rfl | rfl <;> simp [atMom, startOf, sa]

/-- **C63** Cutting an object in two along its first axis and joining the parts gives the object back. -/
theorem C63_split_concat {obj : Arr K} {n k : ℕ} (h : IsObject obj (n :: vs) ms) (hk : k ≤ n) :
    ∃ a b out, getitem ms.length obj [.slice none (some (k : ℤ)) none] = .ok a ∧
      getitem ms.length obj [.slice (some (k : ℤ)) none none] = .ok b ∧
      concatObjects [(a, ⟨ms.length, Select.axesLast ms.length⟩),
        (b, ⟨ms.length, Select.axesLast ms.length⟩)] none
        = .ok (out, ⟨ms.length, Select.axesLast ms.length⟩) ∧ SameArr out obj := by
  have hnd : ∀ z : ℕ, sliceBound n (z : ℤ) = z := fun z => if_neg (by omega)
  have s1 : IsSlice n none (some (k : ℤ)) none (List.range k) := by
    refine ⟨by simp, .inl ⟨by simp, List.pairwise_lt_range, fun p => ?_⟩⟩
    simp [hnd]
    omega
  have s2 : IsSlice n (some (k : ℤ)) none none ((List.range (n - k)).map (k + ·)) := by
    refine ⟨by simp, .inl ⟨by simp, List.pairwise_lt_range.map _ (fun a b h => by omega), fun p => ?_⟩⟩
    simp only [List.mem_map, List.mem_range, Option.map_some, Option.getD_some, hnd, Option.mem_def,
      reduceCtorEq, false_implies, implies_true, Option.getD_none, isUnit_one,
      IsUnit.dvd, and_true]
    constructor
    · rintro ⟨q, hq, rfl⟩
      exact ⟨by omega, by push_cast; omega⟩
    · rintro ⟨h1, h2⟩
      exact ⟨p - k, by omega, by omega⟩
  obtain ⟨a, a1, a2⟩ := C63_getitem h (.slice s1 (.rest vs)) (.inl rfl) (by simp)
  obtain ⟨b, b1, b2⟩ := C63_getitem h (.slice s2 (.rest vs)) (.inl rfl) (by simp)
  simp only [List.length_range, List.length_map] at a2 b2
  have hsz : (n :: vs).length + ms.length ≠ 0 := by simp
  have hw : wrap ((n :: vs).length + ms.length) ((none : Option ℤ).getD 0) = 0 := by
    unfold wrap; simp
  obtain ⟨out, o1, o2, o3⟩ := C63_concat_objects (vs := n :: vs) (ms := ms)
    (objs := [(a, ⟨ms.length, Select.axesLast ms.length⟩), (b, ⟨ms.length, Select.axesLast ms.length⟩)])
    (axis := none) (by simp) ⟨by simp; omega, by simp; omega⟩ (by rw [hw]; simp)
    (by
      rw [hw]
      simp only [List.mem_cons, List.not_mem_nil, or_false]
      rintro c (rfl | rfl)
      · exact ⟨⟨k, a2.object⟩, rfl⟩
      · exact ⟨⟨n - k, b2.object⟩, rfl⟩)
  rw [hw] at o2 o3
  have sa : axisSize a 0 = k := by simp [axisSize, a2.object.shape]
  have sb : axisSize b 0 = n - k := by simp [axisSize, b2.object.shape]
  have hst : startOf ([(a, (⟨ms.length, Select.axesLast ms.length⟩ : Validate.PArray)),
      (b, ⟨ms.length, Select.axesLast ms.length⟩)].map Prod.fst) 0 2 = n := by
    simp [startOf, sa, sb]; omega
  have hshape : out.shape = obj.shape := by
    rw [o2.shape, h.shape]
    simp only [List.length_cons, List.length_nil, Nat.zero_add, Nat.reduceAdd]
    rw [hst]
    rfl
  refine ⟨a, b, out, a1, b1, o1, hshape, fun i hi => ?_⟩
  rw [hshape, h.shape] at hi
  -- the index, split into value and moment coordinates
  have hval : InBounds (n :: vs) i := fun p hp => by
    have := hi p (by simp at hp ⊢; omega)
    rwa [List.getD_append _ _ _ _ hp] at this
  set m := (List.range ms.length).map (fun j => i ((n :: vs).length + j)) with hm
  have hmw : Within ms m := by
    refine List.forall₂_iff_get.2 ⟨by simp [hm], fun q h1 h2 => ?_⟩
    have hq : q < ms.length := h2
    have := hi ((n :: vs).length + q) (by rw [List.length_append]; omega)
    rw [List.getD_append_right _ _ _ _ (by omega), Nat.add_sub_cancel_left,
      List.getD_eq_getElem _ _ hq] at this
    simpa [hm] using this
  have hi0 := (inBounds_tail hval).1
  have hit := (inBounds_tail hval).2
  have hsplit : ∀ (x : Arr K) (q : ℕ) (j : ℕ → ℕ), IsObject x (q :: vs) ms →
      (∀ p, p ≠ 0 → j p = i p) → x.get (atMom (q :: vs).length (consIdx (j 0) (tailIdx i)) m) = x.get j := by
    intro x q j hx hj
    refine hx.proper _ _ fun p hp => ?_
    rw [hx.shape, List.length_append] at hp
    unfold atMom
    split_ifs with hlt
    · cases p with
      | zero => rfl
      | succ p => exact (hj (p + 1) (by simp)).symm
    · rw [hm, List.getD_eq_getElem _ _ (by simp; simp at hp hlt; omega)]
      simp only [List.getElem_map, List.getElem_range]
      simp only [List.length_cons] at hlt hp ⊢
      rw [show vs.length + 1 + (p - (vs.length + 1)) = p by omega]
      exact (hj p (by omega)).symm
  have hbounds : ∀ (x : Arr K) (q : ℕ) (j : ℕ → ℕ), IsObject x (q :: vs) ms → j 0 < q →
      (∀ p, p ≠ 0 → j p = i p) → InBounds x.shape j := by
    intro x q j hx hj0 hj p hp
    rw [hx.shape] at hp ⊢
    cases p with
    | zero => simpa using hj0
    | succ p =>
      rw [hj _ (by simp)]
      have := hi (p + 1) (by simpa using hp)
      simpa using this
  by_cases hlt : i 0 < k
  · have e1 := o3.part 0 a rfl i (hbounds a k i a2.object hlt (fun _ _ => rfl))
    have e2 : Function.update i 0 (startOf ([(a, (⟨ms.length, Select.axesLast ms.length⟩ :
        Validate.PArray)), (b, ⟨ms.length, Select.axesLast ms.length⟩)].map Prod.fst) 0 0 + i 0) = i := by
      simp [startOf]
    rw [e2] at e1
    rw [e1, ← hsplit a k i a2.object (fun _ _ => rfl), ← hsplit obj n i h (fun _ _ => rfl)]
    have := a2.cell (consIdx (i 0) (tailIdx i)) (inBounds_cons hlt hit) m hmw
    rw [this]
    congr 2
    show consIdx ((List.range k).getD (i 0) 0) (tailIdx i) = _
    rw [List.getD_eq_getElem _ _ (by simpa using hlt), List.getElem_range]
  · set j := Function.update i 0 (i 0 - k) with hj
    have hj0 : j 0 = i 0 - k := by simp [hj]
    have hjp : ∀ p, p ≠ 0 → j p = i p := fun p hp => by simp [hj, hp]
    have e1 := o3.part 1 b rfl j (hbounds b (n - k) j b2.object (by omega) hjp)
    have e2 : Function.update j 0 (startOf ([(a, (⟨ms.length, Select.axesLast ms.length⟩ :
        Validate.PArray)), (b, ⟨ms.length, Select.axesLast ms.length⟩)].map Prod.fst) 0 1 + j 0) = i := by
      have : startOf ([(a, (⟨ms.length, Select.axesLast ms.length⟩ :
        Validate.PArray)), (b, ⟨ms.length, Select.axesLast ms.length⟩)].map Prod.fst) 0 1 + j 0 = i 0 := by
        simp [startOf, sa, hj0]
        omega
      rw [this, hj]
      simp
    rw [e2] at e1
    rw [e1, ← hsplit b (n - k) j b2.object hjp, ← hsplit obj n i h (fun _ _ => rfl), hj0]
    have := b2.cell (consIdx (i 0 - k) (tailIdx i)) (inBounds_cons (by omega) hit) m hmw
    rw [this]
    congr 2
    show consIdx (((List.range (n - k)).map (k + ·)).getD (i 0 - k) 0) (tailIdx i) = _
    rw [List.getD_eq_getElem _ _ (by simp; omega), List.getElem_map, List.getElem_range]
    congr 1
    omega

end Concat

section Samples

variable {K : Type} [Field K] [LinearOrder K] [IsStrictOrderedRing K] {vs : List ℕ}

/-- **C63** Each cell of `c[key]` stands for the samples of the cell it was selected from. -/
theorem C63_getitem_samples {obj : Arr K} {order : ℕ} {L : (ℕ → ℕ) → List (Sample K)}
    (hS : Stands core1 (Holds order) obj vs [order + 1] L) {keys : List Key} {vs' : List ℕ}
    {f : (ℕ → ℕ) → ℕ → ℕ} (hr : Reads keys vs vs' f) (hp : PlainKey keys) (hE : Key.ellipsis ∉ keys) :
    ∃ out, getitem 1 obj keys = .ok out ∧
      Stands core1 (Holds order) out vs' [order + 1] (fun i => L (f i)) := by
  obtain ⟨out, h1, h2⟩ := C63_getitem hS.object hr hp hE
  exact ⟨out, h1, C60_cells_keep_samples h2 hS⟩

/-- **C63**, comoments. -/
theorem C63_getitem_samples_cov {obj : Arr K} {o0 o1 : ℕ} {L : (ℕ → ℕ) → List (Sample2 K)}
    (hS : Stands core2 (Holds2 o0 o1) obj vs [o0 + 1, o1 + 1] L) {keys : List Key} {vs' : List ℕ}
    {f : (ℕ → ℕ) → ℕ → ℕ} (hr : Reads keys vs vs' f) (hp : PlainKey keys) (hE : Key.ellipsis ∉ keys) :
    ∃ out, getitem 2 obj keys = .ok out ∧
      Stands core2 (Holds2 o0 o1) out vs' [o0 + 1, o1 + 1] (fun i => L (f i)) := by
  obtain ⟨out, h1, h2⟩ := C63_getitem hS.object hr hp hE
  exact ⟨out, h1, C60_cells_keep_samples_cov h2 hS⟩

/-- Cells with the same entries stand for the same samples. -/
theorem holds_entries {order : ℕ} (ho : 1 ≤ order) (S : List (Sample K)) (g g' : List ℕ → K)
    (h : ∀ c, Within [order + 1] c → g c = g' c) (h' : Holds order S ((core1 : Core K (Mom K)).recd g')) :
    Holds order S ((core1 : Core K (Mom K)).recd g) :=
  holds_congr ho (fun m hm => h [m] (within_one.2 ⟨m, by omega, rfl⟩)) h'

theorem holds_entries2 {o0 o1 : ℕ} (h0 : 1 ≤ o0) (h1 : 1 ≤ o1) (S : List (Sample2 K))
    (g g' : List ℕ → K) (h : ∀ c, Within [o0 + 1, o1 + 1] c → g c = g' c)
    (h' : Holds2 o0 o1 S ((core2 : Core K (Com K)).recd g')) :
    Holds2 o0 o1 S ((core2 : Core K (Com K)).recd g) :=
  holds2_congr h0 h1 (fun m n hm hn => h [m, n] (within_two.2 ⟨m, by omega, n, by omega, rfl⟩)) h'

/-- The arrays of the objects, as `concat` sees them. -/
theorem objects_joined {M σ : Type} {core : Core K M} {H : List σ → M → Prop}
    {arrays : List (Arr K)} {ms : List ℕ} {axis : Option ℤ} {L : ℕ → (ℕ → ℕ) → List σ}
    (hne : arrays ≠ []) (hz : InRange (vs.length + ms.length) (axis.getD 0))
    (hax : wrap (vs.length + ms.length) (axis.getD 0) < vs.length)
    (hS : ∀ k a, arrays[k]? = some a → Stands core H a
      (vs.set (wrap (vs.length + ms.length) (axis.getD 0))
        (axisSize a (wrap (vs.length + ms.length) (axis.getD 0)))) ms (L k))
    (hH : ∀ (S : List σ) (g g' : List ℕ → K), (∀ c, Within ms c → g c = g' c) →
      H S (core.recd g') → H S (core.recd g)) :
    ∃ out, concatObjects (arrays.map (·, ⟨ms.length, Select.axesLast ms.length⟩)) axis
        = .ok (out, ⟨ms.length, Select.axesLast ms.length⟩) ∧
      Stands core H out (vs.set (wrap (vs.length + ms.length) (axis.getD 0))
        (startOf arrays (wrap (vs.length + ms.length) (axis.getD 0)) arrays.length)) ms
        (joinedSamples arrays (wrap (vs.length + ms.length) (axis.getD 0)) L) := by
  obtain ⟨out, o1, o2, o3⟩ := C63_concat_objects (vs := vs) (ms := ms)
    (objs := arrays.map (·, ⟨ms.length, Select.axesLast ms.length⟩)) (axis := axis)
    (by simpa using hne) hz hax (by
      intro c hc
      obtain ⟨a, ha, rfl⟩ := List.mem_map.1 hc
      obtain ⟨k, hk, rfl⟩ := List.mem_iff_getElem.1 ha
      exact ⟨⟨_, (hS k _ (List.getElem?_eq_getElem hk)).object⟩, rfl⟩)
  have e : (arrays.map (·, (⟨ms.length, Select.axesLast ms.length⟩ : Validate.PArray))).map Prod.fst
      = arrays := by simp [Function.comp_def]
  rw [e] at o3
  exact ⟨out, o1, joined_stands hne o3 hax hS hH⟩

/-- **C63** `concat` of objects along a value axis: the samples stay with their cells. -/
theorem C63_concat_samples {arrays : List (Arr K)} {order : ℕ} {axis : Option ℤ} {ax : ℕ}
    {L : ℕ → (ℕ → ℕ) → List (Sample K)} (hne : arrays ≠ []) (hz : InRange (vs.length + 1) (axis.getD 0))
    (hw : wrap (vs.length + 1) (axis.getD 0) = ax) (hax : ax < vs.length)
    (hS : ∀ k a, arrays[k]? = some a →
      Stands core1 (Holds order) a (vs.set ax (axisSize a ax)) [order + 1] (L k)) :
    ∃ out L', concatObjects (arrays.map (·, ⟨1, [-1]⟩)) axis = .ok (out, ⟨1, [-1]⟩) ∧
      Stands core1 (Holds order) out (vs.set ax (startOf arrays ax arrays.length)) [order + 1] L' ∧
      ∀ k a, arrays[k]? = some a → ∀ i, ∀ j < axisSize a ax,
        L' (Function.update i ax (startOf arrays ax k + j)) = L k (Function.update i ax j) := by
  subst hw
  obtain ⟨a0, ha0⟩ : ∃ a, arrays[0]? = some a := by
    cases arrays with
    | nil => exact absurd rfl hne
    | cons a as => exact ⟨a, rfl⟩
  obtain ⟨out, o1, o2⟩ := objects_joined (ms := [order + 1]) hne hz hax hS
    (holds_entries (ord1 (hS 0 a0 ha0)))
  exact ⟨out, _, o1, o2, fun k a hk i j hj => joinedSamples_at L hk i hj⟩

/-- **C63**, comoments. -/
theorem C63_concat_samples_cov {arrays : List (Arr K)} {o0 o1 : ℕ} {axis : Option ℤ} {ax : ℕ}
    {L : ℕ → (ℕ → ℕ) → List (Sample2 K)} (hne : arrays ≠ [])
    (hz : InRange (vs.length + 2) (axis.getD 0))
    (hw : wrap (vs.length + 2) (axis.getD 0) = ax) (hax : ax < vs.length)
    (hS : ∀ k a, arrays[k]? = some a →
      Stands core2 (Holds2 o0 o1) a (vs.set ax (axisSize a ax)) [o0 + 1, o1 + 1] (L k)) :
    ∃ out L', concatObjects (arrays.map (·, ⟨2, [-2, -1]⟩)) axis = .ok (out, ⟨2, [-2, -1]⟩) ∧
      Stands core2 (Holds2 o0 o1) out (vs.set ax (startOf arrays ax arrays.length)) [o0 + 1, o1 + 1] L' ∧
      ∀ k a, arrays[k]? = some a → ∀ i, ∀ j < axisSize a ax,
        L' (Function.update i ax (startOf arrays ax k + j)) = L k (Function.update i ax j) := by
  subst hw
  obtain ⟨a0, ha0⟩ : ∃ a, arrays[0]? = some a := by
    cases arrays with
    | nil => exact absurd rfl hne
    | cons a as => exact ⟨a, rfl⟩
  have ho := ord2 (hS 0 a0 ha0)
  obtain ⟨out, p1, p2⟩ := objects_joined (ms := [o0 + 1, o1 + 1]) hne hz hax hS
    (holds_entries2 ho.1 ho.2)
  exact ⟨out, _, p1, p2, fun k a hk i j hj => joinedSamples_at L hk i hj⟩

/-- **C63** Reducing the joined object along the axis collects the samples of all objects, object by
object. -/
theorem C63_concat_reduce {arrays : List (Arr K)} {order : ℕ} {z : ℤ} {ax : ℕ}
    {L : ℕ → (ℕ → ℕ) → List (Sample K)} (hne : arrays ≠ []) (hz : InRange (vs.length + 1) z)
    (hw : wrap (vs.length + 1) z = ax) (hax : ax < vs.length)
    (hS : ∀ k a, arrays[k]? = some a →
      Stands core1 (Holds order) a (vs.set ax (axisSize a ax)) [order + 1] (L k))
    (hpos : ∀ k i, 0 ≤ weight (L k i)) (hv : ∀ a < vs.length, a ≠ ax → vs.getD a 0 ≠ 0)
    (axesToEnd : Bool) :
    ∃ out red, concatObjects (arrays.map (·, ⟨1, [-1]⟩)) (some z) = .ok (out, ⟨1, [-1]⟩) ∧
      ObjectOps.reduce core1 (kernel1 order) out (some (.one (.int z))) none none axesToEnd false = .ok red ∧
      ResultStands core1 (Holds order) red ((keptAxes vs.length [ax]).map (fun a => vs.getD a 0))
        [order + 1] (fun i => (List.range arrays.length).flatMap (fun k =>
          (samplesAlong (L k) ax ((arrays.map (fun a => axisSize a ax)).getD k 0)
            (readAs (keptAxes vs.length [ax]) i)).flatten)) := by
  subst hw
  obtain ⟨a0, ha0⟩ : ∃ a, arrays[0]? = some a := by
    cases arrays with
    | nil => exact absurd rfl hne
    | cons a as => exact ⟨a, rfl⟩
  obtain ⟨out, o1, o2⟩ := objects_joined (ms := [order + 1]) (axis := some z) hne hz hax hS
    (holds_entries (ord1 (hS 0 a0 ha0)))
  have hlen : out.shape.length = vs.length + 1 := by rw [o2.object.shape]; simp
  simp only [Option.getD_some, List.length_singleton] at o1 o2
  obtain ⟨red, r1, r2⟩ := C61_reduce o2 (fun i _ => hpos _ _) (axis := .one (.int z))
    (s := [wrap (vs.length + 1) z]) ⟨_, rfl, by
      rw [hlen]
      exact ⟨hz, rfl⟩⟩ (by simp) (by simpa using hax) (by
      intro a ha hne'
      have hne2 : a ≠ wrap (vs.length + 1) z := by simpa using hne'
      have := hv a (by simpa using ha) hne2
      simpa [List.getElem?_set, Ne.symm hne2] using this) false axesToEnd
  refine ⟨out, red, o1, r1, ?_⟩
  simp only [Bool.false_eq_true, if_false, List.length_set] at r2
  have e1 : (keptAxes vs.length [wrap (vs.length + 1) z]).map (fun a => (vs.set (wrap (vs.length + 1) z)
      (startOf arrays (wrap (vs.length + 1) z) arrays.length)).getD a 0)
      = (keptAxes vs.length [wrap (vs.length + 1) z]).map (fun a => vs.getD a 0) := by
    refine List.map_congr_left fun a ha => ?_
    have hne2 : a ≠ wrap (vs.length + 1) z := by
      unfold keptAxes at ha
      simpa using (List.mem_filter.1 ha).2
    simp [List.getElem?_set, Ne.symm hne2]
  rw [e1] at r2
  refine cast ?_ r2
  congr 1
  funext i
  exact joined_all hax L _

/-- **C63**, comoments. -/
theorem C63_concat_reduce_cov {arrays : List (Arr K)} {o0 o1 : ℕ} {z : ℤ} {ax : ℕ}
    {L : ℕ → (ℕ → ℕ) → List (Sample2 K)} (hne : arrays ≠ []) (hz : InRange (vs.length + 2) z)
    (hw : wrap (vs.length + 2) z = ax) (hax : ax < vs.length)
    (hS : ∀ k a, arrays[k]? = some a →
      Stands core2 (Holds2 o0 o1) a (vs.set ax (axisSize a ax)) [o0 + 1, o1 + 1] (L k))
    (hpos : ∀ k i, 0 ≤ weight2 (L k i)) (hv : ∀ a < vs.length, a ≠ ax → vs.getD a 0 ≠ 0)
    (axesToEnd : Bool) :
    ∃ out red, concatObjects (arrays.map (·, ⟨2, [-2, -1]⟩)) (some z) = .ok (out, ⟨2, [-2, -1]⟩) ∧
      ObjectOps.reduce core2 (kernel2 o0 o1) out (some (.one (.int z))) none none axesToEnd false
        = .ok red ∧
      ResultStands core2 (Holds2 o0 o1) red ((keptAxes vs.length [ax]).map (fun a => vs.getD a 0))
        [o0 + 1, o1 + 1] (fun i => (List.range arrays.length).flatMap (fun k =>
          (samplesAlong (L k) ax ((arrays.map (fun a => axisSize a ax)).getD k 0)
            (readAs (keptAxes vs.length [ax]) i)).flatten)) := by
  subst hw
  obtain ⟨a0, ha0⟩ : ∃ a, arrays[0]? = some a := by
    cases arrays with
    | nil => exact absurd rfl hne
    | cons a as => exact ⟨a, rfl⟩
  have ho := ord2 (hS 0 a0 ha0)
  obtain ⟨out, o1', o2⟩ := objects_joined (ms := [o0 + 1, o1 + 1]) (axis := some z) hne hz hax hS
    (holds_entries2 ho.1 ho.2)
  have hlen : out.shape.length = vs.length + 2 := by rw [o2.object.shape]; simp
  simp only [Option.getD_some, List.length_cons, List.length_nil, Nat.zero_add,
    Nat.reduceAdd] at o1' o2
  obtain ⟨red, r1, r2⟩ := C61_reduce_cov o2 (fun i _ => hpos _ _) (axis := .one (.int z))
    (s := [wrap (vs.length + 2) z]) ⟨_, rfl, by
      rw [hlen]
      exact ⟨hz, rfl⟩⟩ (by simp) (by simpa using hax) (by
      intro a ha hne'
      have hne2 : a ≠ wrap (vs.length + 2) z := by simpa using hne'
      have := hv a (by simpa using ha) hne2
      simpa [List.getElem?_set, Ne.symm hne2] using this) false axesToEnd
  refine ⟨out, red, o1', r1, ?_⟩
  simp only [Bool.false_eq_true, if_false, List.length_set] at r2
  have e1 : (keptAxes vs.length [wrap (vs.length + 2) z]).map (fun a => (vs.set (wrap (vs.length + 2) z)
      (startOf arrays (wrap (vs.length + 2) z) arrays.length)).getD a 0)
      = (keptAxes vs.length [wrap (vs.length + 2) z]).map (fun a => vs.getD a 0) := by
    refine List.map_congr_left fun a ha => ?_
    have hne2 : a ≠ wrap (vs.length + 2) z := by
      unfold keptAxes at ha
      simpa using (List.mem_filter.1 ha).2
    simp [List.getElem?_set, Ne.symm hne2]
  rw [e1] at r2
  refine cast ?_ r2
  congr 1
  funext i
  exact joined_all hax L _

end Samples

/-! Concrete cases -/

instance (n : ℕ) (z : ℤ) : Decidable (InRange n z) := inferInstanceAs (Decidable (_ ∧ _))

/-- `1::2` among three positions. -/
theorem exSlice : IsSlice 3 (some 1) none (some 2) [1] := by
  refine ⟨by decide, .inl ⟨by decide, by decide, fun p => ?_⟩⟩
  simp [sliceBound]
  omega

/-- `c[[1, 0, -1], 1::2]` of six cells. -/
theorem exOps_reads : ∃ f, Reads [.list [1, 0, -1], .slice (some 1) none (some 2)] [2, 3] [3, 1] f :=
  ⟨_, .list (by decide) (.slice exSlice (.rest []))⟩

example := C63_getitem exOps_object exOps_reads.choose_spec (by right; decide) (by decide)

example : items (getitem 1 exOps [.list [1, 0, -1], .slice (some 1) none (some 2)])
    [[0, 0, 0], [1, 0, 1], [2, 0, 2]] = some ([3, 1, 3], [110, 11, 112]) := by decide +kernel

example := C63_getitem_ellipsis exOps_object (keys := [.ellipsis, .int (-1)])
  (.ellipsis [2] (by decide) rfl (.int (n := 3) (by decide) (.rest []))) (by left; decide) (by decide)

example : items (getitem 1 exOps [.ellipsis, .int (-1), .full]) [[0, 0], [1, 2]]
    = some ([2, 3], [20, 122]) := by decide +kernel

example : items (getitem 1 exOps [.mask [false, true], .newaxis, .slice none none (some (-2))])
    [[0, 0, 0, 0], [0, 0, 1, 2]] = some ([1, 1, 2, 3], [120, 102]) := by decide +kernel

example := (C63_getitem_checked exOps_object (keys := [.int 1, .int 2])
  (.int (n := 2) (by decide) (.int (n := 3) (by decide) (.rest [3]))) (by left; decide)).1 ⟨[], rfl⟩

example := (C63_getitem_checked exOps_object (keys := [.int 1, .int 2, .int 0])
  (.int (n := 2) (by decide) (.int (n := 3) (by decide) (.int (n := 3) (by decide) (.rest []))))
  (by left; decide)).2 (by simp)

example := C63_getitem_out_of_range exOps_object (z := 2) rfl (by decide)

/-- Too many integers. -/
example := C63_getitem_error (obj := exOps) (keys := [.int 0, .int 0, .int 0, .int 0]) (by left; decide) (by
  rintro ⟨ws, f, h⟩
  replace h : Reads _ [2, 3, 3] _ _ := h
  cases h with
  | int _ h => cases h with
    | int _ h => cases h with
      | int _ h => cases h) 1

example := C63_moment_index_accepted (vs := [2]) exOps_object (k := 2) (by decide)

example : items (getitem 1 exOps [.ellipsis, .int 2]) [[0, 0], [0, 1], [1, 2]]
    = some ([2, 3], [2, 12, 122]) := by decide +kernel

example := C63_moment_index_rejected (vs := []) exStat_object.object (by decide) (z := 0) (by decide)
example := C63_moments_reversed exOps_object

example : items (getitem 1 exOps [.ellipsis, .slice none none (some (-1))]) [[1, 2, 0]]
    = some ([2, 3, 3], [122]) := by decide +kernel

example := C63_iter exOps_object

/-- One cell: the record of `0, 2`. -/
def exCell : Arr ℚ := ⟨[4], fun i => [2, 1, 1, 0].getD (i 0) 0⟩

theorem exCell_object : IsObject exCell [] [4] where
  proper := by
    intro i j h
    simp [exCell, h 0 (by decide)]
  shape := rfl
  count := by decide
  orders := by decide

example := (C63_iter_scalar exCell_object).1
example := (C63_iter_scalar exCell_object).2 4 [] (-1) rfl (by decide)

example := C63_concat (arrays := [exOps, exOps]) (shape := [2, 3, 3]) (axis := some (-2)) (by simp)
  (by decide) (by simpa using exOps_object.proper) (by simpa using ⟨3, rfl⟩)

example : items (concat [exOps, exOps] (some (-2))) [[1, 2, 0], [1, 3, 0], [0, 5, 2]]
    = some ([2, 6, 3], [120, 100, 22]) := by decide +kernel

example := C63_concat_rejects (a := exOps) (as := [exStat]) (axis := none) (by decide)
  ⟨exStat, by simp, by rintro ⟨n, h⟩; simpa [exStat, exOps] using congrArg List.length h⟩
example := C63_concat_axis_error (a := exOps) (as := [exStat]) (axis := some 3) (by decide) (by decide)

example := C63_concat_objects (vs := [2, 3]) (ms := [3]) (axis := some 1)
  (objs := [(exOps, ⟨1, [-1]⟩), (exOps, ⟨1, [-1]⟩)]) (by simp) (by decide) (by decide)
  (by simpa using ⟨⟨3, exOps_object⟩, rfl⟩)

/-- Two scalar objects, by default. -/
example := C63_concat_moment_axis (vs := []) exCell_object exCell_object (axis := none) (by decide)
  (by decide)

example : items ((concatObjects [(exCell, ⟨1, [-1]⟩), (exCell, ⟨1, [-1]⟩)] none).map Prod.fst)
    [[0], [3], [4], [5]] = some ([8], [2, 0, 2, 1]) := by decide +kernel

theorem exOps_as_plain : IsObject exColl2 [2, 2] [2] where
  proper := exColl2_stands.object.proper
  shape := rfl
  count := by decide
  orders := by decide

example := C63_concat_mixed exOps_as_plain exColl2_stands.object
example := C63_split_concat exOps_object (k := 1) (by decide)

example := C63_getitem_samples exStat_object.stands (keys := [.list [1, 1]])
  (.list (by decide) (.rest [])) (by right; decide) (by decide)
example := C63_getitem_samples_cov exColl2_stands (keys := [.int (-1)])
  (.int (by decide) (.rest [])) (by left; decide) (by decide)

theorem exStat_twice : ∀ (k : ℕ) a, [exStat, exStat][k]? = some a →
    Stands core1 (Holds 3) a (([2] : List ℕ).set 0 (axisSize a 0)) [3 + 1] exStatL := by
  intro k a h
  have : a = exStat := by
    have := List.mem_of_getElem? h
    simpa using this
  subst this
  exact exStat_object.stands

theorem exColl2_twice : ∀ (k : ℕ) a, [exColl2, exColl2][k]? = some a →
    Stands core2 (Holds2 1 1) a (([2] : List ℕ).set 0 (axisSize a 0)) [1 + 1, 1 + 1] exColl2L := by
  intro k a h
  have : a = exColl2 := by
    have := List.mem_of_getElem? h
    simpa using this
  subst this
  exact exColl2_stands

example := C63_concat_samples (axis := some (-2)) (ax := 0) (by simp) (by decide) rfl (by decide)
  (L := fun _ => exStatL) (vs := [2]) exStat_twice
example := C63_concat_samples_cov (axis := none) (ax := 0) (by simp) (by decide) rfl (by decide)
  (L := fun _ => exColl2L) (vs := [2]) exColl2_twice
example := C63_concat_reduce (z := 0) (ax := 0) (by simp) (by decide) rfl (by decide)
  (L := fun _ => exStatL) (vs := [2]) exStat_twice (fun _ i => by unfold exStatL; split_ifs <;> norm_num [weight]) (by simp) false
example := C63_concat_reduce_cov (z := -3) (ax := 0) (by simp) (by decide) rfl (by decide)
  (L := fun _ => exColl2L) (vs := [2]) exColl2_twice (fun _ i => by norm_num [exColl2L, weight2]) (by simp) true

end Cmomy
