import Verif.Lemmas.NdArray
import Verif.Lemmas.Bridge
import Mathlib.Tactic.Positivity

/-!
# C39: reducing over several axes
-/

namespace Cmomy

open Spec Axes Nd

/-- Two repetitions of two samples, moments up to order 2 on the last axis. -/
def exNd : Arr ℚ := ⟨[2, 2, 3], fun i =>
  if i 2 = 0 then 1 + i 0 else if i 2 = 1 then i 0 + 3 * i 1 else 1⟩

/-- The same numbers with the moment axis in front. -/
def exNdFront : Arr ℚ := ⟨[3, 2, 2], fun i =>
  if i 0 = 0 then 1 + i 1 else if i 0 = 1 then i 1 + 3 * i 2 else 1⟩

/-- One sample axis and one other axis, comoments on the last two. -/
def exNd2 : Arr ℚ := ⟨[2, 2, 2, 2], fun i =>
  if i 2 = 0 ∧ i 3 = 0 then 2 + i 0 else if i 2 = 1 ∧ i 3 = 0 then i 0 + 3 * i 1 else 1 - i 0⟩

theorem exNd_good : GoodCall exNd [-1] [1, 0] where
  proper := by
    intro i j h
    have h0 := h 0 (by decide)
    have h1 := h 1 (by decide)
    have h2 := h 2 (by decide)
    simp [exNd, h0, h1, h2]
  momRange := by unfold InRange; decide
  momDistinct := by decide
  range := by unfold InRange; decide
  distinct := by decide
  some_axis := by decide
  disjoint := by decide
  nonempty := by decide

theorem exNd_good1 : GoodCall exNd [-1] [1] where
  proper := exNd_good.proper
  momRange := by unfold InRange; decide
  momDistinct := by decide
  range := by unfold InRange; decide
  distinct := by decide
  some_axis := by decide
  disjoint := by decide
  nonempty := by decide

theorem exNdFront_good : GoodCall exNdFront [0] [2] where
  proper := by
    intro i j h
    have h0 := h 0 (by decide)
    have h1 := h 1 (by decide)
    have h2 := h 2 (by decide)
    simp [exNdFront, h0, h1, h2]
  momRange := by unfold InRange; decide
  momDistinct := by decide
  range := by unfold InRange; decide
  distinct := by decide
  some_axis := by decide
  disjoint := by decide
  nonempty := by decide

theorem exNd2_good : GoodCall exNd2 [-2, -1] [1, 0] where
  proper := by
    intro i j h
    have h0 := h 0 (by decide)
    have h1 := h 1 (by decide)
    have h2 := h 2 (by decide)
    have h3 := h 3 (by decide)
    simp [exNd2, h0, h1, h2, h3]
  momRange := by unfold InRange; decide
  momDistinct := by decide
  range := by unfold InRange; decide
  distinct := by decide
  some_axis := by decide
  disjoint := by decide
  nonempty := by decide

theorem exNd2_good1 : GoodCall exNd2 [-2, -1] [1] where
  proper := exNd2_good.proper
  momRange := by unfold InRange; decide
  momDistinct := by decide
  range := by unfold InRange; decide
  distinct := by decide
  some_axis := by decide
  disjoint := by decide
  nonempty := by decide

/-- Entries of the result of a call, to look at examples. -/
def entries (r : Py (Arr (Option ℚ))) (idx : List (List ℕ)) : Option (List ℕ × List (Option ℚ)) :=
  match r with
  | .ok a => some (a.shape, idx.map (fun l => a.get (fun p => l.getD p 0)))
  | .error _ => none

section

variable {K : Type*} [Field K] [DecidableEq K]

/-- Every well-formed call of `reduce_data` succeeds. The entry of the result at an original index
`i` is the reduction of all records met along the reduced axes; the axes of the result are those
described by `resultAxes`, whatever their number and order. -/
theorem C39_reduce_axes (order : ℕ) (data : Arr K) (mz : ℤ) (zs : List ℤ)
    (g : GoodCall data [mz] zs) (keepdims axesToEnd : Bool) :
    ∃ out, reduceNd core1 (kernel1 order) data [mz] (.many (zs.map .int)) keepdims axesToEnd
        = .ok out ∧
      HasLayout out
        (resultAxes data.shape.length [wrap data.shape.length mz]
          (zs.map (wrap data.shape.length)) keepdims axesToEnd)
        (fun a => if keepdims = true ∧ a ∈ zs.map (wrap data.shape.length) then 1
          else axisSize data a)
        (fun i => ((kernel1 order).reduceDataFromZero
            (recordsOver core1 data [wrap data.shape.length mz]
              (zs.map (wrap data.shape.length)) i)).map
          (fun r => r (i (wrap data.shape.length mz)))) := by
  obtain ⟨out, h1, h2, _⟩ := reduceNd_spec core1_ok (kernel1 order) g keepdims axesToEnd
  exact ⟨out, h1, h2⟩

-- the moment axis first; the samples along axis 2 reduced; the moment axis moved to the end
example : entries (reduceNd core1 (kernel1 2) exNdFront [0] (.many ([2].map .int)) false true)
    [[0, 0], [0, 1], [0, 2], [1, 0], [1, 1], [1, 2]]
    = some ([2, 3], [some 2, some (3 / 2), some (13 / 4), some 4, some (5 / 2), some (13 / 4)]) := by
  decide +kernel

example := C39_reduce_axes 2 exNdFront 0 [2] exNdFront_good false true

/-- The same for comoments, with two moment axes. -/
theorem C39_reduce_axes_cov (o0 o1 : ℕ) (data : Arr K) (mz0 mz1 : ℤ) (zs : List ℤ)
    (g : GoodCall data [mz0, mz1] zs) (keepdims axesToEnd : Bool) :
    ∃ out, reduceNd core2 (kernel2 o0 o1) data [mz0, mz1] (.many (zs.map .int)) keepdims axesToEnd
        = .ok out ∧
      HasLayout out
        (resultAxes data.shape.length [wrap data.shape.length mz0, wrap data.shape.length mz1]
          (zs.map (wrap data.shape.length)) keepdims axesToEnd)
        (fun a => if keepdims = true ∧ a ∈ zs.map (wrap data.shape.length) then 1
          else axisSize data a)
        (fun i => ((kernel2 o0 o1).reduceDataFromZero
            (recordsOver core2 data [wrap data.shape.length mz0, wrap data.shape.length mz1]
              (zs.map (wrap data.shape.length)) i)).map
          (fun r => r (i (wrap data.shape.length mz0)) (i (wrap data.shape.length mz1)))) := by
  obtain ⟨out, h1, h2, _⟩ := reduceNd_spec core2_ok (kernel2 o0 o1) g keepdims axesToEnd
  exact ⟨out, h1, h2⟩

example := C39_reduce_axes_cov 1 1 exNd2 (-2) (-1) [1, 0] exNd2_good true true

/-- `axis=None` reduces over all axes that are not moment axes, wherever the moment axes are. -/
theorem C39_axis_none {V M : Type*} (core : Core K M) (k : Kernel K V M) (data : Arr K)
    (mom : List ℤ) (hm : ∀ z ∈ mom, InRange data.shape.length z)
    (hmd : (mom.map (wrap data.shape.length)).Nodup) (keepdims axesToEnd : Bool) :
    reduceNd core k data mom .all keepdims axesToEnd
      = reduceNd core k data mom
          (.many (((keptAxes data.shape.length (mom.map (wrap data.shape.length))).map
            (fun a : ℕ => (a : ℤ))).map .int)) keepdims axesToEnd := by
  have e1 := (normalizeAxes_int_ok_iff mom data.shape.length none false _).2 ⟨hm, rfl, .inr hmd⟩
  have hw : ((keptAxes data.shape.length (mom.map (wrap data.shape.length))).map
      (fun a : ℕ => (a : ℤ))).map (wrap data.shape.length)
      = keptAxes data.shape.length (mom.map (wrap data.shape.length)) := by
    rw [List.map_map]
    conv_rhs => rw [← List.map_id (keptAxes data.shape.length (mom.map (wrap data.shape.length)))]
    refine List.map_congr_left fun a ha => ?_
    have := (mem_keptAxes.1 ha).1
    simp only [Function.comp, wrap, id]
    rw [Int.emod_eq_of_lt (by omega) (by omega)]; simp
  rw [reduceNd_ints core k hm hmd ?_ ?_, hw]
  · unfold reduceNd
    rw [e1]; rfl
  · intro z hz
    obtain ⟨a, ha, rfl⟩ := List.mem_map.1 hz
    have := (mem_keptAxes.1 ha).1
    unfold InRange; omega
  · rw [hw]; exact keptAxes_nodup _ _

example : entries (reduceNd core1 (kernel1 2) exNdFront [0] .all false false) [[0], [1], [2]]
    = some ([3], [some 6, some (13 / 6), some (125 / 36)]) := by
  decide +kernel

example := C39_axis_none core1 (kernel1 2) exNdFront [0] (by unfold InRange; decide) (by decide) false true

/-- A moment axis among the reduction axes is refused, although no check looks for it: the gufunc
call cannot be made. -/
theorem C39_moment_axis_rejected {V M : Type*} (core : Core K M) (k : Kernel K V M) (data : Arr K)
    (mom zs : List ℤ) (hm : ∀ z ∈ mom, InRange data.shape.length z)
    (hmd : (mom.map (wrap data.shape.length)).Nodup) (hr : ∀ z ∈ zs, InRange data.shape.length z)
    (hd : (zs.map (wrap data.shape.length)).Nodup)
    (hov : ∃ m ∈ mom, ∃ z ∈ zs, wrap data.shape.length m = wrap data.shape.length z)
    (keepdims axesToEnd : Bool) :
    reduceNd core k data mom (.many (zs.map .int)) keepdims axesToEnd = .error .valueError := by
  rw [reduceNd_ints core k hm hmd hr hd]
  refine reduceCore_overlap core k hd ?_ ?_ keepdims axesToEnd
  · intro a ha
    obtain ⟨z, hz, rfl⟩ := List.mem_map.1 ha
    exact wrap_lt (hr z hz)
  · obtain ⟨m, hm', z, hz, e⟩ := hov
    exact ⟨_, List.mem_map_of_mem hm', e ▸ List.mem_map_of_mem hz⟩

example := C39_moment_axis_rejected core1 (kernel1 2) exNd [-1] [1, 2] (by unfold InRange; decide)
  (by decide) (by unfold InRange; decide) (by decide) ⟨-1, by decide, 2, by decide, by decide⟩ false
  false

/-- Disagreement: an axis of size zero that is *not* reduced makes the call fail, because the
sample axis is merged with `reshape(..., -1)`. -/
theorem C39_empty_kept_axis_rejected {V M : Type*} (core : Core K M) (k : Kernel K V M)
    (data : Arr K) (mom zs : List ℤ) (hm : ∀ z ∈ mom, InRange data.shape.length z)
    (hmd : (mom.map (wrap data.shape.length)).Nodup) (hr : ∀ z ∈ zs, InRange data.shape.length z)
    (hd : (zs.map (wrap data.shape.length)).Nodup) (hne : zs ≠ [])
    (hz : ∃ a < data.shape.length, a ∉ zs.map (wrap data.shape.length) ∧ axisSize data a = 0)
    (keepdims axesToEnd : Bool) :
    reduceNd core k data mom (.many (zs.map .int)) keepdims axesToEnd = .error .valueError := by
  rw [reduceNd_ints core k hm hmd hr hd]
  refine reduceCore_zero_size core k (by simpa using hne) hd ?_ ?_ keepdims axesToEnd
  · intro a ha
    obtain ⟨z, hz, rfl⟩ := List.mem_map.1 ha
    exact wrap_lt (hr z hz)
  · obtain ⟨a, ha, hax, e⟩ := hz
    exact ⟨a, mem_keptAxes.2 ⟨ha, hax⟩, e⟩

example := C39_empty_kept_axis_rejected core1 (kernel1 2) (⟨[0, 2, 3], fun _ => (1 : ℚ)⟩) [-1] [1]
  (by unfold InRange; decide) (by decide) (by unfold InRange; decide) (by decide) (by decide)
  ⟨0, by decide, by decide, by decide⟩ false false

/-- Reducing over no axis at all returns the input array itself, with its axes where they were:
`axes_to_end` and `keepdims` are ignored. -/
theorem C39_no_axis {V M : Type*} (core : Core K M) (k : Kernel K V M) (data : Arr K)
    (mom : List ℤ) (hm : ∀ z ∈ mom, InRange data.shape.length z)
    (hmd : (mom.map (wrap data.shape.length)).Nodup) (keepdims axesToEnd : Bool) :
    ∃ out, reduceNd core k data mom (.many []) keepdims axesToEnd = .ok out ∧
      out.shape = data.shape ∧ ∀ i, out.get i = some (data.get i) := by
  have := reduceNd_ints core k (zs := []) hm hmd (by simp) (by simp) keepdims axesToEnd
  refine ⟨_, this, rfl, fun i => rfl⟩

-- asked to move the moment axis to the end, the call leaves it in front
example : entries (reduceNd core1 (kernel1 2) exNdFront [0] (.many []) false true) [[1, 1, 1]]
    = some ([3, 2, 2], [some 4]) := by decide +kernel

example := C39_no_axis core1 (kernel1 2) exNdFront [0] (by unfold InRange; decide) (by decide) false
  true

end

section ordered

variable {K : Type*} [Field K] [LinearOrder K] [IsStrictOrderedRing K]

/-- Listing the axes in another order (or under their other names) changes nothing: every entry is
the same, for non-negative weights. -/
theorem C39_axis_order {order : ℕ} (ho : 1 ≤ order) (data : Arr K) (mz : ℤ) (zs zs' : List ℤ)
    (g : GoodCall data [mz] zs)
    (hr' : ∀ z ∈ zs', InRange data.shape.length z)
    (hperm : (zs.map (wrap data.shape.length)).Perm (zs'.map (wrap data.shape.length)))
    (hw : ∀ j : ℕ → ℕ, j (wrap data.shape.length mz) = 0 → 0 ≤ data.get j) :
    ∃ out out',
      reduceNd core1 (kernel1 order) data [mz] (.many (zs.map .int)) false false = .ok out ∧
      reduceNd core1 (kernel1 order) data [mz] (.many (zs'.map .int)) false false = .ok out' ∧
      out.shape = out'.shape ∧
      ∀ i : ℕ → ℕ, i (wrap data.shape.length mz) ≤ order →
        ∃ x, out.get (along (keptAxes data.shape.length (zs.map (wrap data.shape.length))) i)
            = some x ∧
          out'.get (along (keptAxes data.shape.length (zs.map (wrap data.shape.length))) i)
            = some x := by
  have hkept : keptAxes data.shape.length (zs'.map (wrap data.shape.length))
      = keptAxes data.shape.length (zs.map (wrap data.shape.length)) := by
    unfold keptAxes
    exact List.filter_congr fun a _ => by simp only [hperm.mem_iff]
  have g' : GoodCall data [mz] zs' :=
    { proper := g.proper, momRange := g.momRange, momDistinct := g.momDistinct, range := hr'
      distinct := hperm.nodup_iff.1 g.distinct
      some_axis := by
        intro h
        have := hperm.length_eq
        rw [h] at this
        exact g.some_axis (by simpa using this)
      disjoint := fun a ha h => g.disjoint a ha (hperm.mem_iff.2 h)
      nonempty := by rw [hkept]; exact g.nonempty }
  obtain ⟨out, h1, h2⟩ := C39_reduce_axes order data mz zs g false false
  obtain ⟨out', h1', h2'⟩ := C39_reduce_axes order data mz zs' g' false false
  refine ⟨out, out', h1, h1', ?_, ?_⟩
  · rw [h2.1, h2'.1]
    simp only [resultAxes, hkept, Bool.false_eq_true, false_and, if_false]
  · intro i hi
    have hnn : ∀ axes, ∀ d ∈ recordsOver core1 data [wrap data.shape.length mz] axes i,
        0 ≤ (kernel1 (K := K) order).weight d := by
      intro axes d hd
      obtain ⟨j, _, rfl⟩ := List.mem_map.1 hd
      exact hw _ (by simp)
    obtain ⟨r, r', e, e', er⟩ := (lawful1 (K := K) order ho).reduce_eqv_of_rsum (hnn _) (hnn _)
      ((lawful1 (K := K) order ho).rsum_perm (recordsOver_perm core1 data hperm g.distinct i))
    have hre := (eqv1_iff ho).1 er
    refine ⟨r (i (wrap data.shape.length mz)), ?_, ?_⟩
    · have := h2.2 i
      simp only [resultAxes] at this
      rw [this, e]; rfl
    · have := h2'.2 i
      simp only [resultAxes, hkept] at this
      rw [this, e', hre _ hi]; rfl

example := C39_axis_order (order := 2) (by decide) exNd (-1) [1, 0] [0, -2] exNd_good
  (by unfold InRange; decide) (by decide) (by
    intro j hj
    have : j 2 = 0 := hj
    simp only [exNd, this, if_true]
    positivity)

/-- `C39_axis_order` for comoments. -/
theorem C39_axis_order_cov {o0 o1 : ℕ} (h0 : 1 ≤ o0) (h1 : 1 ≤ o1) (data : Arr K) (mz0 mz1 : ℤ)
    (zs zs' : List ℤ) (g : GoodCall data [mz0, mz1] zs)
    (hr' : ∀ z ∈ zs', InRange data.shape.length z)
    (hperm : (zs.map (wrap data.shape.length)).Perm (zs'.map (wrap data.shape.length)))
    (hw : ∀ j : ℕ → ℕ, j (wrap data.shape.length mz0) = 0 → j (wrap data.shape.length mz1) = 0 →
      0 ≤ data.get j) :
    ∃ out out',
      reduceNd core2 (kernel2 o0 o1) data [mz0, mz1] (.many (zs.map .int)) false false = .ok out ∧
      reduceNd core2 (kernel2 o0 o1) data [mz0, mz1] (.many (zs'.map .int)) false false
        = .ok out' ∧
      out.shape = out'.shape ∧
      ∀ i : ℕ → ℕ, i (wrap data.shape.length mz0) ≤ o0 → i (wrap data.shape.length mz1) ≤ o1 →
        ∃ x, out.get (along (keptAxes data.shape.length (zs.map (wrap data.shape.length))) i)
            = some x ∧
          out'.get (along (keptAxes data.shape.length (zs.map (wrap data.shape.length))) i)
            = some x := by
  have hkept : keptAxes data.shape.length (zs'.map (wrap data.shape.length))
      = keptAxes data.shape.length (zs.map (wrap data.shape.length)) := by
    unfold keptAxes
    exact List.filter_congr fun a _ => by simp only [hperm.mem_iff]
  have g' : GoodCall data [mz0, mz1] zs' :=
    { proper := g.proper, momRange := g.momRange, momDistinct := g.momDistinct, range := hr'
      distinct := hperm.nodup_iff.1 g.distinct
      some_axis := by
        intro h
        have := hperm.length_eq
        rw [h] at this
        exact g.some_axis (by simpa using this)
      disjoint := fun a ha h => g.disjoint a ha (hperm.mem_iff.2 h)
      nonempty := by rw [hkept]; exact g.nonempty }
  have hmne : wrap data.shape.length mz1 ≠ wrap data.shape.length mz0 := by
    have := g.momDistinct
    simp at this
    exact fun h => this h.symm
  obtain ⟨out, e1, e2⟩ := C39_reduce_axes_cov o0 o1 data mz0 mz1 zs g false false
  obtain ⟨out', e1', e2'⟩ := C39_reduce_axes_cov o0 o1 data mz0 mz1 zs' g' false false
  refine ⟨out, out', e1, e1', ?_, ?_⟩
  · rw [e2.1, e2'.1]
    simp only [resultAxes, hkept, Bool.false_eq_true, false_and, if_false]
  · intro i hi hi'
    have hnn : ∀ axes, ∀ d ∈ recordsOver core2 data
        [wrap data.shape.length mz0, wrap data.shape.length mz1] axes i,
        0 ≤ (kernel2 (K := K) o0 o1).weight d := by
      intro axes d hd
      obtain ⟨j, _, rfl⟩ := List.mem_map.1 hd
      refine hw _ (by simp) ?_
      simp [hmne.symm]
    obtain ⟨r, r', e, e', er⟩ := (lawful2 (K := K) o0 o1 h0 h1).reduce_eqv_of_rsum (hnn _) (hnn _)
      ((lawful2 (K := K) o0 o1 h0 h1).rsum_perm (recordsOver_perm core2 data hperm g.distinct i))
    have hre := (eqv2_iff h0 h1).1 er
    refine ⟨r (i (wrap data.shape.length mz0)) (i (wrap data.shape.length mz1)), ?_, ?_⟩
    · have := e2.2 i
      simp only [resultAxes] at this
      rw [this, e]; rfl
    · have := e2'.2 i
      simp only [resultAxes, hkept] at this
      rw [this, e', hre _ _ hi hi']; rfl

example := C39_axis_order_cov (o0 := 1) (o1 := 1) (by decide) (by decide) exNd2 (-2) (-1) [1, 0]
  [0, -3] exNd2_good (by unfold InRange; decide) (by decide) (by
    intro j hj hj'
    have h2 : j 2 = 0 := hj
    have h3 : j 3 = 0 := hj'
    simp only [exNd2, h2, h3, and_self, if_true]
    positivity)

/-- Reducing over the axes `zs` and then over the axes `ys` of what is left (axis numbers kept with
`keepdims`) gives in every entry what reducing over all of them at once gives, for non-negative
weights. All three calls succeed. -/
theorem C39_one_after_another {order : ℕ} (ho : 1 ≤ order) (data : Arr K) (mz : ℤ)
    (zs ys : List ℤ) (g : GoodCall data [mz] zs) (g' : GoodCall data [mz] (zs ++ ys)) (hy : ys ≠ [])
    (hw : ∀ j : ℕ → ℕ, j (wrap data.shape.length mz) = 0 → 0 ≤ data.get j) :
    ∃ out arr twice once,
      reduceNd core1 (kernel1 order) data [mz] (.many (zs.map .int)) true false = .ok out ∧
      AllSome out arr ∧
      reduceNd core1 (kernel1 order) arr [mz] (.many (ys.map .int)) true false = .ok twice ∧
      reduceNd core1 (kernel1 order) data [mz] (.many ((zs ++ ys).map .int)) true false
        = .ok once ∧
      twice.shape = once.shape ∧
      ∀ i : ℕ → ℕ, i (wrap data.shape.length mz) ≤ order →
        ∃ x, twice.get i = some x ∧ once.get i = some x := by
  obtain ⟨out, arr, twice, once, e1, e2, e3, e4, e5, e6⟩ := twice_keepdims
    (lawful1 (K := K) order ho) core1_ok g g' rfl hy (fun j => hw _ (by simp))
  refine ⟨out, arr, twice, once, e1, e2, e3, e4, e5, fun i hi => ?_⟩
  obtain ⟨x, y, exy, ex, ey⟩ := e6 i
  refine ⟨_, ex, ?_⟩
  rw [ey]
  exact congrArg some ((eqv1_iff ho).1 exy _ hi).symm

example := C39_one_after_another (order := 2) (by decide) exNd (-1) [1] [0] exNd_good1 exNd_good
  (by decide) (by
    intro j hj
    have : j 2 = 0 := hj
    simp only [exNd, this, if_true]
    positivity)

/-- `C39_one_after_another` for comoments. -/
theorem C39_one_after_another_cov {o0 o1 : ℕ} (h0 : 1 ≤ o0) (h1 : 1 ≤ o1) (data : Arr K)
    (mz0 mz1 : ℤ) (zs ys : List ℤ) (g : GoodCall data [mz0, mz1] zs)
    (g' : GoodCall data [mz0, mz1] (zs ++ ys)) (hy : ys ≠ [])
    (hw : ∀ j : ℕ → ℕ, j (wrap data.shape.length mz0) = 0 → j (wrap data.shape.length mz1) = 0 →
      0 ≤ data.get j) :
    ∃ out arr twice once,
      reduceNd core2 (kernel2 o0 o1) data [mz0, mz1] (.many (zs.map .int)) true false = .ok out ∧
      AllSome out arr ∧
      reduceNd core2 (kernel2 o0 o1) arr [mz0, mz1] (.many (ys.map .int)) true false = .ok twice ∧
      reduceNd core2 (kernel2 o0 o1) data [mz0, mz1] (.many ((zs ++ ys).map .int)) true false
        = .ok once ∧
      twice.shape = once.shape ∧
      ∀ i : ℕ → ℕ, i (wrap data.shape.length mz0) ≤ o0 → i (wrap data.shape.length mz1) ≤ o1 →
        ∃ x, twice.get i = some x ∧ once.get i = some x := by
  have hmne : wrap data.shape.length mz0 ≠ wrap data.shape.length mz1 := by
    simpa using g.momDistinct
  obtain ⟨out, arr, twice, once, e1, e2, e3, e4, e5, e6⟩ := twice_keepdims
    (lawful2 (K := K) o0 o1 h0 h1) core2_ok g g' rfl hy
    (fun j => hw _ (by simp) (by simp [hmne]))
  refine ⟨out, arr, twice, once, e1, e2, e3, e4, e5, fun i hi hi' => ?_⟩
  obtain ⟨x, y, exy, ex, ey⟩ := e6 i
  refine ⟨_, ex, ?_⟩
  rw [ey]
  exact congrArg some ((eqv2_iff h0 h1).1 exy _ _ hi hi').symm

example := C39_one_after_another_cov (o0 := 1) (o1 := 1) (by decide) (by decide) exNd2 (-2) (-1) [1]
  [0] exNd2_good1 exNd2_good (by decide) (by
    intro j hj hj'
    have h2 : j 2 = 0 := hj
    have h3 : j 3 = 0 := hj'
    simp only [exNd2, h2, h3, and_self, if_true]
    positivity)

/-- The same without `keepdims`: after the first reduction the remaining axes are renumbered, and
the second call names them by their new positions. The result has the axes that neither call
reduced. -/
theorem C39_one_after_another_renumbered {order : ℕ} (ho : 1 ≤ order) (data : Arr K) (mz : ℤ)
    (zs ys : List ℤ) (g : GoodCall data [mz] zs) (g' : GoodCall data [mz] (zs ++ ys)) (hy : ys ≠ [])
    (hw : ∀ j : ℕ → ℕ, j (wrap data.shape.length mz) = 0 → 0 ≤ data.get j)
    (newName : ℤ → ℤ)
    (hname : ∀ z, newName z = ((keptAxes data.shape.length (zs.map (wrap data.shape.length))).idxOf
      (wrap data.shape.length z) : ℕ)) :
    ∃ out arr twice once,
      reduceNd core1 (kernel1 order) data [mz] (.many (zs.map .int)) false false = .ok out ∧
      AllSome out arr ∧
      reduceNd core1 (kernel1 order) arr [newName mz] (.many ((ys.map newName).map .int))
        false false = .ok twice ∧
      reduceNd core1 (kernel1 order) data [mz] (.many ((zs ++ ys).map .int)) false false
        = .ok once ∧
      twice.shape = once.shape ∧
      ∀ i : ℕ → ℕ, i (wrap data.shape.length mz) ≤ order →
        ∃ x, twice.get (along (keptAxes data.shape.length
              ((zs ++ ys).map (wrap data.shape.length))) i) = some x ∧
          once.get (along (keptAxes data.shape.length
              ((zs ++ ys).map (wrap data.shape.length))) i) = some x := by
  obtain ⟨out, arr, twice, once, e1, e2, e3, e4, e5, e6⟩ := twice_renumbered
    (lawful1 (K := K) order ho) core1_ok g g' rfl hy (fun j => hw _ (by simp)) newName hname
  refine ⟨out, arr, twice, once, e1, e2, e3, e4, e5, fun i hi => ?_⟩
  obtain ⟨x, y, exy, ex, ey⟩ := e6 i
  refine ⟨_, ex, ?_⟩
  rw [ey]
  exact congrArg some ((eqv1_iff ho).1 exy _ hi).symm

-- axis 0 keeps its number, the moment axis 2 becomes axis 1
example := C39_one_after_another_renumbered (order := 2) (by decide) exNd (-1) [1] [0] exNd_good1
  exNd_good (by decide) (by
    intro j hj
    have : j 2 = 0 := hj
    simp only [exNd, this, if_true]
    positivity) _ (fun _ => rfl)

/-- `C39_one_after_another_renumbered` for comoments. -/
theorem C39_one_after_another_renumbered_cov {o0 o1 : ℕ} (h0 : 1 ≤ o0) (h1 : 1 ≤ o1) (data : Arr K)
    (mz0 mz1 : ℤ) (zs ys : List ℤ) (g : GoodCall data [mz0, mz1] zs)
    (g' : GoodCall data [mz0, mz1] (zs ++ ys)) (hy : ys ≠ [])
    (hw : ∀ j : ℕ → ℕ, j (wrap data.shape.length mz0) = 0 → j (wrap data.shape.length mz1) = 0 →
      0 ≤ data.get j)
    (newName : ℤ → ℤ)
    (hname : ∀ z, newName z = ((keptAxes data.shape.length (zs.map (wrap data.shape.length))).idxOf
      (wrap data.shape.length z) : ℕ)) :
    ∃ out arr twice once,
      reduceNd core2 (kernel2 o0 o1) data [mz0, mz1] (.many (zs.map .int)) false false = .ok out ∧
      AllSome out arr ∧
      reduceNd core2 (kernel2 o0 o1) arr [newName mz0, newName mz1]
        (.many ((ys.map newName).map .int)) false false = .ok twice ∧
      reduceNd core2 (kernel2 o0 o1) data [mz0, mz1] (.many ((zs ++ ys).map .int)) false false
        = .ok once ∧
      twice.shape = once.shape ∧
      ∀ i : ℕ → ℕ, i (wrap data.shape.length mz0) ≤ o0 → i (wrap data.shape.length mz1) ≤ o1 →
        ∃ x, twice.get (along (keptAxes data.shape.length
              ((zs ++ ys).map (wrap data.shape.length))) i) = some x ∧
          once.get (along (keptAxes data.shape.length
              ((zs ++ ys).map (wrap data.shape.length))) i) = some x := by
  have hmne : wrap data.shape.length mz0 ≠ wrap data.shape.length mz1 := by
    simpa using g.momDistinct
  obtain ⟨out, arr, twice, once, e1, e2, e3, e4, e5, e6⟩ := twice_renumbered
    (lawful2 (K := K) o0 o1 h0 h1) core2_ok g g' rfl hy
    (fun j => hw _ (by simp) (by simp [hmne])) newName hname
  refine ⟨out, arr, twice, once, e1, e2, e3, e4, e5, fun i hi hi' => ?_⟩
  obtain ⟨x, y, exy, ex, ey⟩ := e6 i
  refine ⟨_, ex, ?_⟩
  rw [ey]
  exact congrArg some ((eqv2_iff h0 h1).1 exy _ _ hi hi').symm

example := C39_one_after_another_renumbered_cov (o0 := 1) (o1 := 1) (by decide) (by decide) exNd2 (-2)
  (-1) [1] [0] exNd2_good1 exNd2_good (by decide) (by
    intro j hj hj'
    have h2 : j 2 = 0 := hj
    have h3 : j 3 = 0 := hj'
    simp only [exNd2, h2, h3, and_self, if_true]
    positivity) _ (fun _ => rfl)

end ordered

end Cmomy
