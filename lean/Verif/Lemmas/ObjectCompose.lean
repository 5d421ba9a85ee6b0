import Verif.Lemmas.ObjectMethods
import Verif.Props.NdArray
import Verif.Props.ObjectOps

/-!
# Composing the methods of array objects
-/

set_option linter.unusedSectionVars false

namespace Cmomy

open Spec Nd Axes ObjectOps

section Default

variable {K V M : Type*} [Field K] [DecidableEq K] {obj : Arr K} {vs ms : List ℕ}

theorem default_axis_rejected {core : Core K M} (k : Kernel K V M) (h : IsObject obj vs ms)
    (hnd : ms.length = core.nd) (axesToEnd : Bool) :
    (∀ freq nsamp, ObjectOps.resampleAndReduce core k obj freq nsamp none axesToEnd
      = .error .valueError) ∧
    ObjectOps.jackknifeAndReduce core k obj none axesToEnd = .error .valueError := by
  have hc := h.count
  have hlen : obj.shape.length = vs.length + core.nd := by rw [h.length, hnd]
  have hr : ∀ m ∈ axesLast core.nd, InRange obj.shape.length m := by
    rw [hlen]; exact axesLast_range' (by omega)
  have hz : InRange obj.shape.length (-1) := by unfold InRange; omega
  have hw := wrap_neg hz (by omega)
  have hmp := momPositions h hnd
  have hmem : wrap obj.shape.length (-1) ∈ (axesLast core.nd).map (wrap obj.shape.length) := by
    rw [hmp]
    exact List.mem_map.2 ⟨core.nd - 1, List.mem_range.2 (by omega), by omega⟩
  refine ⟨fun freq nsamp => ?_, ?_⟩
  · exact (C55_moment_axis_rejected core k hr hz hmem axesToEnd).2.1 freq nsamp
  · show jackknifeDataNd core k obj (.int (-1)) _ axesToEnd = _
    unfold jackknifeDataNd
    obtain ⟨m, hm, e⟩ := List.mem_map.1 hmem
    have := C39_moment_axis_rejected core k obj (axesLast core.nd) [-1] hr
      (by rw [hmp]; simpa using nodup_shift (vs.length + core.nd) core.nd) (by simpa using hz)
      (by simp) ⟨m, hm, -1, by simp, e⟩ false true
    have e2 : reduceNd core k obj (axesLast core.nd) (.one (.int (-1))) false true
        = reduceNd core k obj (axesLast core.nd) (.many ([-1].map .int)) false true := rfl
    rw [e2, this]
    rfl

end Default

section Again

variable {K M σ : Type*} [Field K] [DecidableEq K] {core : Core K M} {H : List σ → M → Prop}

/-- The array with the entries of `out`. -/
def settled (out : Arr (Option K)) : Arr K :=
  ⟨out.shape, fun i => (out.get (fun a => if a < out.shape.length then i a else 0)).getD 0⟩

theorem settled_stands {out : Arr (Option K)} {vs ms : List ℕ} {L : (ℕ → ℕ) → List σ}
    (h : ResultStands core H out vs ms L) (hcount : ms.length = 1 ∨ ms.length = 2)
    (hnd : ms.length = core.nd) (hord : ∀ m ∈ ms, 2 ≤ m)
    (hH : ∀ A a b, (∀ m, Within ms m → core.ent a m = core.ent b m) → H A b → H A a)
    (hc : core.Ok) :
    Stands core H (settled out) vs ms L ∧
      ∀ i, InBounds vs i → ∀ m, Within ms m →
        out.get (atMom vs.length i m) = some ((settled out).get (atMom vs.length i m)) := by
  have key : ∀ i, InBounds vs i → ∀ m, Within ms m →
      out.get (atMom vs.length i m) = some ((settled out).get (atMom vs.length i m)) := by
    intro i hi m hm
    have e : (settled out).get (atMom vs.length i m)
        = (out.get (atMom vs.length i m)).getD 0 := by
      unfold settled
      show (out.get _).getD 0 = _
      congr 2
      funext a
      split_ifs with ha
      · rfl
      · have hml : m.length = ms.length := hm.length_eq
        rw [h.shape, List.length_append] at ha
        unfold atMom
        rw [if_neg (by omega), List.getD_eq_default _ _ (by omega)]
    obtain ⟨r, _, h2⟩ := h.holds i hi
    rw [e, h2 m hm]
    rfl
  refine ⟨⟨⟨?_, h.shape, hcount, hord⟩, hnd, fun i hi => ?_⟩, key⟩
  · intro i j hij
    unfold settled
    show (out.get _).getD 0 = (out.get _).getD 0
    congr 2
    funext a
    split_ifs with ha
    · exact hij a ha
    · rfl
  · obtain ⟨r, h1, h2⟩ := h.holds i hi
    refine hH _ _ _ (fun m hm => ?_) h1
    rw [hc.ent_recd _ _ (by rw [← hnd]; exact hm.length_eq)]
    have := key i hi m hm
    rw [h2 m hm] at this
    exact (Option.some.inj this).symm

end Again

section Compose

variable {K V M ι σ : Type*} [Field K] [LinearOrder K] [IsStrictOrderedRing K]
  {k : Kernel K V M} {law : Lawful k ι} {H : List σ → M → Prop} {wt : List σ → K}
  {scaled : K → σ → σ} {core : Core K M} {obj tmp : Arr K} {vs ms : List ℕ}
  {L : (ℕ → ℕ) → List σ}

theorem Meaning.raw_congr (T : Meaning k law H wt scaled) (hS : Stands core H obj vs ms L)
    {i j : ℕ → ℕ} (hi : InBounds vs i) (hij : ∀ a < vs.length, i a = j a) :
    T.raw (L i) = T.raw (L j) := by
  have hj : InBounds vs j := fun a ha => by rw [← hij a ha]; exact hi a ha
  rw [← (T.iff _ _).1 (hS.holds i hi), ← (T.iff _ _).1 (hS.holds j hj)]
  exact congrArg law.raw (cellOf_congr core obj hij)

theorem Meaning.raw_flatMap (T : Meaning k law H wt scaled) {α : Type*} (f g : α → List σ)
    (l : List α) (h : ∀ x ∈ l, T.raw (f x) = T.raw (g x)) :
    T.raw (l.flatMap f) = T.raw (l.flatMap g) := by
  induction l with
  | nil => rfl
  | cons x l ih =>
    rw [List.flatMap_cons, List.flatMap_cons, T.append, T.append, h x (by simp),
      ih fun y hy => h y (List.mem_cons_of_mem _ hy)]

/-- Reducing over the last of the axes that `resample` puts in. -/
theorem Meaning.taken_reduced (T : Meaning k law H wt scaled) (hc : core.Ok)
    (hS : Stands core H obj vs ms L) (hw : ∀ i, InBounds vs i → 0 ≤ wt (L i)) {ax : ℕ}
    (hax : ax < vs.length) (hz : ∀ a < vs.length, a ≠ ax → vs.getD a 0 ≠ 0) {nrep nsamp : ℕ}
    (hrep : nrep ≠ 0) {entry : List ℕ → ℤ}
    (hr : ∀ c, Within [nrep, nsamp] c → InRange (vs.getD ax 0) (entry c))
    (hT : Stands core H tmp
      ((keptAxes vs.length [ax]).map (fun b => vs.getD b 0) ++ [nrep, nsamp]) ms
      (fun i => L (takenLast vs.length (vs.getD ax 0) ax 2 entry i)))
    (hsrc : ∀ i, InBounds
      ((keptAxes vs.length [ax]).map (fun b => vs.getD b 0) ++ [nrep, nsamp]) i →
      InBounds vs (takenLast vs.length (vs.getD ax 0) ax 2 entry i)) :
    ∃ out, ObjectOps.reduce core k tmp (some (.one (.complex 0 (-1)))) none none false false
        = .ok out ∧
      ResultStands core H out ((axesOfResult vs.length ax true).map
          (fun a => if a = ax then nrep else vs.getD a 0)) ms
        (fun i => (List.range nsamp).flatMap (fun q =>
          L (Function.update (readAs (axesOfResult vs.length ax true) i) ax
            (wrap (vs.getD ax 0)
              (entry [readAs (axesOfResult vs.length ax true) i ax, q]))))) := by
  have hkl : (keptAxes vs.length [ax]).length + 1 = vs.length := by
    have := (axesOfResult_perm hax true).length_eq
    simpa [axesOfResult] using this
  set vk := (keptAxes vs.length [ax]).map (fun b => vs.getD b 0) with hvk
  have hvkl : vk.length = (keptAxes vs.length [ax]).length := by rw [hvk, List.length_map]
  have hvl : (vk ++ [nrep, nsamp]).length = vs.length + 1 := by
    rw [List.length_append, hvkl]; simp; omega
  have hget : ∀ a, a < vk.length → (vk ++ [nrep, nsamp]).getD a 0
      = vs.getD ((keptAxes vs.length [ax]).getD a 0) 0 := by
    intro a ha
    have ha' : a < (keptAxes vs.length [ax]).length := by omega
    rw [List.getD_append _ _ _ _ ha, List.getD_eq_getElem _ _ ha, List.getD_eq_getElem _ _ ha']
    simp only [hvk, List.getElem_map]
  have hgr : (vk ++ [nrep, nsamp]).getD (vs.length - 1) 0 = nrep := by
    rw [List.getD_append_right _ _ _ _ (by omega), show vs.length - 1 - vk.length = 0 by omega]
    rfl
  have hgs : (vk ++ [nrep, nsamp]).getD vs.length 0 = nsamp := by
    rw [List.getD_append_right _ _ _ _ (by omega), show vs.length - vk.length = 1 by omega]
    rfl
  have hname : NamesAxes tmp.shape.length core.nd (.one (.complex 0 (-1))) [vs.length] := by
    refine ⟨vs.length, rfl, -1, by simp, ?_, ?_⟩
    · unfold InRange; rw [hT.object.length, hT.nd, hvl]; omega
    · have e : tmp.shape.length - core.nd = vs.length + 1 := by
        rw [hT.object.length, hT.nd, hvl]; omega
      rw [e]
      have := wrap_neg (n := vs.length + 1) (z := -1) (by unfold InRange; omega) (by omega)
      omega
  obtain ⟨out, ho, hs⟩ := T.reduce_stands hc hT (fun i hi => hw _ (hsrc i hi)) hname (by simp)
    (by rw [hvl]; simp) (by
      intro a ha hne
      rw [hvl] at ha
      have hne : a ≠ vs.length := by simpa using hne
      by_cases hk : a < vk.length
      · rw [hget a hk]
        have hmem : (keptAxes vs.length [ax]).getD a 0 ∈ keptAxes vs.length [ax] := by
          rw [List.getD_eq_getElem _ _ (by omega)]; exact List.getElem_mem _
        obtain ⟨h1, h2⟩ := List.mem_filter.1 hmem
        exact hz _ (List.mem_range.1 h1) (by simpa using h2)
      · rw [show a = vs.length - 1 by omega, hgr]; exact hrep) false false
  refine ⟨out, ho, ?_⟩
  simp only [Bool.false_eq_true, if_false] at hs
  rw [hvl, keptAxes_last] at hs
  have hax' : ax ∉ keptAxes vs.length [ax] := by
    intro h
    have := (List.mem_filter.1 h).2
    simp at this
  have hsize : (List.range vs.length).map (fun a => (vk ++ [nrep, nsamp]).getD a 0)
      = (axesOfResult vs.length ax true).map (fun a => if a = ax then nrep else vs.getD a 0) := by
    have e1 : (axesOfResult vs.length ax true).map (fun a => if a = ax then nrep else vs.getD a 0)
        = vk ++ [nrep] := by
      unfold axesOfResult
      rw [if_pos rfl, List.map_append, List.map_singleton, if_pos rfl, hvk]
      congr 1
      refine List.map_congr_left fun a ha => ?_
      rw [if_neg (fun e : a = ax => hax' (e ▸ ha))]
    rw [e1]
    refine List.ext_getElem (by simp [hvkl]; omega) fun q h1 h2 => ?_
    rw [List.getElem_map, List.getElem_range]
    by_cases hq : q < vk.length
    · rw [List.getD_append _ _ _ _ hq, List.getD_eq_getElem _ _ hq, List.getElem_append_left hq]
    · rw [List.length_append, List.length_singleton] at h2
      have hq' : q = vs.length - 1 := by omega
      rw [List.getElem_append_right (by omega), List.getElem_singleton, hq', hgr]
  rw [hsize] at hs
  refine resultStands_congr hs fun i hi r hrr => ?_
  refine T.of_raw ?_ hrr
  beta_reduce
  have hval : ∀ a < vs.length, readAs (List.range vs.length) i a = i a := by
    intro a ha
    unfold readAs
    rw [idxOf_range' ha]
  have hrepl : i (vs.length - 1) < nrep := by
    have := readAs_bound hi (mem_axesOfResult hax true)
    rw [if_pos rfl] at this
    rwa [show readAs (axesOfResult vs.length ax true) i ax = i (vs.length - 1) by
      unfold readAs axesOfResult
      rw [if_pos rfl, List.idxOf_append_of_notMem hax']
      congr 1
      simp
      omega] at this
  have hlast : readAs (axesOfResult vs.length ax true) i ax = i (vs.length - 1) := by
    unfold readAs axesOfResult
    rw [if_pos rfl, List.idxOf_append_of_notMem hax']
    congr 1
    simp
    omega
  unfold allSamplesOver
  rw [List.map_cons, List.map_nil, allIdx_one, hgs, List.flatMap_map]
  refine T.raw_flatMap _ _ _ fun q hq => ?_
  have hq := List.mem_range.1 hq
  have hwit : Within [nrep, nsamp] [i (vs.length - 1), q] := .cons hrepl (.cons hq .nil)
  symm
  refine T.raw_congr hS ?_ ?_
  · intro a ha
    by_cases e : a = ax
    · rw [e, Function.update_self, hlast]
      exact wrap_lt (hr _ hwit)
    · rw [Function.update_of_ne e]
      have := readAs_bound hi ((axesOfResult_perm hax true).mem_iff.2 (List.mem_range.2 ha))
      rwa [if_neg e] at this
  · intro a ha
    unfold takenLast
    by_cases e : a = ax
    · subst e
      rw [Function.update_self, hlast, if_pos rfl]
      congr 2
      have e1 : Function.update (readAs (List.range vs.length) i) vs.length q (vs.length - 1 + 0)
          = i (vs.length - 1) := by
        rw [Function.update_of_ne (by omega), Nat.add_zero, hval _ (by omega)]
      have e2 : Function.update (readAs (List.range vs.length) i) vs.length q (vs.length - 1 + 1)
          = q := by
        rw [show vs.length - 1 + 1 = vs.length by omega, Function.update_self]
      simp only [show List.range 2 = [0, 1] from rfl, List.map_cons, List.map_nil, e1, e2]
    · have hmem : a ∈ keptAxes vs.length [ax] :=
        List.mem_filter.2 ⟨List.mem_range.2 ha, by simpa using e⟩
      have hlt := List.idxOf_lt_length_of_mem hmem
      rw [Function.update_of_ne e, if_neg e, Function.update_of_ne (by omega), hval _ (by omega)]
      unfold readAs axesOfResult
      rw [if_pos rfl, List.idxOf_append_of_mem hmem]

theorem takeAt_along {α : Type*} (f : ℕ → List α) (N : ℕ) (row : List ℕ) (h : ∀ j ∈ row, j < N) :
    (takeAt ((List.range N).map f) row).flatten = row.flatMap f := by
  unfold takeAt
  induction row with
  | nil => rfl
  | cons j row ih =>
    have hj : ((List.range N).map f)[j]? = some (f j) := by
      simp [h j (by simp)]
    rw [List.filterMap_cons, hj, List.flatten_cons, List.flatMap_cons,
      ih fun a ha => h a (List.mem_cons_of_mem _ ha)]

theorem flatMap_range_getD {α β : Type*} (f : α → List β) (l : List α) (d : α) :
    (List.range l.length).flatMap (fun q => f (l.getD q d)) = l.flatMap f := by
  have : l = (List.range l.length).map (fun q => l.getD q d) := by
    refine List.ext_getElem (by simp) fun q h1 h2 => ?_
    rw [List.getElem_map, List.getElem_range, List.getD_eq_getElem _ _ h1]
  conv_rhs => rw [this, List.flatMap_map]

end Compose

end Cmomy
