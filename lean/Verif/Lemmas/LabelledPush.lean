import Verif.Spec.LabelledPush
import Verif.Lemmas.LabelledVals
import Verif.Lemmas.PushNd

/-!
# Lemmas about pushing onto labelled objects
-/

set_option linter.unusedSectionVars false

namespace Cmomy.Labelled

open Axes Spec

variable {δ : Type} [DecidableEq δ]

section Arrange

variable {L : Type}

/-- What is left of the dimensions: some of the last loop dimensions, and the core dimensions. -/
theorem dropWhile_core {y : DataArray δ L} {loop cs : List δ} (hc : ∀ d ∈ cs, d ∈ y.dims) :
    ∃ front back, loop = front ++ back ∧ (∀ d ∈ front, d ∉ y.dims) ∧
      (loop ++ cs).dropWhile (fun d => decide (d ∉ y.dims)) = back ++ cs := by
  have hcs : cs.dropWhile (fun d => decide (d ∉ y.dims)) = cs := by
    rw [List.dropWhile_eq_self_iff]
    intro h
    have := hc _ (List.getElem_mem h)
    simpa using this
  refine ⟨loop.takeWhile (fun d => decide (d ∉ y.dims)),
    loop.dropWhile (fun d => decide (d ∉ y.dims)), by simp, ?_, ?_⟩
  · intro d hd
    simpa using List.mem_takeWhile_imp hd
  · rw [List.dropWhile_append, hcs]
    split_ifs with h
    · rw [List.isEmpty_iff.1 h, List.nil_append]
    · rfl

/-- How an operand is arranged for the gufunc. -/
theorem arranged_as (y : DataArray δ L) {loop cs : List δ} (hl : (loop ++ cs).Nodup)
    (hy : y.dims.Nodup) (hc : ∀ d ∈ cs, d ∈ y.dims) (hs : ∀ d ∈ y.dims, d ∈ loop ++ cs) :
    ∃ a, compatData y loop cs = .ok a ∧ a.Proper ∧ cs.length ≤ a.shape.length ∧
      a.shape.drop (a.shape.length - cs.length) = cs.map y.size ∧
      a.shape.length - cs.length ≤ loop.length ∧
      (∀ size : δ → ℕ, (∀ d ∈ y.dims, d ∈ loop → y.size d = size d) →
        FitsInto (a.shape.take (a.shape.length - cs.length)) (loop.map size) ∧
        ∀ c : δ → ℕ, (∀ d ∈ loop, c d < size d) → ∀ rest ms,
          matched a (tailAxes a.shape.length cs.length) (List.range loop.length)
            (pos (loop ++ rest) c) ms = entry y (withNames cs ms c)) ∧
      (∀ d ∈ y.dims, d ∈ loop → loop.length - (a.shape.length - cs.length) ≤ loop.idxOf d ∧
        a.shape.getD (loop.idxOf d - (loop.length - (a.shape.length - cs.length))) 0
          = y.size d) := by
  obtain ⟨a, h1, h2, h3⟩ := compatData_ok y hy hl hc hs
  obtain ⟨front, back, e1, e2, e3⟩ := dropWhile_core (y := y) (loop := loop) hc
  rw [e3] at h2 h3
  have hlen : a.shape.length = back.length + cs.length := by rw [h2]; simp
  have hsub : a.shape.length - cs.length = back.length := by omega
  have hT : (back ++ cs).Nodup := by
    rw [e1, List.append_assoc] at hl
    exact hl.of_append_right
  have hdis : ∀ d ∈ back, d ∉ cs := fun d hd hd' => List.disjoint_of_nodup_append hT hd hd'
  have hback : ∀ d ∈ y.dims, d ∈ loop → d ∈ back := by
    intro d hd hdl
    rw [e1] at hdl
    exact (List.mem_append.1 hdl).resolve_left (fun h => e2 d h hd)
  have hidx : ∀ d ∈ y.dims, d ∈ loop → loop.idxOf d = front.length + back.idxOf d := by
    intro d hd hdl
    rw [e1]
    exact List.idxOf_append_of_notMem (fun h => e2 d h hd)
  have hprop : a.Proper := by
    intro i j hij
    rw [h3, h3]
    refine entry_congr y fun d hd => hij _ ?_
    have hm : d ∈ back ++ cs := by
      rcases List.mem_append.1 (hs d hd) with h | h
      · exact List.mem_append_left _ (hback d hd h)
      · exact List.mem_append_right _ h
    have := List.idxOf_lt_length_iff.2 hm
    rw [List.length_append] at this
    omega
  have hget : ∀ q, q < back.length → ∀ d, back[q]? = some d → a.shape.getD q 0
      = if d ∈ y.dims then y.size d else 1 := by
    intro q hq d hd
    rw [h2, List.getD_eq_getElem?_getD, List.getElem?_map, List.getElem?_append_left hq, hd]
    rfl
  have hsz : ∀ d ∈ y.dims, d ∈ loop → a.shape.getD (back.idxOf d) 0 = y.size d := by
    intro d hd hdl
    have hb := hback d hd hdl
    have := List.idxOf_lt_length_iff.2 hb
    rw [hget _ this d (by rw [List.getElem?_eq_getElem this, List.getElem_idxOf]), if_pos hd]
  refine ⟨a, h1, hprop, by omega, ?_, ?_, ?_, ?_⟩
  · rw [hsub, h2, List.map_append, List.drop_append_of_le_length (by simp), ]
    rw [List.drop_of_length_le (by simp), List.nil_append]
    exact List.map_congr_left fun d hd => if_pos (hc d hd)
  · rw [hsub, e1, List.length_append]
    omega
  · intro size hag
    have htake : a.shape.take (a.shape.length - cs.length)
        = back.map (fun d => if d ∈ y.dims then y.size d else 1) := by
      rw [hsub, h2, List.map_append, List.take_append_of_le_length (by simp),
        List.take_of_length_le (by simp)]
    constructor
    · rw [htake]
      refine ⟨by rw [e1]; simp, fun p hp => ?_⟩
      have hp' : p < back.length := by simpa using hp
      rw [List.getD_eq_getElem _ _ hp, List.getElem_map]
      by_cases hd : back[p] ∈ y.dims
      · right
        rw [if_pos hd, hag _ hd (by rw [e1]; simp)]
        rw [e1, List.getD_eq_getElem?_getD, List.getElem?_map, List.length_map, List.length_map,
          List.length_append, show p + (front.length + back.length - back.length)
            = front.length + p by omega, List.getElem?_append_right (by omega),
          Nat.add_sub_cancel_left, List.getElem?_eq_getElem hp']
        rfl
      · left
        rw [if_neg hd]
    · intro c hcc rest ms
      unfold matched
      rw [h3]
      refine entry_congr y fun d hd => ?_
      simp only [Nd.mem_tailAxes (show cs.length ≤ a.shape.length by omega), hsub]
      by_cases hdc : d ∈ cs
      · have hi : (back ++ cs).idxOf d = back.length + cs.idxOf d :=
          List.idxOf_append_of_notMem (fun h => hdis d h hdc)
        have hlt := List.idxOf_lt_length_iff.2 hdc
        rw [hi, if_pos (by omega)]
        unfold withNames
        rw [if_pos hdc]
        congr 1
        have := Nd.idxOf_shift (n := a.shape.length) (m := cs.length) (p := back.length + cs.idxOf d)
          (by omega) (by omega) (by omega)
        rw [show tailAxes a.shape.length cs.length
          = (List.range cs.length).map (fun j => a.shape.length - cs.length + j) from rfl, this]
        omega
      · have hdl : d ∈ loop := (List.mem_append.1 (hs d hd)).resolve_right hdc
        have hb := hback d hd hdl
        have hlt := List.idxOf_lt_length_iff.2 hb
        have hi : (back ++ cs).idxOf d = back.idxOf d := List.idxOf_append_of_mem hb
        rw [hi, if_neg (by omega)]
        have hw : withNames cs ms c d = c d := by unfold withNames; rw [if_neg hdc]
        rw [hw]
        unfold axisSize
        rw [hsz d hd hdl, hag d hd hdl]
        have hcd := hcc d hdl
        split_ifs with h1'
        · omega
        · rw [show keptAxes a.shape.length (tailAxes a.shape.length cs.length)
            = List.range (a.shape.length - cs.length) from Nd.keptAxes_tail (by omega),
            hsub, List.length_range, List.length_range, Nd.idxOf_range hlt, e1, List.length_append,
            Nat.add_sub_cancel]
          rw [List.getElem?_drop, List.getElem?_range (by omega)]
          simp only [Option.map_some, Option.getD_some]
          rw [pos_lt (by simp; omega)]
          congr 1
          rw [List.getElem_append_left (by simp; omega), List.getElem_append_right (by omega)]
          simp
  · intro d hd hdl
    rw [hsub, hidx d hd hdl, e1, List.length_append]
    refine ⟨by omega, ?_⟩
    rw [show front.length + back.idxOf d - (front.length + back.length - back.length)
      = back.idxOf d by omega]
    exact hsz d hd hdl

end Arrange

section Cells

variable {K V M : Type} [Field K] [DecidableEq K]

theorem valDims_nodup {L : Type} {obj : DataArray δ L} {moms : List δ} {nd : ℕ}
    (g : LabelledObject obj moms nd) : (valDims obj moms ++ moms).Nodup := by
  refine List.nodup_append'.2 ⟨g.distinct.filter _, g.momDistinct, fun d h1 h2 => ?_⟩
  simpa [h2] using (List.mem_filter.1 h1).2

theorem valDims_perm {L : Type} {obj : DataArray δ L} {moms : List δ} {nd : ℕ}
    (g : LabelledObject obj moms nd) : (valDims obj moms ++ moms).Perm obj.dims := by
  refine (List.perm_ext_iff_of_nodup (valDims_nodup g) g.distinct).2 fun d => ?_
  rw [List.mem_append]
  unfold valDims
  rw [List.mem_filter]
  constructor
  · rintro (h | h)
    · exact h.1
    · exact g.momPresent d h
  · intro h
    by_cases hm : d ∈ moms
    · exact .inr hm
    · exact .inl ⟨h, by simpa using hm⟩

theorem pos_withNames {loop moms : List δ} (hn : (loop ++ moms).Nodup) (ms : List ℕ) (c : δ → ℕ)
    {p : ℕ} (hp : p < loop.length + moms.length) :
    pos (loop ++ moms) (withNames moms ms c) p
      = if p < loop.length then pos (loop ++ moms) c p else ms.getD (p - loop.length) 0 := by
  have hp' : p < (loop ++ moms).length := by simpa using hp
  rw [pos_lt hp', pos_lt hp']
  unfold withNames
  by_cases h : p < loop.length
  · rw [if_pos h, if_neg]
    rw [List.getElem_append_left h]
    exact fun hm => List.disjoint_of_nodup_append hn (List.getElem_mem h) hm
  · rw [if_neg h, List.getElem_append_right (by omega), if_pos (List.getElem_mem _),
      hn.of_append_right.idxOf_getElem]

theorem cellNamed_ofNd {core : Nd.Core K M} {loop moms : List δ} (hn : (loop ++ moms).Nodup)
    (hm : moms.length = core.nd) {a : Nd.Arr (Option K)} (hp : a.Proper)
    (hs : a.shape.length = loop.length + moms.length) (c : δ → ℕ) :
    cellNamed core (DataArray.ofNd (loop ++ moms) a) moms c
      = cellAt core a (pos (loop ++ moms) c) := by
  have hr : valRank core a = loop.length := by unfold valRank; omega
  have hg : ∀ ms, entry (DataArray.ofNd (loop ++ moms) a) (withNames moms ms c)
      = a.get (fun p => if p < valRank core a then pos (loop ++ moms) c p
          else ms.getD (p - valRank core a) 0) := by
    intro ms
    rw [ofNd_entry, hr]
    exact hp _ _ fun p hp' => pos_withNames hn ms c (by omega)
  unfold cellNamed cellAt
  simp only [hg]

/-- How an object is arranged for the gufunc. -/
theorem object_arranged {core : Nd.Core K M} {obj : DataArray δ (Option K)} {moms : List δ}
    (g : LabelledObject obj moms core.nd) :
    ∃ out, compatData obj (valDims obj moms) moms = .ok out ∧ out.Proper ∧
      out.shape = (valDims obj moms ++ moms).map obj.size ∧
      valRank core out = (valDims obj moms).length ∧
      valShape core out = (valDims obj moms).map obj.size ∧
      momShape core out = moms.map obj.size ∧
      ∀ c, cellAt core out (pos (valDims obj moms ++ moms) c) = cellNamed core obj moms c := by
  have hn := valDims_nodup g
  obtain ⟨out, h1, h2, h3⟩ := compatData_all obj g.distinct (valDims_perm g)
  have hlen : out.shape.length = (valDims obj moms).length + moms.length := by rw [h2]; simp
  have hr : valRank core out = (valDims obj moms).length := by
    unfold valRank; have := g.momCount; omega
  have hprop : out.Proper := by
    intro i j hij
    rw [h3, h3]
    refine entry_congr obj fun d hd => hij _ ?_
    have := List.idxOf_lt_length_iff.2 ((valDims_perm g).mem_iff.2 hd)
    rw [List.length_append] at this
    omega
  refine ⟨out, h1, hprop, h2, hr, ?_, ?_, fun c => ?_⟩
  · unfold valShape
    rw [hr, h2, List.map_append, List.take_append_of_le_length (by simp),
      List.take_of_length_le (by simp)]
  · unfold momShape
    rw [hr, h2, List.map_append, List.drop_append_of_le_length (by simp),
      List.drop_of_length_le (by simp), List.nil_append]
  · rw [← cellNamed_ofNd hn g.momCount hprop hlen]
    have he : ∀ c', entry (DataArray.ofNd (valDims obj moms ++ moms) out) c' = entry obj c' := by
      intro c'
      rw [ofNd_entry, h3]
      refine entry_congr obj fun d hd => ?_
      exact pos_idxOf ((valDims_perm g).mem_iff.2 hd)
    unfold cellNamed
    simp only [he]

/-- An operand with core dimensions `cs` that only has dimensions of the object otherwise. -/
def OpOk (loop : List δ) (size : δ → ℕ) (o : Operand δ K × List δ) : Prop :=
  (loop ++ o.2).Nodup ∧ ∀ y, o.1 = .named y → y.dims.Nodup ∧ (∀ d ∈ o.2, d ∈ y.dims) ∧
    ∀ d ∈ y.dims, d ∈ loop ++ o.2 ∧ y.size d = size d

/-- The array an operand becomes. -/
def arrayAs (loop : List δ) (o : Operand δ K × List δ) : Nd.Arr K :=
  match o.1.arrangeAs loop o.2 with
  | .ok a => a
  | .error _ => ⟨[], fun _ => 0⟩

theorem arrayAs_ok {loop : List δ} {size : δ → ℕ} {o : Operand δ K × List δ}
    (h : OpOk loop size o) : o.1.arrangeAs loop o.2 = .ok (arrayAs loop o) := by
  obtain ⟨o, cs⟩ := o
  cases o with
  | plain a => rfl
  | named y =>
    obtain ⟨e1, e2, e3⟩ := h.2 y rfl
    obtain ⟨a, h1, -⟩ := arranged_as y h.1 e1 e2 (fun d hd => (e3 d hd).1)
    have : (Operand.named y).arrangeAs loop cs = .ok a := h1
    unfold arrayAs
    simp only [this]

theorem arrayAs_named {loop cs : List δ} {y : DataArray δ K} {a : Nd.Arr K}
    (h : compatData y loop cs = .ok a) : arrayAs loop (.named y, cs) = a := by
  unfold arrayAs Operand.arrangeAs
  simp only [h]

theorem arrayAs_plain {loop cs : List δ} (a : Nd.Arr K) : arrayAs loop (.plain a, cs) = a := rfl

theorem push_loop {L : Type} {nd : ℕ} {obj : DataArray δ L} {moms : List δ}
    (g : LabelledObject obj moms nd) {ops : List (Operand δ K × List δ)} {size : δ → ℕ}
    (hz : ∀ d ∈ obj.dims, obj.size d = size d) (ho : ∀ o ∈ ops, OpOk (valDims obj moms) size o) :
    loopDims (obj.frame :: ops.filterMap (fun o => o.1.frame?)) []
      (moms ++ ops.flatMap Prod.snd) = .ok (valDims obj moms) := by
  have hfr : ∀ f ∈ ops.filterMap (fun o => o.1.frame?), ∃ o ∈ ops, ∃ y, o.1 = .named y ∧
      f = y.frame := by
    intro f hf
    obtain ⟨o, ho, he⟩ := List.mem_filterMap.1 hf
    obtain ⟨o, cs⟩ := o
    cases o with
    | named y => exact ⟨_, ho, y, rfl, by simpa [Operand.frame?] using he.symm⟩
    | plain a => simp [Operand.frame?] at he
  have hall : ∀ f ∈ obj.frame :: ops.filterMap (fun o => o.1.frame?),
      f.1.Nodup ∧ ∀ d ∈ f.1, f.2 d = size d := by
    intro f hf
    rcases List.mem_cons.1 hf with rfl | hf
    · exact ⟨g.distinct, hz⟩
    · obtain ⟨o, h1, y, h2, rfl⟩ := hfr f hf
      obtain ⟨e1, -, e3⟩ := (ho o h1).2 y h2
      exact ⟨e1, fun d hd => (e3 d hd).2⟩
  unfold loopDims unifiedDims
  rw [if_neg (not_not.2 fun f hf => (hall f hf).1), if_neg (not_not.2 fun f hf h hh d hdf hdh _ =>
    ((hall f hf).2 d hdf).trans ((hall h hh).2 d hdh).symm)]
  simp only [Except.map, List.not_mem_nil, not_false_eq_true, decide_true, List.filter_true]
  rw [firstNames_eq, inOrder_filter, List.flatMap_cons, List.filter_append]
  have h1 : obj.frame.1.filter (fun d => decide (d ∉ moms ++ ops.flatMap Prod.snd))
      = valDims obj moms := by
    unfold valDims
    refine List.filter_congr fun d hd => ?_
    rw [decide_eq_decide]
    constructor
    · exact fun h h' => h (List.mem_append_left _ h')
    · intro h h'
      rcases List.mem_append.1 h' with h' | h'
      · exact h h'
      · obtain ⟨o, h2, h3⟩ := List.mem_flatMap.1 h'
        exact List.disjoint_of_nodup_append (ho o h2).1
          (List.mem_filter.2 ⟨hd, by simpa using h⟩) h3
  rw [h1, inOrder_append]
  · rw [← firstNames_eq, firstNames_self (valDims_nodup g).of_append_left]
  · intro d hd
    obtain ⟨h2, h3⟩ := List.mem_filter.1 hd
    obtain ⟨f, hf, hdf⟩ := List.mem_flatMap.1 h2
    obtain ⟨o, h4, y, h5, rfl⟩ := hfr f hf
    have h6 := (((ho o h4).2 y h5).2.2 d hdf).1
    rw [decide_eq_true_eq] at h3
    refine (List.mem_append.1 h6).resolve_right fun h => h3 (List.mem_append_right _ ?_)
    exact List.mem_flatMap.2 ⟨o, h4, h⟩

/-- What a push does, given what the gufunc does. -/
theorem pushX_updated {core : Nd.Core K M} {obj : DataArray δ (Option K)} {moms : List δ}
    (g : LabelledObject obj moms core.nd) {ops : List (Operand δ K × List δ)} {size : δ → ℕ}
    (hz : ∀ d ∈ obj.dims, obj.size d = size d) (ho : ∀ o ∈ ops, OpOk (valDims obj moms) size o)
    {f : Nd.Arr (Option K) → List (Nd.Arr K) → Py (Nd.Arr (Option K))}
    {F : (ℕ → ℕ) → M → Option M}
    (hf : ∀ out, out.Proper → core.nd ≤ out.shape.length →
      valRank core out = (valDims obj moms).length →
      valShape core out = (valDims obj moms).map obj.size → momShape core out = moms.map obj.size →
      ∃ o', f out (ops.map (arrayAs (valDims obj moms))) = .ok o' ∧ Updated core out o' F) :
    ∃ obj', pushX obj moms ops f = .ok obj' ∧
      UpdatedNamed core moms obj obj' (fun c => F (pos (valDims obj moms ++ moms) c)) := by
  have hn := valDims_nodup g
  obtain ⟨out, h1, h2, h3, h4, h5, h6, h7⟩ := object_arranged g
  have hlen : out.shape.length = (valDims obj moms).length + moms.length := by rw [h3]; simp
  obtain ⟨o', e1, e2⟩ := hf out h2 (by have := g.momCount; omega) h4 h5 h6
  have hm : ops.mapM (fun o : Operand δ K × List δ => o.1.arrangeAs (valDims obj moms) o.2)
      = .ok (ops.map (arrayAs (valDims obj moms))) :=
    Nd.mapM_ok_of_forall _ _ _ fun o h => arrayAs_ok (ho o h)
  have hlen' : o'.shape.length = (valDims obj moms).length + moms.length := by rw [e2.shape, hlen]
  refine ⟨.ofNd (valDims obj moms ++ moms) o', ?_, rfl, ?_, ?_, ?_⟩
  · unfold pushX
    simp only [push_loop g hz ho, Except.bind, h1, hm, e1]
    refine wrapResult_ok (size := size) hn ?_ ?_
    · rw [e2.shape, h3]
      exact List.map_congr_left fun d hd => hz d ((valDims_perm g).mem_iff.1 hd)
    · intro f hf d _ hdf _
      rcases List.mem_cons.1 hf with rfl | hf
      · exact (hz d hdf).symm
      · obtain ⟨o, h8, h9⟩ := List.mem_filterMap.1 hf
        obtain ⟨o, cs⟩ := o
        cases o with
        | named y =>
          obtain rfl : y.frame = f := by simpa [Operand.frame?] using h9
          exact ((((ho _ h8).2 y rfl).2.2 d hdf).2).symm
        | plain a => simp [Operand.frame?] at h9
  · intro d hd
    have hd' := (valDims_perm g).mem_iff.2 hd
    have := List.idxOf_lt_length_iff.2 hd'
    show o'.shape.getD _ 0 = _
    rw [e2.shape, h3, List.getD_eq_getElem _ _ (by simpa using this), List.getElem_map,
      List.getElem_idxOf]
  · intro c hc
    rw [cellNamed_ofNd hn g.momCount e2.proper hlen', e2.cell, h7]
    intro p hp
    rw [h4] at hp
    unfold axisSize
    rw [pos_lt (by simp; omega), List.getElem_append_left hp, h3, List.map_append,
      List.getD_append _ _ _ _ (by simpa using hp), List.getD_eq_getElem _ _ (by simpa using hp),
      List.getElem_map]
    exact hc _ (List.getElem_mem hp)
  · intro c hc
    rw [ofNd_entry, e2.entry, h7, h4]
    · congr 1
      funext r
      congr 1
      unfold momCoords
      refine List.ext_getElem (by simp [g.momCount]) fun q h8 h9 => ?_
      have hq : q < moms.length := by simpa using h9
      rw [List.getElem_map, List.getElem_map, List.getElem_range, pos_lt (by simp; omega),
        List.getElem_append_right (by omega)]
      simp
    · intro p hp
      rw [h4] at hp
      unfold axisSize
      rw [pos_lt (by simp; omega), List.getElem_append_left hp, h3, List.map_append,
        List.getD_append _ _ _ _ (by simpa using hp), List.getD_eq_getElem _ _ (by simpa using hp),
        List.getElem_map]
      exact hc _ (List.getElem_mem hp)

end Cells

section Gufuncs

variable {K V M : Type} [Field K] [DecidableEq K]

theorem matched_congr_range {L : Type} (a : Nd.Arr L) (cs : List ℕ) {N : ℕ} {i j : ℕ → ℕ}
    (h : ∀ p < N, i p = j p) (ms : List ℕ) :
    matched a cs (List.range N) i ms = matched a cs (List.range N) j ms := by
  unfold matched
  congr 1
  funext ax
  split_ifs
  · rfl
  · rfl
  · rw [List.getElem?_drop]
    by_cases hq : (List.range N).length - (keptAxes a.shape.length cs).length
        + (keptAxes a.shape.length cs).idxOf ax < N
    · rw [List.getElem?_range hq, Option.map_some, Option.map_some, h _ hq]
    · rw [List.getElem?_eq_none (by simpa using hq)]
      rfl

theorem pos_coords {loop : List δ} (rest : List δ) (c : δ → ℕ) :
    ∀ p < loop.length, pos (loop ++ rest) c p = coordsAlong loop c p := by
  intro p hp
  rw [pos_lt (by simp; omega), List.getElem_append_left hp]
  unfold coordsAlong
  rw [List.getElem?_eq_getElem hp]
  rfl

theorem tailAxes_one (n : ℕ) : tailAxes n 1 = [n - 1] := rfl

theorem tailAxes_succ {n m : ℕ} (h : m + 1 ≤ n) :
    tailAxes n (m + 1) = (n - (m + 1)) :: tailAxes n m := by
  unfold tailAxes
  rw [List.range_succ_eq_map, List.map_cons, List.map_map]
  congr 1
  refine List.map_congr_left fun j _ => ?_
  simp only [Function.comp]
  omega

/-- An operand with the samples on its last axis. -/
structure LastFit (a : Nd.Arr K) (n : ℕ) (shape : List ℕ) : Prop where
  one : 1 ≤ a.shape.length
  last : axisSize a (a.shape.length - 1) = n
  fits : FitsInto (a.shape.take (a.shape.length - 1)) shape

theorem pushValsFrom_ok (val : List K → V) {core : Nd.Core K M} (hc : core.Ok)
    (fam : List ℕ → Kernel K V M) {obj : Nd.Arr (Option K)} (hp : obj.Proper)
    (hn : core.nd ≤ obj.shape.length) {x w : Nd.Arr K} {ys : List (Nd.Arr K)} {n : ℕ}
    (hf : ∀ a ∈ x :: w :: ys, LastFit a n (valShape core obj)) :
    ∃ obj', pushValsFrom val core fam obj (x :: w :: ys) = .ok obj' ∧
      Updated core obj obj' (fun i r => (fam (momShape core obj)).reduceVals
        ((List.range n).map (fun s =>
          (val ((x :: ys).map (fun a => matched a (tailAxes a.shape.length 1)
            (List.range (valRank core obj)) i [s])),
          matched w (tailAxes w.shape.length 1) (List.range (valRank core obj)) i [s]))) r) := by
  have hsz : Nd.sizeOf x (-1) = n := by
    have h := hf x (by simp)
    have := h.one
    unfold Nd.sizeOf
    rw [if_pos (by omega), ← h.last]
    unfold axisSize
    congr 1
    omega
  have hops : Nd.sampleOperands ((x :: w :: ys).map (fun a => (a, (-1 : ℤ)))) n
      = .ok ((x :: w :: ys).map (fun a => (a, a.shape.length - 1))) := by
    unfold Nd.sampleOperands
    rw [List.mapM_map, Nd.mapM_ok_of_forall _ (fun a => (a, a.shape.length - 1))]
    · simp only [Except.bind]
      rw [if_pos]
      rw [List.all_eq_true]
      intro o ho
      obtain ⟨a, ha, rfl⟩ := List.mem_map.1 ho
      exact decide_eq_true (hf a ha).last
    · intro a ha
      have h1 := (hf a ha).one
      have hr : InRange a.shape.length (-1) := by unfold InRange; omega
      show (Nd.coreAxes a.shape.length [-1]).map _ = _
      rw [Nd.coreAxes_ok (by simpa using hr) (by simp)]
      simp only [Except.map, List.map_cons, List.headD_cons]
      congr 2
      have := Nd.wrap_neg hr (by omega)
      omega
  obtain ⟨obj', e1, e2⟩ := Nd.pushInto_ok hc hp hn (want := none) (by simp)
    (extra := ((x :: w :: ys).map (fun a => (a, a.shape.length - 1))).map
      (fun o => o.1.loopShape [o.2])) (by
      intro t ht
      rw [List.map_map] at ht
      obtain ⟨a, ha, rfl⟩ := List.mem_map.1 ht
      have := Nd.loopShape_tail a (hf a ha).one
      rw [tailAxes_one] at this
      simp only [Function.comp]
      rw [this]
      exact (hf a ha).fits)
    (fun sizes L l r => (fam sizes).reduceVals (Nd.samplesAt val
      ((x :: w :: ys).map (fun a => (a, a.shape.length - 1))) n L l) r)
  refine ⟨obj', ?_, ?_⟩
  · unfold pushValsFrom
    simp only [List.headD_cons, hsz]
    rw [hops]
    exact e1
  · have hrd : ∀ (a : Nd.Arr K) (i : ℕ → ℕ) (s : ℕ), a.read [a.shape.length - 1] (valRank core obj)
        (along (List.range (valRank core obj)) i) [s]
        = matched a (tailAxes a.shape.length 1) (List.range (valRank core obj)) i [s] := by
      intro a i s
      have := Nd.read_matched a (tailAxes a.shape.length 1) (List.range (valRank core obj)) i [s]
      rwa [List.length_range] at this
    have hsm : ∀ i, Nd.samplesAt val ((x :: w :: ys).map (fun a => (a, a.shape.length - 1))) n
        (valRank core obj) (along (List.range (valRank core obj)) i)
        = (List.range n).map (fun s =>
          (val ((x :: ys).map (fun a => matched a (tailAxes a.shape.length 1)
            (List.range (valRank core obj)) i [s])),
          matched w (tailAxes w.shape.length 1) (List.range (valRank core obj)) i [s])) := by
      intro i
      simp only [List.map_cons, Nd.samplesAt, List.map_map]
      refine List.map_congr_left fun s _ => ?_
      rw [hrd, hrd]
      congr 3
      refine List.map_congr_left fun a _ => ?_
      exact hrd a i s
    simpa only [hsm] using e2

theorem pushDatasFrom_ok {core : Nd.Core K M} (hc : core.Ok)
    (fam : List ℕ → Kernel K V M) {obj : Nd.Arr (Option K)} (hp : obj.Proper)
    (hn : core.nd ≤ obj.shape.length) {d : Nd.Arr K} (hd : core.nd + 1 ≤ d.shape.length)
    (hm : d.shape.drop (d.shape.length - core.nd) = momShape core obj)
    (hf : FitsInto (d.shape.take (d.shape.length - (core.nd + 1))) (valShape core obj)) :
    ∃ obj', pushDatasFrom core fam obj d = .ok obj' ∧
      Updated core obj obj' (fun i r => (fam (momShape core obj)).reduceData
        ((List.range (axisSize d (d.shape.length - (core.nd + 1)))).map (fun s =>
          core.recd (fun ms => matched d (tailAxes d.shape.length (core.nd + 1))
            (List.range (valRank core obj)) i (s :: ms)))) r) := by
  have htl : (tailAxes d.shape.length (core.nd + 1)).tail = tailAxes d.shape.length core.nd := by
    rw [tailAxes_succ hd, List.tail_cons]
  obtain ⟨obj', e1, e2⟩ := Nd.pushInto_ok hc hp hn
    (want := some ((tailAxes d.shape.length (core.nd + 1)).tail.map (fun a => d.shape.getD a 0)))
    (by intro s hs
        obtain rfl := Option.some.inj (Option.mem_def.1 hs)
        rw [htl, Nd.map_getD_drop _ _ (by omega), hm])
    (extra := [d.loopShape (tailAxes d.shape.length (core.nd + 1))])
    (by intro t ht
        obtain rfl := List.mem_singleton.1 ht
        rw [Nd.loopShape_tail d hd]
        exact hf)
    (fun sizes L l r => (fam sizes).reduceData
      (Nd.recordsAt core d (tailAxes d.shape.length (core.nd + 1)) L l) r)
  refine ⟨obj', ?_, ?_⟩
  · unfold pushDatasFrom
    rw [Nd.lastAxes_ok hd]
    exact e1
  · have hr : ∀ i, Nd.recordsAt core d (tailAxes d.shape.length (core.nd + 1)) (valRank core obj)
        (along (List.range (valRank core obj)) i)
        = (List.range (axisSize d (d.shape.length - (core.nd + 1)))).map (fun s =>
          core.recd (fun ms => matched d (tailAxes d.shape.length (core.nd + 1))
            (List.range (valRank core obj)) i (s :: ms))) := by
      intro i
      unfold Nd.recordsAt
      have hh : (tailAxes d.shape.length (core.nd + 1)).headD 0
          = d.shape.length - (core.nd + 1) := by
        rw [tailAxes_succ hd, List.headD_cons]
      rw [hh]
      refine List.map_congr_left fun s _ => ?_
      congr 1
      funext ms
      have := Nd.read_matched d (tailAxes d.shape.length (core.nd + 1))
        (List.range (valRank core obj)) i (s :: ms)
      rwa [List.length_range] at this
    simpa only [hr] using e2

/-- Reading the last axis, in two ways. -/
theorem matched_operandAt {a : Nd.Arr K} (hp : a.Proper) (h1 : 1 ≤ a.shape.length) {N : ℕ}
    (hN : a.shape.length ≤ N + 1) (i : ℕ → ℕ) (s : ℕ) :
    matched a (tailAxes a.shape.length 1) (List.range N) i [s] = operandAt a (N + 1) N i s := by
  unfold matched operandAt
  rw [if_neg (by omega)]
  have hk : keptAxes a.shape.length (tailAxes a.shape.length 1) = List.range (a.shape.length - 1) :=
    Nd.keptAxes_tail h1
  split_ifs with h
  · refine hp _ _ fun p hp' => ?_
    rw [tailAxes_one, if_pos (by simp; omega)]
    rw [show p = a.shape.length - 1 by omega]
    simp
  · refine hp _ _ fun p hp' => ?_
    rw [hk, tailAxes_one]
    by_cases e : p = a.shape.length - 1
    · rw [if_pos (by simp [e]), if_pos (by omega), e]
      simp
    · rw [if_neg (by simpa using e)]
      have hne : p + (N + 1 - a.shape.length) ≠ N := by omega
      by_cases h4 : axisSize a p = 1
      · rw [if_pos h4, if_neg hne, if_pos h4]
      · rw [if_neg h4, if_neg hne, if_neg h4, Nd.idxOf_range (by omega), List.length_range, List.length_range, List.getElem?_drop,
          List.getElem?_range (by omega)]
        simp only [Option.map_some, Option.getD_some]
        congr 1
        omega

theorem pushDatasNd_from {core : Nd.Core K M} (fam : List ℕ → Kernel K V M)
    {d : Nd.Arr K} {z : ℤ} {mom : Option (List ℤ)}
    (g : GoodDatas core.nd d z mom) :
    ∃ p, Nd.prepareData d (.int z) (mom.getD (Nd.axesLast core.nd)) core.nd true = .ok p ∧
      (mom.getD (Nd.axesLast core.nd)).length = core.nd ∧
      ∀ obj, Nd.pushDatasNd core fam obj d (.int z) mom = pushDatasFrom core fam obj p.2.2 := by
  have ga := g.axis
  have hm := Nd.momAxesOf_eq (n := d.shape.length) g.room mom
  have hml : (mom.getD (Nd.axesLast core.nd)).length = core.nd := by
    have := g.momLength
    rw [← hm, List.length_map] at this
    exact this
  obtain ⟨zp, momp, b, e1, P⟩ := Nd.prepareData_ok ga hml true
  have e2 := Nd.prepareData_axes e1
  simp only at e2
  subst e2
  have e3 : zp = (d.shape.length : ℤ) - (core.nd + 1) := by
    unfold Nd.prepareData at e1
    obtain ⟨ax, _, h2⟩ := Nd.Except_bind_ok e1
    simp only [if_true] at h2
    cases hb : d.moveaxisInt ((ax : ℤ) :: mom.getD (Nd.axesLast core.nd))
        (((d.shape.length : ℤ) - (core.nd + 1)) :: Nd.axesLast core.nd) with
    | error e => rw [hb] at h2; cases h2
    | ok b => rw [hb] at h2; cases h2; rfl
  have hlen := P.len
  have hroom : core.nd + 1 ≤ b.shape.length := by
    have hsub : wrap d.shape.length z :: momAxesOf d.shape.length core.nd mom
        ⊆ List.range d.shape.length := by
      intro a ha
      rw [List.mem_range]
      rcases List.mem_cons.1 ha with rfl | ha
      · exact P.axn
      · exact P.momn a (by rw [hm]; exact ha)
    have := (List.Nodup.subperm g.distinct hsub).length_le
    rw [List.length_cons, g.momLength, List.length_range] at this
    omega
  have hcore : Nd.coreAxes b.shape.length (zp :: Nd.axesLast core.nd)
      = Nd.lastAxes b.shape.length (core.nd + 1) := by
    rw [Nd.lastAxes_ok hroom, Nd.coreAxes_ok, List.map_cons, Nd.axesLast_wrap' (by omega),
      tailAxes_succ hroom]
    · congr 2
      have := Nd.wrap_nonneg (n := b.shape.length) (z := zp) P.good.range (by omega)
      omega
    · intro y hy
      rcases List.mem_cons.1 hy with rfl | hy
      · exact P.good.range
      · exact P.good.momRange y hy
    · rw [List.map_cons]
      exact List.nodup_cons.2 ⟨P.good.notMom, P.good.momDistinct⟩
  refine ⟨_, e1, hml, fun obj => ?_⟩
  unfold Nd.pushDatasNd pushDatasFrom
  rw [if_neg (by simpa using hml), e1]
  simp only [Except.bind, hcore]

end Gufuncs

section Methods

variable {K V M : Type} [Field K] [DecidableEq K]
variable {core : Nd.Core K M} {obj : DataArray δ (Option K)} {moms : List δ}

theorem _root_.Cmomy.Spec.UpdatedNamed.congr {obj' : DataArray δ (Option K)}
    {f g : (δ → ℕ) → M → Option M} (h : UpdatedNamed core moms obj obj' f)
    (e : ∀ c, InLabelled obj moms c → ∀ r, f c r = g c r) : UpdatedNamed core moms obj obj' g := by
  refine ⟨h.dims, h.size, fun c hc => ?_, fun c hc => ?_⟩
  · rw [h.cell c hc]
    congr 1
    funext r
    exact e c hc r
  · rw [h.entry c hc]
    congr 2
    funext r
    exact e c hc r

theorem mem_valDims {L : Type} {obj : DataArray δ L} {d : δ} :
    d ∈ valDims obj moms ↔ d ∈ obj.dims ∧ d ∉ moms := by
  unfold valDims
  rw [List.mem_filter, decide_eq_true_eq]

theorem number_opOk (g : LabelledObject obj moms core.nd) {o : Operand δ K}
    (h : GoodNumber (valDims obj moms) obj.size o) :
    OpOk (valDims obj moms) obj.size (o, []) := by
  refine ⟨by simpa using (valDims_nodup g).of_append_left, fun y hy => ?_⟩
  simp only at hy
  subst hy
  exact ⟨h.1, by simp, fun d hd => ⟨by simpa using (h.2 d hd).1, (h.2 d hd).2⟩⟩

theorem number_fits (g : LabelledObject obj moms core.nd) {o : Operand δ K}
    (h : GoodNumber (valDims obj moms) obj.size o) :
    FitsInto (arrayAs (valDims obj moms) (o, [])).shape ((valDims obj moms).map obj.size) ∧
    ∀ c, InLabelled obj moms c →
      numberAt (arrayAs (valDims obj moms) (o, [])) (valDims obj moms).length
        (pos (valDims obj moms ++ moms) c) = numberFrom (valDims obj moms) c o := by
  cases o with
  | plain a =>
    exact ⟨h, fun c _ => matched_congr_range a [] (pos_coords moms c) []⟩
  | named y =>
    obtain ⟨a, h1, -, -, -, -, h6, -⟩ := arranged_as y (cs := []) (loop := valDims obj moms)
      (by simpa using (valDims_nodup g).of_append_left) h.1 (by simp)
      (fun d hd => by simpa using (h.2 d hd).1)
    obtain ⟨f1, f2⟩ := h6 obj.size fun d hd _ => (h.2 d hd).2
    rw [arrayAs_named h1]
    refine ⟨by simpa using f1, fun c hc => ?_⟩
    have := f2 c hc moms []
    have e : withNames [] [] c = c := by funext d; simp [withNames]
    rw [e] at this
    exact this

/-- `push_val` at the coordinates of the object. -/
theorem pushValX_updated (val : List K → V) (hc : core.Ok) (fam : List ℕ → Kernel K V M)
    (g : LabelledObject obj moms core.nd) {x w : Operand δ K} {ys : List (Operand δ K)}
    (hy : ys.length + 1 = core.nd)
    (ho : ∀ o ∈ x :: w :: ys, GoodNumber (valDims obj moms) obj.size o) :
    ∃ obj', pushValX val core fam moms obj x w ys = .ok obj' ∧
      UpdatedNamed core moms obj obj' (fun c r => (fam (moms.map obj.size)).pushVal
        (val ((x :: ys).map (numberFrom (valDims obj moms) c)))
        (numberFrom (valDims obj moms) c w) r) := by
  have key := pushX_updated (core := core) g (size := obj.size) (fun _ _ => rfl)
    (ops := (x :: w :: ys).map (fun o => (o, []))) (by
      intro o h
      obtain ⟨o', ho', rfl⟩ := List.mem_map.1 h
      exact number_opOk g (ho o' ho'))
    (f := fun out as => match as with
      | a :: b :: cs => Nd.pushValNd val core fam out a b cs
      | _ => .error .typeError)
    (F := fun i r => (fam (moms.map obj.size)).pushVal
      (val (((x :: ys).map (fun o => arrayAs (valDims obj moms) (o, []))).map
        (fun a => numberAt a (valDims obj moms).length i)))
      (numberAt (arrayAs (valDims obj moms) (w, [])) (valDims obj moms).length i) r) (by
      intro out h1 h2 h3 h4 h5
      obtain ⟨o', e1, e2⟩ := Nd.pushValNd_ok val hc fam h1 h2
        (x := arrayAs (valDims obj moms) (x, [])) (w := arrayAs (valDims obj moms) (w, []))
        (ys := ys.map (fun o => arrayAs (valDims obj moms) (o, []))) (by simpa using hy) (by
          intro a ha
          rw [← List.map_cons (f := fun o => arrayAs (valDims obj moms) (o, [])),
            ← List.map_cons (f := fun o => arrayAs (valDims obj moms) (o, []))] at ha
          obtain ⟨o, ho', rfl⟩ := List.mem_map.1 ha
          rw [h4]
          exact (number_fits g (ho o ho')).1)
      rw [h3, h5] at e2
      refine ⟨o', ?_, e2⟩
      rw [← e1, List.map_map]
      rfl)
  obtain ⟨obj', e1, e2⟩ := key
  refine ⟨obj', ?_, e2.congr fun c hcc r => ?_⟩
  · unfold pushValX
    rw [if_neg (by omega)]
    exact e1
  · rw [(number_fits g (ho w (by simp))).2 c hcc, List.map_map]
    congr 2
    refine List.map_congr_left fun o ho' => ?_
    refine (number_fits g (ho o ?_)).2 c hcc
    rcases List.mem_cons.1 ho' with rfl | h
    · simp
    · simp [h]

theorem record_opOk (g : LabelledObject obj moms core.nd) {o : Operand δ K}
    (h : GoodRecord core moms (valDims obj moms) obj.size o) :
    OpOk (valDims obj moms) obj.size (o, moms) := by
  refine ⟨valDims_nodup g, fun y hy => ?_⟩
  simp only at hy
  subst hy
  exact h

theorem record_fits (hc : core.Ok) (g : LabelledObject obj moms core.nd) {o : Operand δ K}
    (h : GoodRecord core moms (valDims obj moms) obj.size o) :
    core.nd ≤ (arrayAs (valDims obj moms) (o, moms)).shape.length ∧
    momShape core (arrayAs (valDims obj moms) (o, moms)) = moms.map obj.size ∧
    FitsInto (valShape core (arrayAs (valDims obj moms) (o, moms)))
      ((valDims obj moms).map obj.size) ∧
    ∀ c, InLabelled obj moms c →
      dataRecord core (arrayAs (valDims obj moms) (o, moms)) (valDims obj moms).length
        (pos (valDims obj moms ++ moms) c) = recordFrom core moms (valDims obj moms) c o := by
  cases o with
  | plain a =>
    refine ⟨h.1, h.2.1, h.2.2, fun c _ => ?_⟩
    refine congrArg core.recd (funext fun ms => ?_)
    exact matched_congr_range a _ (pos_coords moms c) ms
  | named y =>
    obtain ⟨a, h1, -, h3, h4, -, h6, -⟩ := arranged_as y (valDims_nodup g) h.1 h.2.1
      (fun d hd => (h.2.2 d hd).1)
    obtain ⟨f1, f2⟩ := h6 obj.size fun d hd _ => (h.2.2 d hd).2
    rw [arrayAs_named h1]
    have hm : moms.map y.size = moms.map obj.size :=
      List.map_congr_left fun d hd => (h.2.2 d (h.2.1 d hd)).2
    rw [g.momCount] at h3 h4 f1 f2
    refine ⟨h3, h4.trans hm, f1, fun c hcc => ?_⟩
    refine congrArg core.recd (funext fun ms => ?_)
    exact f2 c hcc moms ms

/-- `push_data` at the coordinates of the object. -/
theorem pushDataX_updated (hc : core.Ok) (fam : List ℕ → Kernel K V M)
    (g : LabelledObject obj moms core.nd) {d : Operand δ K}
    (hd : GoodRecord core moms (valDims obj moms) obj.size d) :
    ∃ obj', pushDataX core fam moms obj d none = .ok obj' ∧
      UpdatedNamed core moms obj obj' (fun c r => (fam (moms.map obj.size)).pushData
        (recordFrom core moms (valDims obj moms) c d) r) := by
  obtain ⟨h1, h2, h3, h4⟩ := record_fits hc g hd
  obtain ⟨obj', e1, e2⟩ := pushX_updated (core := core) g (size := obj.size) (fun _ _ => rfl)
    (ops := [(d, moms)]) (by
      intro o h
      obtain rfl := List.mem_singleton.1 h
      exact record_opOk g hd)
    (f := fun out as => match as with
      | [d] => Nd.pushDataNd core fam out d none
      | _ => .error .typeError)
    (F := fun i r => (fam (moms.map obj.size)).pushData
      (dataRecord core (arrayAs (valDims obj moms) (d, moms)) (valDims obj moms).length i) r) (by
      intro out g1 g2 g3 g4 g5
      obtain ⟨o', e1, e2⟩ := Nd.pushDataNd_ok hc fam g1 g2 h1 (h2.trans g5.symm) (by rw [g4]; exact h3)
      rw [g3, g5] at e2
      exact ⟨o', e1, e2⟩)
  exact ⟨obj', e1, e2.congr fun c hcc r => by rw [h4 c hcc]⟩

/-- `push_data` with a scale. -/
theorem pushDataX_scale_updated (hc : core.Ok) (fam : List ℕ → Kernel K V M)
    (g : LabelledObject obj moms core.nd) {d : Operand δ K} {s : Nd.Arr K}
    (hd : GoodRecord core moms (valDims obj moms) obj.size d)
    (hs : FitsInto s.shape ((valDims obj moms).map obj.size)) :
    ∃ obj', pushDataX core fam moms obj d (some s) = .ok obj' ∧
      UpdatedNamed core moms obj obj' (fun c r => (fam (moms.map obj.size)).pushScale
        (recordFrom core moms (valDims obj moms) c d)
        (numberAt s (valDims obj moms).length (coordsAlong (valDims obj moms) c)) r) := by
  obtain ⟨h1, h2, h3, h4⟩ := record_fits hc g hd
  obtain ⟨obj', e1, e2⟩ := pushX_updated (core := core) g (size := obj.size) (fun _ _ => rfl)
    (ops := [(d, moms)]) (by
      intro o h
      obtain rfl := List.mem_singleton.1 h
      exact record_opOk g hd)
    (f := fun out as => match as with
      | [d] => Nd.pushDataNd core fam out d (some s)
      | _ => .error .typeError)
    (F := fun i r => (fam (moms.map obj.size)).pushScale
      (dataRecord core (arrayAs (valDims obj moms) (d, moms)) (valDims obj moms).length i)
      (numberAt s (valDims obj moms).length i) r) (by
      intro out g1 g2 g3 g4 g5
      obtain ⟨o', e1, e2⟩ := Nd.pushDataNd_scale_ok hc fam g1 g2 h1 (h2.trans g5.symm)
        (by rw [g4]; exact h3) (c := s) (by rw [g4]; exact hs)
      rw [g3, g5] at e2
      exact ⟨o', e1, e2⟩)
  refine ⟨obj', e1, e2.congr fun c hcc r => ?_⟩
  rw [h4 c hcc, show numberAt s (valDims obj moms).length (pos (valDims obj moms ++ moms) c)
    = numberAt s (valDims obj moms).length (coordsAlong (valDims obj moms) c)
    from matched_congr_range s [] (pos_coords moms c) []]

/-- `push_datas` with labelled data. -/
theorem pushDatasX_updated (hc : core.Ok) (fam : List ℕ → Kernel K V M)
    (g : LabelledObject obj moms core.nd) {d : DataArray δ K} {axis : Option (Option AxisArg)}
    {dim : Option (Option δ)} {dm : δ} (hsel : Chosen d.dims moms axis dim dm)
    (hd : GoodDatasNamed obj moms d dm) :
    ∃ obj', pushDatasX core fam moms obj d axis dim = .ok obj' ∧
      UpdatedNamed core moms obj obj' (fun c r => (fam (moms.map obj.size)).reduceData
        (recordsAlong core d moms dm c) r) := by
  have hnm : dm ∉ moms := fun h => hd.fresh (g.momPresent dm h)
  have hnv : dm ∉ valDims obj moms := fun h => hd.fresh (mem_valDims.1 h).1
  have hn : (valDims obj moms ++ dm :: moms).Nodup := by
    rw [List.nodup_append'] at *
    obtain ⟨n1, n2, n3⟩ := List.nodup_append'.1 (valDims_nodup g)
    refine ⟨n1, List.nodup_cons.2 ⟨hnm, n2⟩, fun e h1 h2 => ?_⟩
    rcases List.mem_cons.1 h2 with rfl | h2
    · exact hnv h1
    · exact n3 h1 h2
  have hin : ∀ e ∈ d.dims, e ∈ valDims obj moms ++ dm :: moms := by
    intro e he
    rcases hd.within e he with rfl | ⟨h, -⟩
    · simp
    · rcases List.mem_append.1 h with h | h
      · exact List.mem_append_left _ h
      · exact List.mem_append_right _ (List.mem_cons_of_mem _ h)
  have hcs : ∀ e ∈ dm :: moms, e ∈ d.dims := by
    intro e he
    rcases List.mem_cons.1 he with rfl | he
    · exact hd.present
    · exact hd.momPresent e he
  obtain ⟨a, h1, -, h3, h4, -, h6, -⟩ := arranged_as d hn hd.distinct hcs hin
  have hsz : ∀ e ∈ d.dims, e ≠ dm → d.size e = obj.size e := fun e he hne =>
    ((hd.within e he).resolve_left hne).2
  obtain ⟨f1, f2⟩ := h6 obj.size fun e he hl => hsz e he (fun h => hnv (h ▸ hl))
  have hl : (dm :: moms).length = core.nd + 1 := by simp [g.momCount]
  rw [hl] at h3 h4 f1 f2
  have hlen : a.shape.length - core.nd = a.shape.length - (core.nd + 1) + 1 := by omega
  have hm : a.shape.drop (a.shape.length - core.nd) = moms.map obj.size := by
    rw [hlen, ← List.drop_drop, h4]
    exact List.map_congr_left fun e he => hsz e (hd.momPresent e he) (fun h => hnm (h ▸ he))
  have hcount : axisSize a (a.shape.length - (core.nd + 1)) = d.size dm := by
    unfold axisSize
    have := congrArg (fun l => l.getD 0 0) h4
    simp only [List.map_cons, List.getD_cons_zero] at this
    rw [← this, List.getD_eq_getElem?_getD, List.getD_eq_getElem?_getD, List.getElem?_drop]
    rfl
  have hne : ∀ e ∈ obj.dims, e ≠ dm := fun e he h => hd.fresh (h ▸ he)
  obtain ⟨obj', e1, e2⟩ := pushX_updated (core := core) g
    (size := Function.update obj.size dm (d.size dm)) (fun e he =>
      (Function.update_of_ne (hne e he) _ _).symm)
    (ops := [(.named d, dm :: moms)]) (by
      intro o h
      obtain rfl := List.mem_singleton.1 h
      refine ⟨hn, fun y hy => ?_⟩
      obtain rfl : d = y := by simpa using hy
      refine ⟨hd.distinct, hcs, fun e he => ⟨hin e he, ?_⟩⟩
      by_cases h : e = dm
      · rw [h, Function.update_self]
      · rw [Function.update_of_ne h, hsz e he h])
    (f := single (pushDatasFrom core fam))
    (F := fun i r => (fam (moms.map obj.size)).reduceData
      ((List.range (d.size dm)).map (fun s => core.recd (fun ms =>
        matched a (tailAxes a.shape.length (core.nd + 1)) (List.range (valDims obj moms).length) i
          (s :: ms)))) r) (by
      intro out g1 g2 g3 g4 g5
      obtain ⟨o', e1, e2⟩ := pushDatasFrom_ok hc fam g1 g2 h3 (hm.trans g5.symm) (by rw [g4]; exact f1)
      rw [g3, g5, hcount] at e2
      refine ⟨o', ?_, e2⟩
      rw [List.map_cons, List.map_nil, arrayAs_named h1]
      exact e1)
  refine ⟨obj', ?_, e2.congr fun c hcc r => ?_⟩
  · unfold pushDatasX
    rw [selectAxisDim_ok hd.distinct hd.present hnm hsel]
    exact e1
  · unfold recordsAlong
    congr 1
    refine List.map_congr_left fun s _ => ?_
    refine congrArg core.recd (funext fun ms => ?_)
    rw [f2 c hcc]
    refine entry_congr d fun e he => ?_
    unfold withNames
    by_cases h : e = dm
    · subst h
      rw [if_pos (by simp), if_neg hnm, Function.update_self]
      simp
    · by_cases hem : e ∈ moms
      · rw [if_pos (by simp [hem]), if_pos hem, List.idxOf_cons_ne _ (Ne.symm h),
          List.getD_cons_succ]
      · rw [if_neg (by simp [h, hem]), if_neg hem, Function.update_of_ne h]

/-- `push_datas` with plain data. -/
theorem pushDatasPlainX_updated (hc : core.Ok) (fam : List ℕ → Kernel K V M)
    (g : LabelledObject obj moms core.nd) {d : Nd.Arr K} {z : ℤ} {mom : Option (List ℤ)}
    (hd : GoodDatas core.nd d z mom)
    (hm : (momAxesOf d.shape.length core.nd mom).map (axisSize d) = moms.map obj.size)
    (hf : FitsInto (freeShape d (wrap d.shape.length z :: momAxesOf d.shape.length core.nd mom))
      ((valDims obj moms).map obj.size)) :
    ∃ obj', pushDatasPlainX core fam moms obj d (.int z) mom = .ok obj' ∧
      UpdatedNamed core moms obj obj' (fun c r => (fam (moms.map obj.size)).reduceData
        ((List.range (sampleCount d z)).map (datasRecord core d z mom (valDims obj moms).length
          (coordsAlong (valDims obj moms) c))) r) := by
  obtain ⟨p, h1, h2, h3⟩ := pushDatasNd_from fam hd
  obtain ⟨obj', e1, e2⟩ := pushX_updated (core := core) g (size := obj.size) (fun _ _ => rfl)
    (ops := [(.plain p.2.2, [])]) (by
      intro o h
      obtain rfl := List.mem_singleton.1 h
      refine ⟨by simpa using (valDims_nodup g).of_append_left, fun y hy => ?_⟩
      cases hy)
    (f := single (pushDatasFrom core fam))
    (F := fun i r => (fam (moms.map obj.size)).reduceData
        ((List.range (sampleCount d z)).map (datasRecord core d z mom (valDims obj moms).length i)) r)
    (by
      intro out g1 g2 g3 g4 g5
      obtain ⟨o', e1, e2⟩ := Nd.pushDatasNd_ok hc fam g1 g2 hd (hm.trans g5.symm) (by rw [g4]; exact hf)
      rw [g3, g5] at e2
      exact ⟨o', (h3 out).symm.trans e1, e2⟩)
  refine ⟨obj', ?_, e2.congr fun c hcc r => ?_⟩
  · unfold pushDatasPlainX
    rw [if_neg (by simpa using h2), h1]
    exact e1
  · congr 1
    refine List.map_congr_left fun s _ => ?_
    refine congrArg core.recd (funext fun ms => ?_)
    exact matched_congr_range d _ (pos_coords moms c) _

/-- `push_vals` with plain values. -/
theorem pushValsPlainX_updated (val : List K → V) (hc : core.Ok) (fam : List ℕ → Kernel K V M)
    (g : LabelledObject obj moms core.nd) {x : Nd.Arr K} {w : Operand δ K} {ys : List (Operand δ K)}
    {z : ℤ} (hy : ys.length + 1 = core.nd)
    (hg : GoodPush x (w.asArray :: ys.map Operand.asArray) z ((valDims obj moms).map obj.size)) :
    ∃ obj', pushValsPlainX val core fam moms obj x w ys (.int z) = .ok obj' ∧
      UpdatedNamed core moms obj obj' (fun c r => (fam (moms.map obj.size)).reduceVals
        (valsSamples val x w.asArray (ys.map Operand.asArray) z (valDims obj moms).length
          (coordsAlong (valDims obj moms) c)) r) := by
  have hprep : ∃ p, Nd.prepareValues x (w.asArray :: ys.map Operand.asArray) (core.nd + 1) (.int z)
      true = .ok p := by
    rw [show core.nd + 1 = (w.asArray :: ys.map Operand.asArray).length + 1 by simp [hy]]
    exact ⟨_, Nd.prepareValues_last hg.range hg.usable⟩
  obtain ⟨p, hp⟩ := hprep
  have hfrom : ∀ out, Nd.pushValsNd val core fam out x w.asArray (ys.map Operand.asArray) (.int z)
      = pushValsFrom val core fam out (p.2.1 :: p.2.2) := by
    intro out
    unfold Nd.pushValsNd
    rw [hp]
    rfl
  obtain ⟨obj', e1, e2⟩ := pushX_updated (core := core) g (size := obj.size) (fun _ _ => rfl)
    (ops := (p.2.1 :: p.2.2).map (fun a => (.plain a, []))) (by
      intro o h
      obtain ⟨a, -, rfl⟩ := List.mem_map.1 h
      refine ⟨by simpa using (valDims_nodup g).of_append_left, fun y hy => ?_⟩
      cases hy)
    (f := pushValsFrom val core fam)
    (F := fun i r => (fam (moms.map obj.size)).reduceVals
        (valsSamples val x w.asArray (ys.map Operand.asArray) z (valDims obj moms).length i) r)
    (by
      intro out g1 g2 g3 g4 g5
      obtain ⟨o', e1, e2⟩ := Nd.pushValsNd_ok val hc fam g1 g2 (x := x) (w := w.asArray)
        (ys := ys.map Operand.asArray) (z := z) (by simpa using hy) (by rw [g4]; exact hg)
      rw [g3, g5] at e2
      refine ⟨o', ?_, e2⟩
      rw [List.map_map]
      have : (arrayAs (valDims obj moms) ∘ fun a : Nd.Arr K => (Operand.plain a, []))
          = id := rfl
      rw [this, List.map_id, ← hfrom]
      exact e1)
  refine ⟨obj', ?_, e2.congr fun c hcc r => ?_⟩
  · unfold pushValsPlainX
    rw [hp]
    exact e1
  · congr 1
    have hfe := (Nd.fromEnd_facts hg.range)
    have hle : fromEnd x z ≤ (valDims obj moms).length + 1 := by
      have := hg.fits.1
      rw [Nd.freeShape_single_length (wrap_lt hg.range), List.length_map] at this
      omega
    have hidx : ∀ q < (valDims obj moms).length + 1,
        q ≠ (valDims obj moms).length + 1 - fromEnd x z →
        openIdx ((valDims obj moms).length + 1 - fromEnd x z) (pos (valDims obj moms ++ moms) c) q
          = openIdx ((valDims obj moms).length + 1 - fromEnd x z)
            (coordsAlong (valDims obj moms) c) q := by
      intro q hq hne
      unfold openIdx
      split_ifs with h
      · exact pos_coords moms c q (by omega)
      · exact pos_coords moms c (q - 1) (by omega)
    have hop : ∀ a ∈ x :: w.asArray :: ys.map Operand.asArray, ∀ s,
        operandAt a ((valDims obj moms).length + 1) ((valDims obj moms).length + 1 - fromEnd x z)
          (openIdx ((valDims obj moms).length + 1 - fromEnd x z)
            (pos (valDims obj moms ++ moms) c)) s
        = operandAt a ((valDims obj moms).length + 1) ((valDims obj moms).length + 1 - fromEnd x z)
          (openIdx ((valDims obj moms).length + 1 - fromEnd x z)
            (coordsAlong (valDims obj moms) c)) s := by
      intro a ha s
      have hpa : a.Proper ∧ a.shape.length ≤ (valDims obj moms).length + 1 := by
        rcases List.mem_cons.1 ha with rfl | ha
        · refine ⟨hg.proper, ?_⟩
          have := hg.fits.1
          rw [Nd.freeShape_single_length (wrap_lt hg.range), List.length_map] at this
          omega
        · have hu := hg.usable a ha
          refine ⟨hu.1, ?_⟩
          by_cases h2 : 2 ≤ a.shape.length
          · have := (hg.fitsOthers a ha h2).1
            rw [Nd.freeShape_single_length (by omega), List.length_map] at this
            omega
          · omega
      exact operandAt_congr_ne hpa.1 hpa.2 (fun q hq hne => hidx q hq hne) s
    unfold valsSamples samplesOver
    refine List.map_congr_left fun s _ => ?_
    rw [hop _ (by simp)]
    congr 2
    refine List.map_congr_left fun a ha => hop a ?_ s
    rcases List.mem_cons.1 ha with rfl | ha
    · simp
    · exact List.mem_cons_of_mem _ (List.mem_cons_of_mem _ ha)

theorem update_withNames (dm : δ) (s : ℕ) (c : δ → ℕ) :
    withNames [dm] [s] c = Function.update c dm s := by
  funext e
  unfold withNames
  by_cases h : e = dm
  · subst h
    rw [if_pos (by simp), Function.update_self]
    simp
  · rw [if_neg (by simp [h]), Function.update_of_ne h]

theorem vals_facts (g : LabelledObject obj moms core.nd) {x : DataArray δ K}
    {others : List (Operand δ K)} {dm : δ} (hg : GoodVals obj moms x others dm) :
    dm ∉ valDims obj moms ∧ (valDims obj moms ++ [dm]).Nodup ∧ x.dims.Nodup ∧ dm ∈ x.dims ∧
      1 ≤ nameFromEnd x dm ∧ nameFromEnd x dm ≤ (valDims obj moms).length + 1 := by
  have hnv : dm ∉ valDims obj moms := fun h => hg.fresh (mem_valDims.1 h).1
  have hn : (valDims obj moms ++ [dm]).Nodup := by
    refine List.nodup_append'.2 ⟨(valDims_nodup g).of_append_left, by simp, fun e h1 h2 => ?_⟩
    obtain rfl := List.mem_singleton.1 h2
    exact hnv h1
  obtain ⟨hx1, hx2, hx3⟩ := hg.good (.named x) (by simp)
  obtain ⟨f1, f2, -⟩ := nameFromEnd_facts hx2
  refine ⟨hnv, hn, hx1, hx2, f1, f2.trans ?_⟩
  have := List.Subperm.length_le (List.subperm_of_subset hx1 (l₂ := valDims obj moms ++ [dm]) (by
    intro e he
    rcases hg.within (.named x) (by simp) e he with rfl | h
    · simp
    · exact List.mem_append_left _ h))
  simpa using this

theorem vals_fit (g : LabelledObject obj moms core.nd) {x : DataArray δ K}
    {others : List (Operand δ K)} {dm : δ} (hg : GoodVals obj moms x others dm) {o : Operand δ K}
    (ho : o ∈ .named x :: others) :
    OpOk (valDims obj moms) (Function.update obj.size dm (x.size dm))
      (prepX (nameFromEnd x dm) (x.size dm) o, [dm]) ∧
    LastFit (arrayAs (valDims obj moms) (prepX (nameFromEnd x dm) (x.size dm) o, [dm])) (x.size dm)
      ((valDims obj moms).map obj.size) ∧
    ∀ c, InLabelled obj moms c → ∀ s,
      matched (arrayAs (valDims obj moms) (prepX (nameFromEnd x dm) (x.size dm) o, [dm]))
        (tailAxes (arrayAs (valDims obj moms)
          (prepX (nameFromEnd x dm) (x.size dm) o, [dm])).shape.length 1)
        (List.range (valDims obj moms).length) (pos (valDims obj moms ++ moms) c) [s]
      = numberNamed (valDims obj moms) dm (nameFromEnd x dm) o c s := by
  obtain ⟨hnv, hn, -, -, f1, f2⟩ := vals_facts g hg
  have hgo := hg.good o ho
  have hwi := hg.within o ho
  have hup : ∀ e ∈ valDims obj moms, Function.update obj.size dm (x.size dm) e = obj.size e :=
    fun e he => Function.update_of_ne (fun h : e = dm => hnv (h ▸ he)) _ _
  cases o with
  | named y =>
    obtain ⟨y1, y2, y3⟩ := hgo
    have hin : ∀ e ∈ y.dims, e ∈ valDims obj moms ++ [dm] := by
      intro e he
      rcases hwi e he with rfl | h
      · simp
      · exact List.mem_append_left _ h
    have hcs : ∀ e ∈ [dm], e ∈ y.dims := by
      intro e he
      obtain rfl := List.mem_singleton.1 he
      exact y2
    obtain ⟨a, h1, -, h3, h4, -, h6, -⟩ := arranged_as y hn y1 hcs hin
    obtain ⟨e1, e2⟩ := h6 obj.size fun e he hl => by rw [(y3 e he).1, hup e hl]
    have ha : arrayAs (valDims obj moms) (prepX (nameFromEnd x dm) (x.size dm) (.named y), [dm]) = a :=
      arrayAs_named h1
    simp only [List.length_singleton] at h3 h4 e1 e2
    refine ⟨⟨hn, fun y' hy' => ?_⟩, ?_, fun c hc s => ?_⟩
    · obtain rfl : y = y' := by simpa [prepX] using hy'
      exact ⟨y1, hcs, fun e he => ⟨hin e he, (y3 e he).1⟩⟩
    · rw [ha]
      refine ⟨h3, ?_, e1⟩
      unfold axisSize
      have := congrArg (fun l => l.getD 0 0) h4
      simp only [List.map_cons, List.getD_cons_zero] at this
      rw [List.getD_eq_getElem?_getD, List.getElem?_drop, Nat.add_zero] at this
      rw [List.getD_eq_getElem?_getD, this, (y3 dm y2).1, Function.update_self]
    · rw [ha, e2 c hc, update_withNames]
      rfl
  | plain a =>
    have hF := fit_plain f1 f2 hgo
    rw [Function.update_self] at hF
    have ha : arrayAs (valDims obj moms) (prepX (nameFromEnd x dm) (x.size dm) (.plain a), [dm])
      = arrayOf (valDims obj moms) dm (prepX (nameFromEnd x dm) (x.size dm) (.plain a)) := rfl
    rw [ha]
    have hlen : (arrayOf (valDims obj moms) dm
        (prepX (nameFromEnd x dm) (x.size dm) (.plain a))).shape.length
          ≤ (valDims obj moms).length + 1 := by simpa using hF.rank
    have hone := hF.one
    refine ⟨⟨hn, fun y' hy' => by cases hy'⟩, ⟨hF.one, hF.last, ?_⟩, fun c hc s => ?_⟩
    · refine ⟨by rw [List.length_take, List.length_map]; omega, fun p hp => ?_⟩
      rw [List.length_take] at hp
      have hp1 : p < (arrayOf (valDims obj moms) dm
        (prepX (nameFromEnd x dm) (x.size dm) (.plain a))).shape.length - 1 := by omega
      have := hF.fits p (by omega)
      rw [List.length_take, List.length_map, List.getD_eq_getElem?_getD, List.getElem?_take,
        if_pos hp1, ← List.getD_eq_getElem?_getD]
      unfold axisSize at this
      refine this.imp id fun h => h.trans ?_
      rw [List.length_map, List.length_append, List.length_singleton, List.map_append,
        List.getD_append _ _ _ _ (by rw [List.length_map]; omega), List.map_congr_left hup]
      congr 1
      omega
    · rw [matched_operandAt hF.proper hF.one hlen]
      have := value_plain f1 f2 hgo c moms s
      rw [Function.update_self] at this
      exact this

/-- `push_vals` with labelled values. -/
theorem pushValsX_updated (val : List K → V) (hc : core.Ok) (fam : List ℕ → Kernel K V M)
    (g : LabelledObject obj moms core.nd) {x : DataArray δ K} {w : Operand δ K}
    {ys : List (Operand δ K)} {axis : Option (Option AxisArg)} {dim : Option (Option δ)} {dm : δ}
    (hy : ys.length + 1 = core.nd) (hsel : Chosen x.dims [] axis dim dm)
    (hg : GoodVals obj moms x (w :: ys) dm) :
    ∃ obj', pushValsX val core fam moms obj x w ys axis dim = .ok obj' ∧
      UpdatedNamed core moms obj obj' (fun c r => (fam (moms.map obj.size)).reduceVals
        (samplesNamed val (valDims obj moms) dm (nameFromEnd x dm) (x.size dm) (.named x) w ys c)
        r) := by
  obtain ⟨hnv, hn, hx1, hx2, f1, f2⟩ := vals_facts g hg
  have hfit := fun o (ho : o ∈ .named x :: w :: ys) => vals_fit g hg ho
  have hne : ∀ e ∈ obj.dims, e ≠ dm := fun e he h => hg.fresh (h ▸ he)
  have hprep := xprepareValues_ok (nar := core.nd + 1) (others := w :: ys) (by simp [hy]) hx1 hx2 hsel
    (by
      intro a ha
      have := (hg.good (.plain a) (List.mem_cons_of_mem _ ha)).1
      rwa [Function.update_self] at this)
  have hops : (.named x :: (w :: ys).map (prepX (nameFromEnd x dm) (x.size dm)))
      = (.named x :: w :: ys).map (prepX (nameFromEnd x dm) (x.size dm)) := rfl
  rw [hops] at hprep
  obtain ⟨obj', e1, e2⟩ := pushX_updated (core := core) g
    (size := Function.update obj.size dm (x.size dm)) (fun e he =>
      (Function.update_of_ne (hne e he) _ _).symm)
    (ops := ((.named x :: w :: ys).map (prepX (nameFromEnd x dm) (x.size dm))).map
      (fun o => (o, [dm]))) (by
      intro o h
      obtain ⟨o1, ho1, rfl⟩ := List.mem_map.1 h
      obtain ⟨o2, ho2, rfl⟩ := List.mem_map.1 ho1
      exact (hfit o2 ho2).1)
    (f := pushValsFrom val core fam)
    (F := fun i r => (fam (moms.map obj.size)).reduceVals
        ((List.range (x.size dm)).map (fun s =>
          (val ((.named x :: ys).map (fun o : Operand δ K => matched
            (arrayAs (valDims obj moms) (prepX (nameFromEnd x dm) (x.size dm) o, [dm]))
            (tailAxes (arrayAs (valDims obj moms)
              (prepX (nameFromEnd x dm) (x.size dm) o, [dm])).shape.length 1)
            (List.range (valDims obj moms).length) i [s])),
          matched (arrayAs (valDims obj moms) (prepX (nameFromEnd x dm) (x.size dm) w, [dm]))
            (tailAxes (arrayAs (valDims obj moms)
              (prepX (nameFromEnd x dm) (x.size dm) w, [dm])).shape.length 1)
            (List.range (valDims obj moms).length) i [s]))) r) (by
      intro out g1 g2 g3 g4 g5
      obtain ⟨o', e1, e2⟩ := pushValsFrom_ok val hc fam g1 g2 (n := x.size dm)
        (x := arrayAs (valDims obj moms) (prepX (nameFromEnd x dm) (x.size dm) (.named x), [dm]))
        (w := arrayAs (valDims obj moms) (prepX (nameFromEnd x dm) (x.size dm) w, [dm]))
        (ys := ys.map (fun o =>
          arrayAs (valDims obj moms) (prepX (nameFromEnd x dm) (x.size dm) o, [dm]))) (by
          intro a ha
          rw [g4]
          rcases List.mem_cons.1 ha with rfl | ha
          · exact (hfit _ (by simp)).2.1
          rcases List.mem_cons.1 ha with rfl | ha
          · exact (hfit _ (by simp)).2.1
          obtain ⟨o, ho, rfl⟩ := List.mem_map.1 ha
          exact (hfit _ (by simp [ho])).2.1)
      refine ⟨o', ?_, ?_⟩
      · rw [← e1, List.map_map, List.map_map]
        rfl
      · rw [g3, g5] at e2
        simp only [List.map_cons, List.map_map] at e2 ⊢
        exact e2)
  refine ⟨obj', ?_, e2.congr fun c hcc r => ?_⟩
  · unfold pushValsX
    rw [hprep]
    exact e1
  · unfold samplesNamed
    congr 1
    refine List.map_congr_left fun s _ => ?_
    rw [(hfit w (by simp)).2.2 c hcc]
    congr 2
    refine List.map_congr_left fun o ho => ?_
    refine (hfit o ?_).2.2 c hcc s
    rcases List.mem_cons.1 ho with rfl | h
    · simp
    · simp [h]

end Methods

end Cmomy.Labelled
