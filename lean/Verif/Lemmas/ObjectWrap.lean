import Verif.Lemmas.ObjectMake
import Verif.Props.Validate

/-!
# What the constructor of array objects does with the array
-/

namespace Cmomy

open Spec Nd Axes Validate Select
open Spec (momPos valPos momSizes)

variable {K : Type}

/-- Moving the moment axes to the end shows the same entries. -/
theorem lastLayout_values {obj : Arr K} {axes : List ℤ} (hp : obj.Proper)
    (hc : axes.length = 1 ∨ axes.length = 2)
    (ha : AxesOf obj.shape axes) (h2 : ∀ z ∈ axes, 2 ≤ obj.shape.getD (wrap obj.shape.length z) 0) :
    IsObject (obj.transpose (lastLayout obj.shape.length (momPos obj axes)))
      ((valPos obj axes).map (axisSize obj)) (momSizes obj axes) ∧
    HasValues (obj.transpose (lastLayout obj.shape.length (momPos obj axes)))
      ((valPos obj axes).map (axisSize obj)) (momSizes obj axes)
      (fun i m => obj.get (withMoment (momPos obj axes) m (readAs (valPos obj axes) i))) := by
  have hlt : ∀ a ∈ momPos obj axes, a < obj.shape.length := by
    intro a h
    obtain ⟨z, hz, rfl⟩ := List.mem_map.1 h
    exact wrap_lt (ha.1 z hz)
  have hperm : (lastLayout obj.shape.length (momPos obj axes)).Perm (List.range obj.shape.length) :=
    keptAxes_perm ha.2 hlt
  have hsh : (obj.transpose (lastLayout obj.shape.length (momPos obj axes))).shape
      = (valPos obj axes).map (axisSize obj) ++ momSizes obj axes := by
    show (lastLayout obj.shape.length (momPos obj axes)).map _ = _
    unfold lastLayout
    rw [List.map_append]
    rfl
  refine ⟨⟨transpose_proper hp hperm, hsh, by simpa using hc, ?_⟩, ⟨hsh, ?_⟩⟩
  · intro m hm
    obtain ⟨a, h, rfl⟩ := List.mem_map.1 hm
    obtain ⟨z, hz, rfl⟩ := List.mem_map.1 h
    exact h2 z hz
  · intro i _ m hm
    refine hp _ _ fun a hal => ?_
    show atMom _ i m ((lastLayout obj.shape.length (momPos obj axes)).idxOf a)
      = withMoment (momPos obj axes) m (readAs (valPos obj axes) i) a
    unfold lastLayout
    rw [List.length_map]
    by_cases hin : a ∈ momPos obj axes
    · have hn : a ∉ keptAxes obj.shape.length (momPos obj axes) := by
        unfold keptAxes; simp only [List.mem_filter, decide_not]; simp [hin]
      rw [List.idxOf_append_of_notMem hn]
      unfold atMom withMoment
      rw [if_neg (by show ¬ _ < (keptAxes _ _).length; omega), if_pos hin]
      show m.getD ((keptAxes _ _).length + _ - (keptAxes _ _).length) 0 = _
      rw [Nat.add_sub_cancel_left]
    · have hk : a ∈ keptAxes obj.shape.length (momPos obj axes) := by
        unfold keptAxes; simp only [List.mem_filter, List.mem_range]; simp [hin, hal]
      rw [List.idxOf_append_of_mem hk]
      unfold atMom withMoment readAs
      rw [if_pos (List.idxOf_lt_length_iff.2 hk), if_neg hin]

/-- The object made by the constructor: the array with its moment axes moved to the end. -/
theorem construct_cells {δ : Type} {obj : Arr K} {mp : Input PArray δ} {ndim : Option ℤ}
    {axes : Option IntArg} {p : PArray} (hf : factory mp ndim axes (some 1) = .ok p)
    (hg : GoodParams p) (hp : obj.Proper)
    (ha : AxesOf obj.shape p.axes)
    (h2 : ∀ z ∈ p.axes, 2 ≤ obj.shape.getD (wrap obj.shape.length z) 0) :
    ∃ out, construct obj mp ndim axes = .ok (out, ⟨p.ndim, Select.axesLast p.axes.length⟩) ∧
      IsObject out ((valPos obj p.axes).map (axisSize obj)) (momSizes obj p.axes) ∧
      HasValues out ((valPos obj p.axes).map (axisSize obj)) (momSizes obj p.axes)
        (fun i m => obj.get (withMoment (momPos obj p.axes) m (readAs (valPos obj p.axes) i))) := by
  have hc : p.axes.length = 1 ∨ p.axes.length = 2 := by obtain ⟨h, h'⟩ := hg; omega
  obtain ⟨hO, hV⟩ := lastLayout_values hp hc ha h2
  obtain ⟨r, hr⟩ := (C48_construct obj mp ndim axes p hf hg).1.2 ⟨ha, h2⟩
  have hlast : Validate.axesLast p.ndim = .ok (Select.axesLast p.axes.length) := by
    rcases hg.1 with h | h
    · have : p.axes.length = 1 := by have := hg.2; omega
      rw [h, this]; rfl
    · have : p.axes.length = 2 := by have := hg.2; omega
      rw [h, this]; rfl
  have hle := Select.length_le_of_nodup ha.1 ha.2
  have hr' := hr
  unfold construct at hr
  rw [hf] at hr
  change (match getMom obj.shape p.axes with
      | .error _ => Except.error PyErr.valueError
      | .ok _ => _) = _ at hr
  cases eg : getMom obj.shape p.axes with
  | error e => rw [eg] at hr; cases hr
  | ok m =>
    rw [eg] at hr
    simp only [hlast] at hr
    change Except.bind (if p.axes ≠ Select.axesLast p.axes.length then _ else _) _ = _ at hr
    have fin : ∀ s : Arr K × PArray, ((getMom s.1.shape s.2.axes).bind fun mom =>
        if mom.any (fun m => decide (m ≤ 0)) then Except.error PyErr.valueError else .ok s) = .ok r →
        r = s := by
      intro s h
      cases e : getMom s.1.shape s.2.axes with
      | error e' => rw [e] at h; cases h
      | ok m =>
        rw [e] at h
        change (if _ then _ else _) = _ at h
        split_ifs at h
        exact (Except.ok.inj h).symm
    by_cases hpl : p.axes = Select.axesLast p.axes.length
    · rw [if_neg (by simpa using hpl)] at hr
      obtain rfl := fin (obj, p) hr
      have hL : lastLayout obj.shape.length (momPos obj p.axes) = List.range obj.shape.length := by
        unfold momPos
        rw [hpl]
        exact Select.keptAxes_last _ _ hle
      rw [hL] at hO hV
      have hT : obj.transpose (List.range obj.shape.length) = ⟨obj.shape,
          fun i => obj.get fun a => i ((List.range obj.shape.length).idxOf a)⟩ := by
        unfold Arr.transpose
        congr 1
        refine List.ext_getElem (by simp) fun k h1 h2 => ?_
        simp [List.getD_eq_getElem?_getD, List.getElem?_eq_getElem h2]
      have hget : ∀ i, (obj.transpose (List.range obj.shape.length)).get i = obj.get i := by
        intro i
        rw [hT]
        refine hp _ _ fun a hal => ?_
        show i _ = i a
        congr 1
        have := (List.nodup_range (n := obj.shape.length)).idxOf_getElem a (by simpa using hal)
        simpa using this
      have hsh : (obj.transpose (List.range obj.shape.length)).shape = obj.shape := by rw [hT]
      refine ⟨obj, by rw [hr', ← hpl], ⟨hp, by rw [← hsh]; exact hO.shape, hO.count, hO.orders⟩,
        ⟨by rw [← hsh]; exact hO.shape, fun i hi m hm => ?_⟩⟩
      rw [← hV.value i hi m hm, hget]
    · rw [if_pos hpl, (move_orders ha.1 ha.2).1] at hr
      obtain rfl := fin (obj.transpose _, ⟨p.ndim, Select.axesLast p.axes.length⟩) hr
      exact ⟨_, hr', hO, hV⟩

end Cmomy
