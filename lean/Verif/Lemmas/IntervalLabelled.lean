import Verif.Model.IntervalLabelled
import Verif.Spec.IntervalLabelled
import Verif.Props.IntervalNd
import Verif.Lemmas.LabelledObject

/-! # Lemmas on confidence intervals of labelled arrays -/

namespace Cmomy.Labelled

open Axes Spec

variable {δ : Type} [DecidableEq δ] {α K : Type}

theorem firstNames_filter {l m : List δ} (h : l.Nodup) {f : δ → Bool}
    (hs : ∀ d ∈ m, f d = true → d ∈ l) : (firstNames (l ++ m)).filter f = l.filter f := by
  unfold firstNames
  rw [List.reverse_append, List.dedup_append, List.Nodup.dedup (List.nodup_reverse.2 h)]
  obtain ⟨t, ht, e⟩ := List.sublist_suffix_of_union m.reverse l.reverse
  have hn : (m.reverse ∪ l.reverse).Nodup := (List.nodup_reverse.2 h).union _
  rw [← e] at hn ⊢
  rw [List.reverse_append, List.reverse_reverse, List.filter_append]
  have : t.reverse.filter f = [] := by
    rw [List.filter_eq_nil_iff]
    intro d hd hf
    have hd' : d ∈ t := List.mem_reverse.1 hd
    have hm : d ∈ m := List.mem_reverse.1 (ht.subset hd')
    exact (List.nodup_append.1 hn).2.2 d hd' d (List.mem_reverse.2 (hs d hm hf)) rfl
  rw [this, List.append_nil]

/-- Reading a prepared array along its last axis. -/
theorem line_named {x : DataArray δ α} {loop : List δ} {e : δ} {a : Nd.Arr α}
    (hp : (loop ++ [e]).Perm x.dims) (hx : x.dims.Nodup)
    (ha : ∀ i, a.get i = entry x (fun d => i ((loop ++ [e]).idxOf d))) (c : δ → ℕ) :
    elementsAlong a loop.length (x.size e) (loop.map c) = valuesNamed x e c := by
  unfold elementsAlong valuesNamed
  refine List.map_congr_left fun s _ => ?_
  have hn := hp.nodup_iff.2 hx
  have he : e ∉ loop := fun h => (List.nodup_append.1 hn).2.2 e h e (by simp) rfl
  unfold elementAt
  rw [ha]
  refine entry_congr x fun d hd => ?_
  rw [List.take_of_length_le (by simp), List.drop_eq_nil_of_le (by simp)]
  rcases List.mem_append.1 (hp.mem_iff.2 hd) with h | h
  · have hne : d ≠ e := fun h' => he (h' ▸ h)
    rw [List.idxOf_append_of_mem h, Function.update_of_ne hne]
    have := List.idxOf_lt_length_iff.2 h
    rw [List.getD_append _ _ _ _ (by simpa using this)]
    simp [this]
  · have : d = e := by simpa using h
    subst this
    rw [List.idxOf_append_of_notMem he, Function.update_self]
    rw [List.getD_append_right _ _ _ _ (by simp)]
    simp

/-- Reading a prepared array that has nothing but loop dimensions. -/
theorem point_named {x : DataArray δ α} {loop : List δ} {a : Nd.Arr α} (hp : (loop ++ []).Perm x.dims)
    (ha : ∀ i, a.get i = entry x (fun d => i ((loop ++ []).idxOf d))) (c : δ → ℕ) :
    elementAt a (loop.map c) = entry x c := by
  unfold elementAt
  rw [ha]
  refine entry_congr x fun d hd => ?_
  have h : d ∈ loop := by simpa using hp.mem_iff.2 hd
  rw [List.append_nil]
  have := List.idxOf_lt_length_iff.2 h
  simp [this]

theorem dropAt_pos (loop : List δ) (e : δ) (c : δ → ℕ) :
    Nd.dropAt loop.length (pos (loop ++ [e]) c) = Nd.at_ (loop.map c) := by
  funext p
  unfold Nd.dropAt Nd.at_ pos
  by_cases h : p < loop.length
  · simp [h, List.getElem?_append_left]
  · have h1 : loop.length ≤ p := by omega
    have h2 : (loop ++ [e]).length ≤ p + 1 := by simp; omega
    rw [if_neg h, List.getElem?_eq_none h2, List.getD_eq_default _ _ (by simpa using h1)]
    rfl

theorem forall₂_lt_map {loop : List δ} {c size : δ → ℕ} (h : ∀ d ∈ loop, c d < size d) :
    InShape (loop.map c) (loop.map size) := by
  unfold InShape
  rw [List.forall₂_map_left_iff, List.forall₂_map_right_iff]
  exact List.forall₂_same.2 h

variable [Field K] [LinearOrder K] [FloorRing K]

omit [DecidableEq δ] [Field K] [LinearOrder K] [FloorRing K] in
private theorem mem_frames {boot : DataArray δ K} {hat jack : Option (DataArray δ K)} {f : Frame δ}
    (h : f ∈ boot.frame :: (hat.toList ++ jack.toList).map DataArray.frame) :
    f = boot.frame ∨ (∃ x ∈ hat, f = x.frame) ∨ ∃ x ∈ jack, f = x.frame := by
  simp only [List.mem_cons, List.mem_map, List.mem_append, Option.mem_toList] at h
  rcases h with h | ⟨x, h | h, rfl⟩
  · exact .inl h
  · exact .inr (.inl ⟨x, h, rfl⟩)
  · exact .inr (.inr ⟨x, h, rfl⟩)

/-- What `apply_ufunc` does with the arguments, the leave-one-out estimates being renamed already. -/
theorem applyCI_run (N : NormalFns K) {boot : DataArray δ K} {hat jack : Option (DataArray δ K)}
    {alphas : List K} {method : String} {dim rep ciDim : δ} {loop : List δ}
    (hloop : loop = boot.dims.filter (fun d => decide (d ≠ dim)))
    (hd : boot.dims.Nodup) (hdim : dim ∈ boot.dims) (hrep : rep ∉ boot.dims) (hci : ciDim ∉ boot.dims)
    (hrc : rep ≠ ciDim) (hh : ∀ h ∈ hat, h.dims.Perm loop) (hhs : ∀ h ∈ hat, ∀ d ∈ h.dims, h.size d = boot.size d)
    (hj : ∀ j ∈ jack, j.dims.Perm (loop ++ [rep]))
    (hjs : ∀ j ∈ jack, ∀ d ∈ loop, j.size d = boot.size d) :
    ∃ b h j, SamePlaces b h j (-1) (loop.map boot.size) (boot.size dim) ((jack.map (·.size rep)).getD 0) [] ∧
      (∀ c, elementsAlong b (loop.map boot.size).length (boot.size dim) (loop.map c) = valuesNamed boot dim c) ∧
      (∀ c, h.map (estimateAt · (loop.map boot.size).length (loop.map c)) = hat.map (entry · c)) ∧
      (∀ c, j.map (elementsAlong · (loop.map boot.size).length ((jack.map (·.size rep)).getD 0) (loop.map c)) =
        jack.map (valuesNamed · rep c)) ∧
      applyCI N boot hat jack alphas method dim rep ciDim =
        (Nd.bootCINd N b h j alphas method (-1)).bind fun out =>
          wrapResult (boot.frame :: (hat.toList ++ jack.toList).map DataArray.frame) []
            (loop ++ [ciDim]) (firstToLast out) := by
  have hln : loop.Nodup := by rw [hloop]; exact hd.filter _
  have hlm : ∀ d, d ∈ loop ↔ d ∈ boot.dims ∧ d ≠ dim := by intro d; rw [hloop]; simp
  have hrl : rep ∉ loop := fun h => hrep ((hlm rep).1 h).1
  have hpb : (loop ++ [dim]).Perm boot.dims := by
    refine (List.perm_ext_iff_of_nodup ?_ hd).2 fun d => ?_
    · rw [List.nodup_append]
      refine ⟨hln, by simp, ?_⟩
      rintro p hp q hq rfl
      have : p = dim := by simpa using hq
      exact ((hlm p).1 hp).2 this
    · rw [List.mem_append, hlm, List.mem_singleton]
      constructor
      · rintro (h | rfl)
        exacts [h.1, hdim]
      · intro h
        by_cases e : d = dim
        exacts [.inr e, .inl ⟨h, e⟩]
  have hjn : ∀ j ∈ jack, j.dims.Nodup := by
    intro j hjj
    refine (hj j hjj).nodup_iff.2 ?_
    rw [List.nodup_append]
    refine ⟨hln, by simp, ?_⟩
    rintro p hp q hq rfl
    have : p = rep := by simpa using hq
    exact hrl (this ▸ hp)
  have hL : loopDims (boot.frame :: (hat.toList ++ jack.toList).map DataArray.frame) []
      (dim :: (if jack.isSome then [rep] else []) ++ [ciDim]) = .ok loop := by
    have hm1 : ∀ d ∈ boot.dims, d ∉ (dim :: (if jack.isSome then [rep] else []) ++ [ciDim]) ↔ d ≠ dim := by
      intro d hdd
      have h1 : d ≠ rep := fun e => hrep (e ▸ hdd)
      have h2 : d ≠ ciDim := fun e => hci (e ▸ hdd)
      cases jack <;> simp [h1, h2]
    have hm2 : ∀ x ∈ jack, rep ∈ (dim :: (if jack.isSome then [rep] else []) ++ [ciDim]) := by
      intro x hx
      have hs : jack.isSome := by rw [Option.mem_def] at hx; simp [hx]
      simp [hs]
    generalize (dim :: (if jack.isSome then [rep] else []) ++ [ciDim]) = core at hm1 hm2 ⊢
    unfold loopDims unifiedDims
    rw [if_neg, if_neg]
    · simp only [Except.map, List.flatMap_cons, List.not_mem_nil, not_false_eq_true, decide_true,
        List.filter_true]
      rw [show boot.frame.1 = boot.dims from rfl, firstNames_filter hd, hloop]
      · congr 1
        refine List.filter_congr fun d hdd => ?_
        rw [decide_eq_decide]
        exact hm1 d hdd
      · intro d hdm hf
        rw [List.mem_flatMap] at hdm
        obtain ⟨f, hfm, hdf⟩ := hdm
        rw [decide_eq_true_iff] at hf
        rcases mem_frames (boot := boot) (List.mem_cons_of_mem _ hfm) with rfl | ⟨x, hx, rfl⟩ | ⟨x, hx, rfl⟩
        · exact hdf
        · exact ((hlm d).1 ((hh x hx).mem_iff.1 hdf)).1
        · rcases List.mem_append.1 ((hj x hx).mem_iff.1 hdf) with h | h
          · exact ((hlm d).1 h).1
          · exfalso
            have : d = rep := by simpa using h
            subst this
            exact hf (hm2 x hx)
    · push Not
      have key : ∀ f ∈ boot.frame :: (hat.toList ++ jack.toList).map DataArray.frame,
          ∀ d ∈ f.1, (d ∈ boot.dims ∧ f.2 d = boot.size d) ∨
            (d = rep ∧ ∃ x ∈ jack, f.2 d = x.size rep) := by
        intro f hf d hdf
        rcases mem_frames hf with rfl | ⟨x, hx, rfl⟩ | ⟨x, hx, rfl⟩
        · exact .inl ⟨hdf, rfl⟩
        · exact .inl ⟨((hlm d).1 ((hh x hx).mem_iff.1 hdf)).1, hhs x hx d hdf⟩
        · rcases List.mem_append.1 ((hj x hx).mem_iff.1 hdf) with h | h
          · exact .inl ⟨((hlm d).1 h).1, hjs x hx d h⟩
          · have : d = rep := by simpa using h
            subst this
            exact .inr ⟨rfl, x, hx, rfl⟩
      intro f hf g hg d hdf hdg _
      rcases key f hf d hdf with ⟨h1, h2⟩ | ⟨h1, x, hx, h2⟩ <;>
        rcases key g hg d hdg with ⟨h3, h4⟩ | ⟨h3, y, hy, h4⟩
      · rw [h2, h4]
      · exact absurd (h3 ▸ h1) hrep
      · exact absurd (h1 ▸ h3) hrep
      · rw [h2, h4]
        rw [Option.mem_def] at hx hy
        rw [hx] at hy
        rw [Option.some.inj hy]
    · push Not
      intro f hf
      rcases mem_frames hf with rfl | ⟨x, hx, rfl⟩ | ⟨x, hx, rfl⟩
      · exact hd
      · exact (hh x hx).nodup_iff.2 hln
      · exact hjn x hx
  obtain ⟨b, b1, b2, b3⟩ := compatData_all boot hd hpb
  have hH : ∃ h, compatOpt hat loop [] = .ok h ∧ (∀ a ∈ h, a.shape = loop.map boot.size) ∧
      ∀ c, h.map (estimateAt · (loop.map boot.size).length (loop.map c)) = hat.map (entry · c) := by
    cases hat with
    | none => exact ⟨none, rfl, by simp, fun c => rfl⟩
    | some x =>
      have hp : (loop ++ []).Perm x.dims := by rw [List.append_nil]; exact (hh x rfl).symm
      obtain ⟨a, a1, a2, a3⟩ := compatData_all x ((hh x rfl).nodup_iff.2 hln) hp
      have hs : a.shape = loop.map boot.size := by
        rw [a2, List.append_nil]
        exact List.map_congr_left fun d hdl => hhs x rfl d ((hh x rfl).mem_iff.2 hdl)
      refine ⟨some a, by show (compatData x loop []).map some = _; rw [a1]; rfl, by rintro _ ⟨⟩; exact hs, fun c => ?_⟩
      simp only [Option.map_some]
      unfold estimateAt
      rw [if_pos (by rw [hs]; simp), point_named hp a3]
  have hJ : ∃ j, compatOpt jack loop [rep] = .ok j ∧
      (∀ a ∈ j, a.shape = loop.map boot.size ++ [(jack.map (·.size rep)).getD 0]) ∧
      ∀ c, j.map (elementsAlong · (loop.map boot.size).length ((jack.map (·.size rep)).getD 0) (loop.map c)) =
        jack.map (valuesNamed · rep c) := by
    cases jack with
    | none => exact ⟨none, rfl, by simp, fun c => rfl⟩
    | some x =>
      have hp : (loop ++ [rep]).Perm x.dims := (hj x rfl).symm
      obtain ⟨a, a1, a2, a3⟩ := compatData_all x (hjn x rfl) hp
      refine ⟨some a, by show (compatData x loop [rep]).map some = _; rw [a1]; rfl, ?_, fun c => ?_⟩
      · rintro _ ⟨⟩
        rw [a2, List.map_append]
        refine congrArg₂ _ (List.map_congr_left fun d hdl => hjs x rfl d hdl) rfl
      · simp only [Option.map_some, Option.getD_some, List.length_map]
        rw [line_named hp (hjn x rfl) a3]
  obtain ⟨h, h1, h2, h3⟩ := hH
  obtain ⟨j, j1, j2, j3⟩ := hJ
  have hbs : b.shape = loop.map boot.size ++ boot.size dim :: [] := by rw [b2, List.map_append]; rfl
  have hbl : b.shape.length = loop.length + 1 := by rw [hbs]; simp
  refine ⟨b, h, j, ⟨hbs, ?_, ?_, fun a ha => .inl (by rw [h2 a ha, List.append_nil]), j2⟩, ?_, h3, j3, ?_⟩
  · rw [hbl]; unfold InRange; constructor <;> push_cast <;> omega
  · rw [hbl]
    unfold wrap
    rw [← Int.add_emod_right, Int.emod_eq_of_lt (by push_cast; omega) (by push_cast; omega)]
    simp
  · intro c
    rw [List.length_map, line_named hpb hd b3]
  · unfold applyCI
    simp only [hL]
    show (compatData boot loop [dim]).bind _ = _
    rw [b1]
    show (compatOpt hat loop []).bind _ = _
    rw [h1]
    show (compatOpt jack loop [rep]).bind _ = _
    rw [j1]
    rfl

end Cmomy.Labelled
