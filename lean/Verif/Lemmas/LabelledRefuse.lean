import Verif.Lemmas.LabelledPush

/-!
# Calls which a labelled object refuses
-/

namespace Cmomy.Labelled

open Axes Spec

variable {δ : Type} [DecidableEq δ] {K V M : Type} [Field K] [DecidableEq K]

set_option linter.unusedSectionVars false

/-- A shape with an axis that would widen an object. -/
def Wide (t full : List ℕ) : Prop :=
  ∃ p < t.length, t.getD p 0 ≠ 1 ∧
    (full.length < t.length - p ∨ full.getD (full.length - (t.length - p)) 0 = 1)

theorem replicate_getD {k q : ℕ} (h : q < k) : (List.replicate k 1).getD q 0 = 1 := by
  simp [List.getD_eq_getElem?_getD, h]

theorem pushInto_wide {core : Nd.Core K M} {obj : Nd.Arr (Option K)} {want : Option (List ℕ)}
    {extra : List (List ℕ)} {f : List ℕ → ℕ → (ℕ → ℕ) → M → Option M}
    (h : ∃ t ∈ extra, Wide t (valShape core obj)) :
    Nd.pushInto core obj want extra f = .error .valueError := by
  obtain ⟨t, ht, p, hp, hne, hw⟩ := h
  unfold Nd.pushInto
  by_cases hn : core.nd ≤ obj.shape.length
  swap
  · rw [Nd.lastAxes_error (by omega)]
    rfl
  rw [Nd.lastAxes_ok hn]
  simp only [Except.bind]
  split_ifs with h1
  · rfl
  rw [Nd.loopShape_tail _ hn]
  have hv : obj.shape.take (obj.shape.length - core.nd) = valShape core obj := rfl
  rw [hv]
  cases hb : Nd.broadcastShapes (valShape core obj :: extra) with
  | error e => rw [Nd.broadcastShapes_error hb]
  | ok loop =>
    have hB := Nd.broadcastShapes_iff.1 hb
    have hr := hB.rank t (by simp [ht])
    have hr' := hB.rank (valShape core obj) (by simp)
    have hf := (hB.fits t (by simp [ht]) p hp).resolve_left hne
    have key : loop ≠ List.replicate (loop.length - (valShape core obj).length) 1
        ++ valShape core obj := by
      intro e
      rw [e] at hf
      simp only [List.length_append, List.length_replicate] at hf
      by_cases hlt : (valShape core obj).length < t.length - p
      · rw [List.getD_append _ _ _ _ (by rw [List.length_replicate]; omega),
          replicate_getD (by omega)] at hf
        exact hne hf
      · rw [List.getD_append_right _ _ _ _ (by rw [List.length_replicate]; omega),
          List.length_replicate] at hf
        have hw' := hw.resolve_left hlt
        rw [show p + (loop.length - (valShape core obj).length + (valShape core obj).length - t.length)
          - (loop.length - (valShape core obj).length)
          = (valShape core obj).length - (t.length - p) by omega, hw'] at hf
        exact hne hf
    simp only
    rw [if_pos]
    · unfold Nd.widenError
      rw [if_neg key]
    · intro e
      apply key
      rw [e]
      simp

theorem compatData_inv {α : Type} {y : DataArray δ α} {loop core : List δ} {a : Nd.Arr α}
    (h : compatData y loop core = .ok a) :
    (∀ d ∈ core, d ∈ y.dims) ∧ ∀ d ∈ y.dims, d ∈ loop ++ core := by
  unfold compatData at h
  by_cases h1 : loop ++ core = y.dims
  · exact ⟨fun d hd => h1 ▸ List.mem_append_right _ hd, fun d hd => h1.symm ▸ hd⟩
  rw [if_neg h1] at h
  by_cases h2 : ∃ d ∈ y.dims, d ∉ loop ++ core
  · rw [if_pos h2] at h
    cases h
  rw [if_neg h2] at h
  simp only at h
  split_ifs at h with h3
  push Not at h2 h3
  exact ⟨fun d hd => h3.1 d (List.mem_append_right _ hd), h2⟩

theorem loopDims_inv {inputs : List (Frame δ)} {allCore loop : List δ}
    (h : loopDims inputs [] allCore = .ok loop) :
    loop.Nodup ∧ (∀ f ∈ inputs, f.1.Nodup) ∧
      (∀ f ∈ inputs, ∀ g ∈ inputs, ∀ d ∈ f.1, d ∈ g.1 → f.2 d = g.2 d) ∧
      ∀ d, d ∈ loop ↔ d ∉ allCore ∧ ∃ f ∈ inputs, d ∈ f.1 := by
  unfold loopDims unifiedDims at h
  split_ifs at h with h1 h2
  rotate_left
  · cases h
  · cases h
  obtain rfl := Except.ok.inj h
  refine ⟨?_, h1, fun f hf g hg d hdf hdg => h2 f hf g hg d hdf hdg (by simp), fun d => ?_⟩
  · refine List.Nodup.filter _ ?_
    unfold firstNames
    exact List.nodup_reverse.2 (List.nodup_dedup _)
  · unfold firstNames
    simp [and_comm]

theorem loopDims_error {inputs : List (Frame δ)} {exclude allCore : List δ} {e : PyErr}
    (h : loopDims inputs exclude allCore = .error e) : e = .valueError := by
  unfold loopDims unifiedDims at h
  split_ifs at h
  all_goals first | (cases h; done) | (cases h; rfl)

theorem mapM_ok_mem {α β : Type} {f : α → Py β} {l : List α} {bs : List β}
    (h : l.mapM f = .ok bs) : ∀ a ∈ l, ∃ b ∈ bs, f a = .ok b := by
  induction l generalizing bs with
  | nil => simp
  | cons a l ih =>
    rw [List.mapM_cons] at h
    obtain ⟨b, h1, h2⟩ := Nd.Except_bind_ok h
    obtain ⟨bs', h3, h4⟩ := Nd.Except_bind_ok h2
    obtain rfl := Except.ok.inj h4
    intro a' ha
    rcases List.mem_cons.1 ha with rfl | ha
    · exact ⟨b, by simp, h1⟩
    · obtain ⟨b', h5, h6⟩ := ih h3 a' ha
      exact ⟨b', by simp [h5], h6⟩

theorem mapM_ok_mem_right {α β : Type} {f : α → Py β} {l : List α} {bs : List β}
    (h : l.mapM f = .ok bs) : bs.length = l.length ∧ ∀ b ∈ bs, ∃ a ∈ l, f a = .ok b := by
  induction l generalizing bs with
  | nil =>
    obtain rfl := Except.ok.inj h
    simp
  | cons a l ih =>
    rw [List.mapM_cons] at h
    obtain ⟨b, h1, h2⟩ := Nd.Except_bind_ok h
    obtain ⟨bs', h3, h4⟩ := Nd.Except_bind_ok h2
    obtain rfl := Except.ok.inj h4
    obtain ⟨e1, e2⟩ := ih h3
    refine ⟨by simp [e1], fun b' hb => ?_⟩
    rcases List.mem_cons.1 hb with rfl | hb
    · exact ⟨a, by simp, h1⟩
    · obtain ⟨a', h5, h6⟩ := e2 b' hb
      exact ⟨a', by simp [h5], h6⟩

/-- The arranged object has an axis of size one, or none, for a dimension it does not have. -/
theorem arranged_missing {L : Type} {y : DataArray δ L} {loop cs : List δ} (hl : (loop ++ cs).Nodup)
    (hy : y.dims.Nodup) (hc : ∀ d ∈ cs, d ∈ y.dims) (hs : ∀ d ∈ y.dims, d ∈ loop ++ cs)
    {a : Nd.Arr L} (ha : compatData y loop cs = .ok a) {d : δ} (hd : d ∉ y.dims) (hdl : d ∈ loop) :
    a.shape.length - cs.length ≤ loop.length ∧ cs.length ≤ a.shape.length ∧
    (a.shape.length - cs.length < loop.length - loop.idxOf d ∨
      (a.shape.take (a.shape.length - cs.length)).getD
        (a.shape.length - cs.length - (loop.length - loop.idxOf d)) 0 = 1) := by
  obtain ⟨a', h1, h2, -⟩ := compatData_ok y hy hl hc hs
  rw [h1] at ha
  obtain rfl := Except.ok.inj ha
  obtain ⟨front, back, e1, e2, e3⟩ := dropWhile_core (y := y) (loop := loop) hc
  rw [e3] at h2
  have hlen : a'.shape.length = back.length + cs.length := by rw [h2]; simp
  have hll : loop.length = front.length + back.length := by rw [e1]; simp
  have hidx := List.idxOf_lt_length_iff.2 hdl
  refine ⟨by omega, by omega, ?_⟩
  by_cases h : a'.shape.length - cs.length < loop.length - loop.idxOf d
  · exact .inl h
  · right
    have hq : back.length - (loop.length - loop.idxOf d) < back.length := by omega
    rw [show a'.shape.length - cs.length = back.length by omega,
      List.getD_eq_getElem?_getD, List.getElem?_take, if_pos hq, h2,
      List.getElem?_map, List.getElem?_append_left hq]
    have hget : back[back.length - (loop.length - loop.idxOf d)]? = some d := by
      have h3 : loop[loop.idxOf d]? = some d := by
        rw [List.getElem?_eq_getElem hidx, List.getElem_idxOf]
      rw [e1, List.getElem?_append_right (by rw [← e1]; omega), ← e1] at h3
      rw [← h3]
      congr 1
      omega
    rw [hget]
    simp [hd]

variable {core : Nd.Core K M} {obj : DataArray δ (Option K)} {moms : List δ}

/-- A push with a foreign operand is refused, given that the gufunc refuses to widen the object. -/
theorem pushX_foreign (g : LabelledObject obj moms core.nd) {ops : List (Operand δ K × List δ)}
    {m : ℕ} (hm : ∀ o ∈ ops, o.2.length = m)
    {f : Nd.Arr (Option K) → List (Nd.Arr K) → Py (Nd.Arr (Option K))}
    (hf : ∀ loop out as,
      ops.mapM (fun o : Operand δ K × List δ => o.1.arrangeAs loop o.2) = .ok as →
      (∃ a ∈ as, m ≤ a.shape.length ∧
        Wide (a.shape.take (a.shape.length - m)) (valShape core out)) →
      f out as = .error .valueError)
    (h : ∃ o ∈ ops, Foreign obj moms o.2 o.1) : pushX obj moms ops f = .error .valueError := by
  obtain ⟨⟨o, cs⟩, ho, hfo⟩ := h
  cases o with
  | plain a => exact hfo.elim
  | named y =>
  have hmem : y.frame ∈ obj.frame :: ops.filterMap (fun o : Operand δ K × List δ => o.1.frame?) :=
    List.mem_cons_of_mem _ (List.mem_filterMap.2 ⟨_, ho, rfl⟩)
  unfold pushX
  simp only []
  cases hl : loopDims (obj.frame :: ops.filterMap (fun o : Operand δ K × List δ => o.1.frame?)) []
      (moms ++ ops.flatMap Prod.snd) with
  | error e => rw [loopDims_error hl]; rfl
  | ok loop =>
  obtain ⟨l1, l2, l3, l4⟩ := loopDims_inv hl
  have hyn : y.dims.Nodup := l2 _ hmem
  rw [bind_ok]
  cases hobj : compatData obj loop moms with
  | error e => rw [compatData_error hobj]; rfl
  | ok out =>
  rw [bind_ok]
  cases hos : ops.mapM (fun o : Operand δ K × List δ => o.1.arrangeAs loop o.2) with
  | error e =>
    rw [show e = .valueError from Nd.mapM_error _ (· = .valueError) _ (fun o _ e he => by
      obtain ⟨o, cs⟩ := o
      cases o with
      | named y => exact compatData_error he
      | plain a => cases he) hos]
    rfl
  | ok as =>
  rw [bind_ok]
  obtain ⟨a, ha, hya⟩ := mapM_ok_mem hos _ ho
  have hya' : compatData y loop cs = .ok a := hya
  obtain ⟨c1, c2⟩ := compatData_inv hya'
  rcases hfo with ⟨d, hd, hnd⟩ | ⟨d, hd, ⟨h1, h2⟩ | ⟨h1, h2⟩ | ⟨h1, h2, h3⟩⟩
  · exact absurd (c1 d hd) hnd
  · exact absurd (l3 y.frame hmem obj.frame (by simp) d hd h1) h2
  · rcases List.mem_append.1 (c2 d hd) with h | h
    · exact absurd (List.mem_append_left _ h1) ((l4 d).1 h).1
    · exact absurd h h2
  · have hdl : d ∈ loop := (List.mem_append.1 (c2 d hd)).resolve_right h2
    obtain ⟨p1, p2⟩ := compatData_inv hobj
    have hnc : (loop ++ cs).Nodup := by
      unfold compatData at hya'
      by_cases e1 : loop ++ cs = y.dims
      · rw [e1]; exact hyn
      · rw [if_neg e1] at hya'
        split_ifs at hya' with e2
        simp only at hya'
        split_ifs at hya' with e3
        push Not at e3
        have hcn := (e3.2).of_append_right
        refine List.nodup_append'.2 ⟨l1, hcn, fun e he1 he2 => ((l4 e).1 he1).1 ?_⟩
        exact List.mem_append_right _ (List.mem_flatMap.2 ⟨_, ho, he2⟩)
    have hnm : (loop ++ moms).Nodup :=
      List.nodup_append'.2 ⟨l1, g.momDistinct, fun e he1 he2 => ((l4 e).1 he1).1
        (List.mem_append_left _ he2)⟩
    obtain ⟨q1, q2, q3⟩ := arranged_missing hnm g.distinct p1 p2 hobj h1 hdl
    obtain ⟨a', r1, -, r3, -, r5, -, r7⟩ := arranged_as y hnc hyn c1 c2
    rw [hya'] at r1
    obtain rfl := Except.ok.inj r1
    obtain ⟨s1, s2⟩ := r7 d hd hdl
    have hidx := List.idxOf_lt_length_iff.2 hdl
    have hmc : cs.length = m := hm _ ho
    rw [hmc] at r3 r5 s1 s2
    have hrank : valShape core out = out.shape.take (out.shape.length - moms.length) := by
      unfold valShape valRank
      rw [g.momCount]
    have hT : (a.shape.take (a.shape.length - m)).length = a.shape.length - m := by
      rw [List.length_take]; omega
    have hF : (valShape core out).length = out.shape.length - moms.length := by
      rw [hrank, List.length_take]; omega
    rw [hf loop out as hos ⟨a, ha, r3, loop.idxOf d - (loop.length - (a.shape.length - m)), ?_, ?_, ?_⟩]
    · rfl
    · rw [hT]; omega
    · rw [List.getD_eq_getElem?_getD, List.getElem?_take, if_pos (by omega),
        ← List.getD_eq_getElem?_getD, s2]
      exact h3
    · rw [hT, hF, show a.shape.length - m - (loop.idxOf d - (loop.length - (a.shape.length - m)))
        = loop.length - loop.idxOf d by omega, hrank]
      exact q3

/-- A dimension along which samples are reduced has to be new to the object. -/
theorem pushX_taken {ops : List (Operand δ K × List δ)}
    {f : Nd.Arr (Option K) → List (Nd.Arr K) → Py (Nd.Arr (Option K))} {d : δ}
    (hd : d ∈ valDims obj moms) (ho : ∃ o ∈ ops, d ∈ o.2) :
    pushX obj moms ops f = .error .valueError := by
  obtain ⟨o, h1, h2⟩ := ho
  obtain ⟨h3, h4⟩ := mem_valDims.1 hd
  unfold pushX
  simp only []
  cases hl : loopDims (obj.frame :: ops.filterMap (fun o : Operand δ K × List δ => o.1.frame?)) []
      (moms ++ ops.flatMap Prod.snd) with
  | error e => rw [loopDims_error hl]; rfl
  | ok loop =>
  rw [bind_ok]
  obtain ⟨-, -, -, l4⟩ := loopDims_inv hl
  cases hobj : compatData obj loop moms with
  | error e => rw [compatData_error hobj]; rfl
  | ok out =>
  rcases List.mem_append.1 ((compatData_inv hobj).2 d h3) with h | h
  · exact absurd (List.mem_append_right _ (List.mem_flatMap.2 ⟨o, h1, h2⟩)) ((l4 d).1 h).1
  · exact absurd h h4

theorem pushValX_refused (val : List K → V) (fam : List ℕ → Kernel K V M)
    (g : LabelledObject obj moms core.nd) {x w : Operand δ K} {ys : List (Operand δ K)}
    (h : ∃ o ∈ x :: w :: ys, Foreign obj moms [] o) :
    pushValX val core fam moms obj x w ys = .error .valueError := by
  unfold pushValX
  split_ifs with hy
  · rfl
  refine pushX_foreign (core := core) g (m := 0) ?_ ?_ ?_
  · intro o ho
    obtain ⟨o', -, rfl⟩ := List.mem_map.1 ho
    rfl
  · intro loop out as has hw
    obtain ⟨hlen, -⟩ := mapM_ok_mem_right has
    obtain _ | ⟨a, _ | ⟨b, cs⟩⟩ := as
    · simp at hlen
    · simp at hlen
    · show Nd.pushValNd val core fam out a b cs = _
      unfold Nd.pushValNd
      split_ifs
      · rfl
      refine pushInto_wide ?_
      obtain ⟨a', h1, -, h3⟩ := hw
      refine ⟨_, List.mem_map.2 ⟨a', h1, rfl⟩, ?_⟩
      rw [Nd.loopShape_nil]
      rwa [Nat.sub_zero, List.take_length] at h3
  · obtain ⟨o, ho, hfo⟩ := h
    exact ⟨_, List.mem_map.2 ⟨o, ho, rfl⟩, hfo⟩

theorem pushDataX_refused (fam : List ℕ → Kernel K V M) (g : LabelledObject obj moms core.nd)
    {d : Operand δ K} (scale : Option (Nd.Arr K)) (h : Foreign obj moms moms d) :
    pushDataX core fam moms obj d scale = .error .valueError := by
  unfold pushDataX
  refine pushX_foreign (core := core) g (m := core.nd) ?_ ?_ ?_
  · intro o ho
    obtain rfl := List.mem_singleton.1 ho
    exact g.momCount
  · intro loop out as has hw
    obtain ⟨hlen, -⟩ := mapM_ok_mem_right has
    obtain ⟨a, rfl⟩ := List.length_eq_one_iff.1 (hlen.trans rfl)
    obtain ⟨a', h1, h2, h3⟩ := hw
    obtain rfl := List.mem_singleton.1 h1
    show Nd.pushDataNd core fam out a' scale = _
    unfold Nd.pushDataNd
    rw [Nd.lastAxes_ok h2]
    simp only [Except.bind]
    cases scale with
    | none =>
      refine pushInto_wide ⟨_, List.mem_singleton.2 rfl, ?_⟩
      rw [Nd.loopShape_tail _ h2]
      exact h3
    | some s =>
      refine pushInto_wide ⟨_, List.mem_cons_self, ?_⟩
      rw [Nd.loopShape_tail _ h2]
      exact h3
  · exact ⟨_, List.mem_singleton.2 rfl, h⟩

theorem pushDatasX_refused (fam : List ℕ → Kernel K V M) (g : LabelledObject obj moms core.nd)
    {d : DataArray δ K} {axis : Option (Option AxisArg)} {dim : Option (Option δ)} {dm : δ}
    (hn : d.dims.Nodup) (hd : dm ∈ d.dims) (hm : dm ∉ moms) (hsel : Chosen d.dims moms axis dim dm)
    (h : dm ∈ obj.dims ∨ Foreign obj moms (dm :: moms) (.named d)) :
    pushDatasX core fam moms obj d axis dim = .error .valueError := by
  unfold pushDatasX
  rw [selectAxisDim_ok hn hd hm hsel, bind_ok]
  rcases h with h | h
  · exact pushX_taken (mem_valDims.2 ⟨h, hm⟩) ⟨_, List.mem_singleton.2 rfl, by simp⟩
  refine pushX_foreign (core := core) g (m := core.nd + 1) ?_ ?_ ?_
  · intro o ho
    obtain rfl := List.mem_singleton.1 ho
    simp [g.momCount]
  · intro loop out as has hw
    obtain ⟨hlen, -⟩ := mapM_ok_mem_right has
    obtain ⟨a, rfl⟩ := List.length_eq_one_iff.1 (hlen.trans rfl)
    obtain ⟨a', h1, h2, h3⟩ := hw
    obtain rfl := List.mem_singleton.1 h1
    show pushDatasFrom core fam out a' = _
    unfold pushDatasFrom
    rw [Nd.lastAxes_ok h2]
    simp only [Except.bind]
    refine pushInto_wide ⟨_, List.mem_singleton.2 rfl, ?_⟩
    rw [Nd.loopShape_tail _ h2]
    exact h3
  · exact ⟨_, List.mem_singleton.2 rfl, h⟩

theorem prepOne_rank (move : Bool) (fe n : ℕ) (a : Nd.Arr K) :
    1 ≤ (Nd.prepOne move fe n a).shape.length := by
  unfold Nd.prepOne
  split_ifs with h1 h2 h3
  · simp
  · omega
  · simp [Nd.movedArr, Nd.Arr.transpose, Nd.lastOrder]
  · omega

theorem compatData_rank {α : Type} {y : DataArray δ α} {loop : List δ} {d : δ} {a : Nd.Arr α}
    (h : compatData y loop [d] = .ok a) : 1 ≤ a.shape.length := by
  have hd := (compatData_inv h).1 d (by simp)
  unfold compatData at h
  split_ifs at h with h1 h2
  · obtain rfl := Except.ok.inj h
    have : y.values.shape.length = y.dims.length := by simp [DataArray.values]
    rw [this, ← h1]
    simp
  · simp only at h
    split_ifs at h
    obtain rfl := Except.ok.inj h
    simp only [newAxes, List.length_map, List.length_range]
    rw [Nat.one_le_iff_ne_zero, Ne, List.length_eq_zero_iff, List.dropWhile_eq_nil_iff]
    intro hall
    have := hall d (by simp)
    simp [hd] at this

theorem pushValsFrom_wide (val : List K → V) (fam : List ℕ → Kernel K V M)
    {out : Nd.Arr (Option K)} {as : List (Nd.Arr K)} (hr : ∀ a ∈ as, 1 ≤ a.shape.length)
    (hw : ∃ a ∈ as, 1 ≤ a.shape.length ∧
      Wide (a.shape.take (a.shape.length - 1)) (valShape core out)) :
    pushValsFrom val core fam out as = .error .valueError := by
  unfold pushValsFrom
  simp only []
  have hm : (as.map (fun a => (a, (-1 : ℤ)))).mapM Nd.sampleOperand
      = .ok (as.map (fun a => (a, a.shape.length - 1))) := by
    rw [List.mapM_map, Nd.mapM_ok_of_forall _ (fun a => (a, a.shape.length - 1))]
    intro a ha
    have h1 := hr a ha
    have hr : InRange a.shape.length (-1) := by unfold InRange; omega
    show (Nd.coreAxes a.shape.length [-1]).map _ = _
    rw [Nd.coreAxes_ok (by simpa using hr) (by simp)]
    simp only [Except.map, List.map_cons, List.headD_cons]
    congr 2
    have := Nd.wrap_neg hr (by omega)
    omega
  unfold Nd.sampleOperands
  rw [hm, bind_ok]
  split_ifs
  · rw [bind_ok]
    refine pushInto_wide ?_
    obtain ⟨a, h1, h2, h3⟩ := hw
    refine ⟨_, List.mem_map.2 ⟨(a, a.shape.length - 1), List.mem_map.2 ⟨a, h1, rfl⟩, rfl⟩, ?_⟩
    have := Nd.loopShape_tail a h2
    rw [tailAxes_one] at this
    rw [this]
    exact h3
  · rfl

theorem pushValsX_refused (val : List K → V) (fam : List ℕ → Kernel K V M)
    (g : LabelledObject obj moms core.nd) {x : DataArray δ K} {w : Operand δ K}
    {ys : List (Operand δ K)} {axis : Option (Option AxisArg)} {dim : Option (Option δ)} {dm : δ}
    (hy : ys.length + 1 = core.nd) (hn : x.dims.Nodup) (hd : dm ∈ x.dims)
    (hsel : Chosen x.dims [] axis dim dm)
    (hu : ∀ a, .plain a ∈ w :: ys → Usable a (nameFromEnd x dm) (x.size dm))
    (h : dm ∈ valDims obj moms ∨ ∃ o ∈ .named x :: w :: ys, Foreign obj moms [dm] o) :
    pushValsX val core fam moms obj x w ys axis dim = .error .valueError := by
  unfold pushValsX
  rw [xprepareValues_ok (by simp [hy]) hn hd hsel hu, bind_ok]
  simp only []
  rcases h with h | h
  · exact pushX_taken h ⟨(.named x, [dm]), by simp, by simp⟩
  refine pushX_foreign (core := core) g (m := 1) ?_ ?_ ?_
  · intro o ho
    obtain ⟨o', -, rfl⟩ := List.mem_map.1 ho
    rfl
  · intro loop out as has hw
    obtain ⟨hlen, hall⟩ := mapM_ok_mem_right has
    have hrank : ∀ a ∈ as, 1 ≤ a.shape.length := by
      intro a ha
      obtain ⟨o, h1, h2⟩ := hall a ha
      obtain ⟨o', h3, rfl⟩ := List.mem_map.1 h1
      rcases List.mem_cons.1 h3 with rfl | h3
      · exact compatData_rank (loop := loop) h2
      · obtain ⟨o2, h4, rfl⟩ := List.mem_map.1 h3
        cases o2 with
        | named y => exact compatData_rank (loop := loop) h2
        | plain b =>
          obtain rfl := Except.ok.inj h2
          exact prepOne_rank _ _ _ _
    exact pushValsFrom_wide val fam hrank hw
  · obtain ⟨o, ho, hfo⟩ := h
    cases o with
    | plain a => exact hfo.elim
    | named y =>
      refine ⟨(.named y, [dm]), List.mem_map.2 ⟨.named y, ?_, rfl⟩, hfo⟩
      rcases List.mem_cons.1 ho with h | h
      · rw [h]; simp
      · exact List.mem_cons_of_mem _ (List.mem_map.2 ⟨_, h, rfl⟩)

end Cmomy.Labelled
