import Verif.Spec.Dataset
import Verif.Lemmas.LabelledNd
import Verif.Props.LabelledNd

/-!
# Data sets
-/

set_option linter.unusedSectionVars false

namespace Cmomy

open Spec Axes Labelled

variable {ν δ : Type} [DecidableEq ν] [DecidableEq δ] {α β γ : Type}

namespace Labelled

/-! ### Going through the variables -/

theorem mapVars_ok {f : ν → DataArray δ α → Py (DataArray δ β)}
    {P : ν → DataArray δ α → DataArray δ β → Prop} {ds : Dataset ν δ α}
    (h : ∀ v ∈ ds, ∃ y, f v.1 v.2 = .ok y ∧ P v.1 v.2 y) :
    ∃ out, ds.mapVars f = .ok out ∧ EachVariable P ds out := by
  induction ds with
  | nil => exact ⟨[], rfl, List.Forall₂.nil⟩
  | cons v ds ih =>
    obtain ⟨y, e, hy⟩ := h v List.mem_cons_self
    obtain ⟨out, e', ho⟩ := ih fun w hw => h w (List.mem_cons_of_mem _ hw)
    refine ⟨(v.1, y) :: out, ?_, List.Forall₂.cons ⟨rfl, hy⟩ ho⟩
    unfold Dataset.mapVars
    rw [e, e']
    rfl

theorem mapVars_fails {f : ν → DataArray δ α → Py (DataArray δ β)} {ds : Dataset ν δ α} {e : PyErr}
    (h : ∃ v ∈ ds, f v.1 v.2 = .error e)
    (hall : ∀ v ∈ ds, (∃ y, f v.1 v.2 = .ok y) ∨ f v.1 v.2 = .error e) :
    ds.mapVars f = .error e := by
  induction ds with
  | nil => obtain ⟨v, hv, _⟩ := h; cases hv
  | cons v ds ih =>
    unfold Dataset.mapVars
    rcases hall v List.mem_cons_self with ⟨y, hy⟩ | hy
    · rw [hy]
      have : Dataset.mapVars f ds = .error e := by
        refine ih ?_ fun w hw => hall w (List.mem_cons_of_mem _ hw)
        obtain ⟨w, hw, hwe⟩ := h
        rcases List.mem_cons.1 hw with rfl | hw
        · rw [hy] at hwe; cases hwe
        · exact ⟨w, hw, hwe⟩
      simp only [Except.bind, this]
      rfl
    · rw [hy]; rfl

theorem eachVariable_mem {R : ν → DataArray δ α → DataArray δ β → Prop} {ds : Dataset ν δ α}
    {out : Dataset ν δ β} (h : EachVariable R ds out) :
    (∀ w ∈ out, ∃ v ∈ ds, v.1 = w.1 ∧ R v.1 v.2 w.2) ∧
    (∀ v ∈ ds, ∃ w ∈ out, v.1 = w.1 ∧ R v.1 v.2 w.2) := by
  induction h with
  | nil => simp
  | cons hd _ ih =>
    constructor
    · intro w hw
      rcases List.mem_cons.1 hw with rfl | hw
      · exact ⟨_, List.mem_cons_self, hd⟩
      · obtain ⟨v, hv, h⟩ := ih.1 w hw
        exact ⟨v, List.mem_cons_of_mem _ hv, h⟩
    · intro v hv
      rcases List.mem_cons.1 hv with rfl | hv
      · exact ⟨_, List.mem_cons_self, hd⟩
      · obtain ⟨w, hw, h⟩ := ih.2 v hv
        exact ⟨w, List.mem_cons_of_mem _ hw, h⟩

theorem eachVariable_imp {R S : ν → DataArray δ α → DataArray δ β → Prop} {ds : Dataset ν δ α}
    {out : Dataset ν δ β} (h : EachVariable R ds out)
    (hi : ∀ v ∈ ds, ∀ y, R v.1 v.2 y → S v.1 v.2 y) : EachVariable S ds out := by
  induction h with
  | nil => exact List.Forall₂.nil
  | cons hd _ ih =>
    exact List.Forall₂.cons ⟨hd.1, hi _ List.mem_cons_self _ hd.2⟩
      (ih fun v hv => hi v (List.mem_cons_of_mem _ hv))

theorem eachVariable_names {R : ν → DataArray δ α → DataArray δ β → Prop} {ds : Dataset ν δ α}
    {out : Dataset ν δ β} (h : EachVariable R ds out) : out.map Prod.fst = ds.map Prod.fst := by
  induction h with
  | nil => rfl
  | cons hd _ ih => rw [List.map_cons, List.map_cons, ih, hd.1]

/-- Two passes, one after the other. -/
theorem mapVars_then {R : ν → DataArray δ α → DataArray δ β → Prop}
    {f : ν → DataArray δ β → Py (DataArray δ γ)} {P : ν → DataArray δ α → DataArray δ γ → Prop}
    {ds : Dataset ν δ α} {out : Dataset ν δ β} (h : EachVariable R ds out)
    (hf : ∀ v ∈ ds, ∀ y, R v.1 v.2 y → ∃ z, f v.1 y = .ok z ∧ P v.1 v.2 z) :
    ∃ out', out.mapVars f = .ok out' ∧ EachVariable P ds out' := by
  induction h with
  | nil => exact ⟨[], rfl, List.Forall₂.nil⟩
  | @cons v w ds out hd _ ih =>
    obtain ⟨z, e, hz⟩ := hf v List.mem_cons_self _ hd.2
    obtain ⟨out', e', ho⟩ := ih fun u hu => hf u (List.mem_cons_of_mem _ hu)
    refine ⟨(w.1, z) :: out', ?_, List.Forall₂.cons ⟨hd.1, hz⟩ ho⟩
    unfold Dataset.mapVars
    rw [← hd.1, e, e']
    rfl

theorem lookup_of_mem {ds : List (ν × α)} (hn : (ds.map Prod.fst).Nodup) {v : ν × α} (hv : v ∈ ds) :
    ds.lookup v.1 = some v.2 := by
  induction ds with
  | nil => cases hv
  | cons w ds ih =>
    rw [List.map_cons, List.nodup_cons] at hn
    rcases List.mem_cons.1 hv with rfl | hv
    · rw [List.lookup_cons, beq_self_eq_true]
    · have hne : v.1 ≠ w.1 := fun h => hn.1 (h ▸ List.mem_map_of_mem hv)
      rw [List.lookup_cons]
      have : (v.1 == w.1) = false := by simpa using hne
      rw [this]
      exact ih hn.2 hv

theorem dimsOf_mem {ds : Dataset ν δ α} (hn : (ds.map Prod.fst).Nodup) {v : ν × DataArray δ α}
    (hv : v ∈ ds) : ds.dimsOf v.1 = v.2.dims := by
  unfold Dataset.dimsOf
  rw [lookup_of_mem hn hv]
  rfl

/-! ### Sizes -/

theorem build_ok {ds : Dataset ν δ α} {S : δ → ℕ} (h : ∀ v ∈ ds, ∀ d ∈ v.2.dims, v.2.size d = S d) :
    ds.build = .ok ds := by
  unfold Dataset.build
  rw [if_pos]
  intro v hv w hw d hd hd'
  rw [h v hv d hd, h w hw d hd']

theorem build_fails {ds : Dataset ν δ α} {v w : ν × DataArray δ α} (hv : v ∈ ds) (hw : w ∈ ds) {d : δ}
    (hd : d ∈ v.2.dims) (hd' : d ∈ w.2.dims) (hne : v.2.size d ≠ w.2.size d) :
    ds.build = .error .valueError := by
  unfold Dataset.build
  rw [if_neg]
  intro h
  exact hne (h v hv w hw d hd hd')

/-- The size of a dimension in whichever variable has it. -/
noncomputable def commonSize (ds : Dataset ν δ α) (d : δ) : ℕ :=
  match ds.sizeOf d with
  | .ok n => n
  | .error _ => 0

theorem sizeOf_ok {ds : Dataset ν δ α} (g : GoodDataset ds) {v : ν × DataArray δ α} (hv : v ∈ ds)
    {d : δ} (hd : d ∈ v.2.dims) : ds.sizeOf d = .ok (v.2.size d) := by
  unfold Dataset.sizeOf
  cases h : ds.find? (fun v => decide (d ∈ v.2.dims)) with
  | none => simpa [hd] using List.find?_eq_none.1 h v hv
  | some w =>
    have h1 := List.mem_of_find?_eq_some h
    have h2 := List.find?_some h
    simp only [decide_eq_true_eq] at h2
    exact congrArg Except.ok (g.sizes w h1 v hv d h2 hd)

theorem commonSize_eq {ds : Dataset ν δ α} (g : GoodDataset ds) {v : ν × DataArray δ α} (hv : v ∈ ds)
    {d : δ} (hd : d ∈ v.2.dims) : commonSize ds d = v.2.size d := by
  unfold commonSize
  rw [sizeOf_ok g hv hd]

theorem sizeOf_fails {ds : Dataset ν δ α} {d : δ} (h : ¬ ds.HasDim d) :
    ds.sizeOf d = .error .keyError := by
  unfold Dataset.sizeOf
  rw [List.find?_eq_none.2]
  intro v hv
  simp only [decide_eq_true_eq]
  exact fun hd => h ⟨v, hv, hd⟩

/-! ### Putting dimensions in order -/

theorem lastOf_perm {dims last : List δ} (hd : dims.Nodup) (hl : last.Nodup) :
    (lastOf dims last).Perm dims := by
  unfold lastOf
  rw [List.perm_ext_iff_of_nodup _ hd]
  · intro d
    simp only [List.mem_append, List.mem_filter, decide_eq_true_eq]
    by_cases h : d ∈ last <;> simp [h]
  · rw [List.nodup_append]
    refine ⟨hd.filter _, hl.filter _, ?_⟩
    intro a ha b hb hab
    subst hab
    rw [List.mem_filter] at ha hb
    simp [hb.1] at ha

theorem lastOf_all {dims last : List δ} (hs : ∀ d ∈ last, d ∈ dims) :
    lastOf dims last = dims.filter (fun d => decide (d ∉ last)) ++ last := by
  unfold lastOf
  congr 1
  rw [List.filter_eq_self]
  intro d hd
  simpa using hs d hd

theorem lastOf_self (dims : List δ) : lastOf dims dims = dims := by
  unfold lastOf
  rw [List.filter_eq_nil_iff.2 (by simp), List.filter_eq_self.2 (by simp), List.nil_append]

/-- `transpose_like` with the ellipsis first: where the dimensions end. -/
theorem transposeLike_any (x : Arr δ α) (hx : x.dims.Nodup) {template : List δ}
    (ht : template.Nodup) (replace : List (δ × δ)) (remove append : List δ)
    (hw : (wantedDims template replace remove append).Nodup) :
    ∃ y, transposeLike x template replace remove [none] (append.map some) = .ok y ∧
      SameValues x y ∧ y.dims = lastOf x.dims (wantedDims template replace remove append) := by
  obtain ⟨y, e, ho, hv⟩ := C47_transpose_like x hx template ht replace remove append hw
  refine ⟨y, e, hv, C47_unique hx hw ho ?_⟩
  exact ⟨_, _, rfl, lastOf_perm hx hw, List.filter_sublist, fun d hd => by
    rw [List.mem_filter] at hd; simpa using hd.2, List.filter_sublist⟩

theorem transpose_any (x : Arr δ α) (hx : x.dims.Nodup) {last : List δ} (hl : last.Nodup) :
    ∃ y, transpose x (none :: last.map some) = .ok y ∧ SameValues x y ∧
      y.dims = lastOf x.dims last := by
  obtain ⟨y, e, hv, hd⟩ := transposeLike_any x hx hl [] [] [] (by simpa [wantedDims] using hl)
  refine ⟨y, ?_, hv, by simpa [wantedDims] using hd⟩
  have h : targetOrder last [] [] [none] ([] : List (Option δ)) = none :: last.map some := by
    simp [targetOrder]
  have hne : targetOrder last [] [] [none] ([] : List (Option δ)) ≠ x.dims.map some := by
    rw [h]
    intro h
    have : (none : Option δ) ∈ x.dims.map some := by rw [← h]; exact List.mem_cons_self
    simp at this
  unfold transposeLike at e
  simp only [List.map_nil] at e
  rw [if_pos hne, h] at e
  exact e

theorem copyOf_mapData (lift : α → β) (x : DataArray δ α) : CopyOf lift x x.dims (x.mapData lift) :=
  ⟨rfl, fun _ _ => rfl, fun _ _ => rfl⟩

/-- A step that only moves dimensions of a copy. -/
theorem copyOf_step {lift : α → β} {x : DataArray δ α} {f : Arr δ β → Py (Arr δ β)} {z : Arr δ β}
    (hf : f (x.mapData lift).toArr = .ok z) (hv : SameValues (x.mapData lift).toArr z)
    {dims : List δ} (hd : z.dims = dims) (hp : dims.Perm x.dims) :
    ∃ w, (x.mapData lift).step f = .ok w ∧ CopyOf lift x dims w :=
  step_shows (copyOf_mapData lift x) hf hv hd fun _ => hp.mem_iff.symm

theorem copy_same {x : DataArray δ α} (hx : x.dims.Nodup) {dim : δ} {moms : List δ}
    (hL : (dim :: moms).Nodup) (lift : α → β) (axesToEnd : Bool) :
    ∃ w, (x.mapData lift).step (fun z => sameDims z x.dims dim moms axesToEnd true) = .ok w ∧
      CopyOf lift x (copyDims x.dims dim moms axesToEnd) w := by
  cases axesToEnd with
  | false =>
    obtain ⟨z, e, hv, hd⟩ := transposeLike_any (x.mapData lift).toArr hx hx [] [] []
      (by simpa [wantedDims] using hx)
    have hd' : z.dims = x.dims := by
      rw [hd]
      simp only [wantedDims, List.not_mem_nil, not_false_eq_true, decide_true, List.filter_true,
        List.lookup_nil, Option.getD_none, List.map_id', List.append_nil]
      exact lastOf_self _
    exact copyOf_step (by unfold sameDims; rw [if_pos rfl]; exact e) hv hd' (List.Perm.refl _)
  | true =>
    obtain ⟨z, e, hv, hd⟩ := transpose_any (x.mapData lift).toArr hx hL
    exact copyOf_step (by unfold sameDims; rw [if_neg (by simp), if_pos rfl]; exact e) hv hd
      (lastOf_perm hx hL)

theorem step_alike {y : DataArray δ α} {f g : Arr δ α → Py (Arr δ α)} {a b : Arr δ α}
    (ha : f y.toArr = .ok a) (hb : g y.toArr = .ok b) (va : SameValues y.toArr a)
    (vb : SameValues y.toArr b) (hd : a.dims = b.dims) :
    ∃ w z, y.step f = .ok w ∧ y.step g = .ok z ∧ Alike w z :=
  ⟨{ a with size := y.size }, { b with size := y.size }, by unfold DataArray.step; rw [ha]; rfl,
    by unfold DataArray.step; rw [hb]; rfl, hd, fun _ _ => rfl, fun c => (va c).symm.trans (vb c)⟩

/-- The last step for a variable of a data set and for an array do the same. -/
theorem same_alike {x : DataArray δ α} {moms : List δ} {dim : δ} (g : GoodNamed x moms dim)
    {y : DataArray δ β}
    (hy : y.dims = x.dims.filter (fun d => decide (d ∉ dim :: moms)) ++ dim :: moms)
    (axesToEnd : Bool) :
    ∃ w z, y.step (fun z => sameDims z x.dims dim moms axesToEnd true) = .ok w ∧
      y.step (fun z => sameDims z x.dims dim moms axesToEnd false) = .ok z ∧ Alike w z := by
  have hy' : y.toArr.dims = applyUfuncDims [x.dims] [dim :: moms] (dim :: moms) := by
    rw [applyUfuncDims_one g.distinct]; exact hy
  obtain ⟨⟨a, e, v, h⟩, ⟨a', e', v', h'⟩⟩ := C47_same_dims x.dims dim moms g.distinct g.momDistinct
    g.present g.momPresent g.notMom false y.toArr hy'
  obtain ⟨⟨b, f, u, i⟩, ⟨b', f', u', i'⟩⟩ := C47_same_dims x.dims dim moms g.distinct g.momDistinct
    g.present g.momPresent g.notMom true y.toArr hy'
  cases axesToEnd with
  | false => exact step_alike f e u v (i.trans h.symm)
  | true => exact step_alike f' e' u' v' (i'.trans h'.symm)

theorem step_same_end {y : DataArray δ β} {dims moms : List δ} {dim : δ} :
    y.step (fun z => sameDims z dims dim moms true false) = .ok y := by
  unfold DataArray.step sameDims
  simp only [Bool.true_eq_false, if_false, Bool.false_eq_true]
  rfl

/-! ### One call for all variables -/

theorem applyDataset_ok {ds : Dataset ν δ α} {core : List δ} {lift : α → β}
    {inner : ν → DataArray δ α → Py (DataArray δ β)} {S : δ → ℕ}
    (hin : ∀ v ∈ ds, Has v.2 core → ∃ y, inner v.1 v.2 = .ok y ∧ ∀ d ∈ y.dims, y.size d = S d)
    (hcp : ∀ v ∈ ds, ¬ Has v.2 core → ∀ d ∈ v.2.dims, v.2.size d = S d) :
    ∃ out, applyDataset ds core lift inner = .ok out ∧
      EachVariable (fun n x y => (Has x core → inner n x = .ok y) ∧
        (¬ Has x core → y = x.mapData lift)) ds out := by
  obtain ⟨out, e, h⟩ := mapVars_ok (ds := ds)
    (f := fun n x => if ∀ d ∈ core, d ∈ x.dims then inner n x else .ok (x.mapData lift))
    (P := fun n x y => ((Has x core → inner n x = .ok y) ∧ (¬ Has x core → y = x.mapData lift)) ∧
      ∀ d ∈ y.dims, y.size d = S d)
    (fun v hv => by
      by_cases hh : Has v.2 core
      · obtain ⟨y, ey, hy⟩ := hin v hv hh
        exact ⟨y, (if_pos hh).trans (ey), ⟨fun _ => ey, fun h => absurd hh h⟩, hy⟩
      · exact ⟨_, if_neg hh, ⟨fun h => absurd h hh, fun _ => rfl⟩, hcp v hv hh⟩)
  refine ⟨out, ?_, eachVariable_imp h fun _ _ _ h => h.1⟩
  unfold applyDataset
  rw [e]
  refine build_ok (S := S) fun w hw => ?_
  obtain ⟨v, _, _, h⟩ := (eachVariable_mem h).1 w hw
  exact h.2

theorem applyDataset_fails {ds : Dataset ν δ α} {core : List δ} {lift : α → β}
    {inner : ν → DataArray δ α → Py (DataArray δ β)} {e : PyErr}
    {v : ν × DataArray δ α} (hv : v ∈ ds) (hh : Has v.2 core)
    (hin : ∀ v ∈ ds, Has v.2 core → inner v.1 v.2 = .error e) :
    applyDataset ds core lift inner = .error e := by
  unfold applyDataset
  rw [mapVars_fails (e := e)]
  · rfl
  · exact ⟨v, hv, (if_pos hh).trans (hin v hv hh)⟩
  · intro w hw
    by_cases h : Has w.2 core
    · exact .inr ((if_pos h).trans (hin w hw h))
    · exact .inl ⟨_, if_neg h⟩

/-- A copied variable of another size along a dimension of a result. -/
theorem applyDataset_conflict {ds : Dataset ν δ α} {core : List δ} {lift : α → β}
    {inner : ν → DataArray δ α → Py (DataArray δ β)}
    (hin : ∀ v ∈ ds, Has v.2 core → ∃ y, inner v.1 v.2 = .ok y)
    {v w : ν × DataArray δ α} (hv : v ∈ ds) (hw : w ∈ ds) (hh : Has v.2 core) (hn : ¬ Has w.2 core)
    {y : DataArray δ β} (hy : inner v.1 v.2 = .ok y) {d : δ} (hd : d ∈ y.dims) (hd' : d ∈ w.2.dims)
    (hne : y.size d ≠ w.2.size d) :
    applyDataset ds core lift inner = .error .valueError := by
  obtain ⟨out, e, h⟩ := mapVars_ok (ds := ds)
    (f := fun n x => if ∀ d ∈ core, d ∈ x.dims then inner n x else .ok (x.mapData lift))
    (P := fun n x y => (Has x core → inner n x = .ok y) ∧ (¬ Has x core → y = x.mapData lift))
    (fun v hv => by
      by_cases hh : Has v.2 core
      · obtain ⟨y, ey⟩ := hin v hv hh
        exact ⟨y, (if_pos hh).trans (ey), fun _ => ey, fun h => absurd hh h⟩
      · exact ⟨_, if_neg hh, fun h => absurd h hh, fun _ => rfl⟩)
  unfold applyDataset
  rw [e]
  obtain ⟨v', hv', _, h1, -⟩ := (eachVariable_mem h).2 v hv
  obtain ⟨w', hw', _, -, h2⟩ := (eachVariable_mem h).2 w hw
  have e1 : v'.2 = y := by
    have := h1 hh
    rw [hy] at this
    exact (Except.ok.inj this).symm
  have e2 := h2 hn
  refine build_fails hv' hw' (d := d) (by rw [e1]; exact hd) (by rw [e2]; exact hd') ?_
  rw [e1, e2]
  exact hne

/-- The result of `apply_ufunc` with its dimensions put in order. -/
theorem same_dataset {ds : Dataset ν δ α} (g : GoodDataset ds) {dim : δ} {moms : List δ}
    (hL : (dim :: moms).Nodup) {lift : α → β} {inner : ν → DataArray δ α → Py (DataArray δ β)}
    {S : δ → ℕ}
    (hin : ∀ v ∈ ds, Has v.2 (dim :: moms) → ∃ y, inner v.1 v.2 = .ok y ∧
      y.dims = v.2.dims.filter (fun d => decide (d ∉ dim :: moms)) ++ dim :: moms ∧
      ∀ d ∈ y.dims, y.size d = S d)
    (hcp : ∀ v ∈ ds, ¬ Has v.2 (dim :: moms) → ∀ d ∈ v.2.dims, v.2.size d = S d)
    (axesToEnd : Bool) :
    ∃ out, ((applyDataset ds (dim :: moms) lift inner).bind fun out =>
        orderSame ds out dim moms axesToEnd) = .ok out ∧
      EachVariable (OnItsOwn (dim :: moms)
        (fun n x => (inner n x).bind fun y =>
          y.step (fun z => sameDims z x.dims dim moms axesToEnd false))
        (fun x y => CopyOf lift x (copyDims x.dims dim moms axesToEnd) y)) ds out := by
  obtain ⟨out, e, h⟩ := applyDataset_ok (lift := lift)
    (fun v hv hh => (hin v hv hh).imp fun _ h => ⟨h.1, h.2.2⟩) hcp
  rw [e]
  refine mapVars_then h fun v hv y hy => ?_
  rw [dimsOf_mem g.names hv]
  by_cases hh : Has v.2 (dim :: moms)
  · obtain ⟨y', e', hd, -⟩ := hin v hv hh
    have hyy : y' = y := by
      have := hy.1 hh
      rw [e'] at this
      exact Except.ok.inj this
    subst hyy
    have gn : GoodNamed v.2 moms dim :=
      { distinct := g.distinct v hv
        momDistinct := (List.nodup_cons.1 hL).2
        momPresent := fun d hd => hh d (List.mem_cons_of_mem _ hd)
        present := hh dim List.mem_cons_self
        notMom := (List.nodup_cons.1 hL).1 }
    obtain ⟨w, z, e1, e2, ha⟩ := same_alike gn hd axesToEnd
    refine ⟨w, e1, fun _ => ⟨z, ?_, ha⟩, fun h => absurd hh h⟩
    show (inner v.1 v.2).bind _ = _
    rw [e']
    exact e2
  · rw [hy.2 hh]
    obtain ⟨w, e1, hw⟩ := copy_same (g.distinct v hv) hL lift axesToEnd
    exact ⟨w, e1, fun h => absurd h hh, fun _ => hw⟩

/-! ### Renaming -/

theorem rename_alike {y z w : DataArray δ α} (h : Alike y z) {old new : δ}
    (e : y.rename old new = .ok w) : ∃ w', z.rename old new = .ok w' ∧ Alike w w' := by
  unfold DataArray.rename at e ⊢
  rw [← h.dims_eq]
  by_cases h1 : old ∉ y.dims
  · rw [if_pos h1] at e; cases e
  · rw [if_neg h1] at e ⊢
    have ho : old ∈ y.dims := by simpa using h1
    by_cases h2 : new = old
    · rw [if_pos h2] at e ⊢
      exact ⟨z, rfl, Except.ok.inj e ▸ h⟩
    · rw [if_neg h2] at e ⊢
      by_cases h3 : new ∈ y.dims
      · rw [if_pos h3] at e; cases e
      · rw [if_neg h3] at e ⊢
        refine ⟨_, rfl, ?_⟩
        rw [← Except.ok.inj e]
        refine ⟨rfl, fun d hd => ?_, fun c => ?_⟩
        · obtain ⟨a, ha, rfl⟩ := List.mem_map.1 hd
          by_cases h4 : a = old
          · simp only [h4, if_true]
            exact h.size_eq old ho
          · have : a ≠ new := fun h' => h3 (h' ▸ ha)
            simp only [h4, if_false, this]
            exact h.size_eq a ha
        · have := h.entry_eq (fun d => c (if d = old then new else d))
          unfold entry at this ⊢
          rw [← h.dims_eq] at this
          simp only [List.map_map]
          exact this

theorem renamed_of_not_mem {dims : List δ} {old new : δ} (h : old ∉ dims) :
    renamed dims old new = dims := by
  unfold renamed
  conv_rhs => rw [← List.map_id dims]
  refine List.map_congr_left fun d hd => ?_
  have : d ≠ old := fun h' => h (h' ▸ hd)
  rw [if_neg this]
  rfl

theorem renamed_refl (dims : List δ) (old : δ) : renamed dims old old = dims := by
  unfold renamed
  conv_rhs => rw [← List.map_id dims]
  refine List.map_congr_left fun d _ => ?_
  by_cases h : d = old
  · rw [if_pos h, h]; rfl
  · rw [if_neg h]; rfl

/-- A copy, nothing being renamed. -/
theorem copyAs_refl {lift : α → β} {x : DataArray δ α} {dims : List δ} {y : DataArray δ β}
    (h : CopyOf lift x dims y) (old : δ) : CopyAs lift x dims old old y := by
  unfold CopyAs
  rw [renamed_refl]
  refine ⟨h.dims_eq, fun d hd => ?_, fun c hc => ?_⟩
  · rw [h.size_eq d hd]
    by_cases h1 : d = old
    · rw [if_pos h1, h1]
    · rw [if_neg h1]
  · rw [Function.update_eq_self]
    refine h.entry_eq c fun d hd => ?_
    have := hc d hd
    by_cases h1 : d = old
    · rw [if_pos h1] at this; rw [h1] at this ⊢; exact this
    · rw [if_neg h1] at this; exact this

theorem copyAs_absent {lift : α → β} {x : DataArray δ α} {dims : List δ} {y : DataArray δ β}
    (h : CopyOf lift x dims y) (hp : dims.Perm x.dims) {old new : δ} (ho : old ∉ x.dims)
    (hn : new ∉ x.dims) : CopyAs lift x dims old new y := by
  have ho' : old ∉ dims := fun h => ho (hp.mem_iff.1 h)
  have hnd : ∀ d ∈ dims, d ≠ new := fun d hd h => hn (h ▸ hp.mem_iff.1 hd)
  unfold CopyAs
  rw [renamed_of_not_mem ho']
  refine ⟨h.dims_eq, fun d hd => by rw [if_neg (hnd d hd)]; exact h.size_eq d hd, fun c hc => ?_⟩
  rw [h.entry_eq c fun d hd => by have := hc d hd; rwa [if_neg (hnd d hd)] at this]
  refine congrArg lift ?_
  unfold entry
  refine congrArg x.data (List.map_congr_left fun d hd => ?_)
  have : d ≠ old := fun h' => ho (h' ▸ hd)
  rw [Function.update_of_ne this]

theorem copyDims_perm {dims : List δ} (hd : dims.Nodup) {dim : δ} {moms : List δ}
    (hL : (dim :: moms).Nodup) (axesToEnd : Bool) : (copyDims dims dim moms axesToEnd).Perm dims := by
  unfold copyDims
  cases axesToEnd
  · exact List.Perm.refl _
  · exact lastOf_perm hd hL

/-- Renaming the dimension after the rest. -/
theorem renameTo_dataset {ds : Dataset ν δ α} (g : GoodDataset ds) {dim : δ} {moms : List δ}
    (hL : (dim :: moms).Nodup) {lift : α → β} {single : ν → DataArray δ α → Py (DataArray δ β)}
    {axesToEnd : Bool} {out : Dataset ν δ β}
    (h : EachVariable (OnItsOwn (dim :: moms) single
      (fun x y => CopyOf lift x (copyDims x.dims dim moms axesToEnd) y)) ds out)
    (hdims : ∀ v ∈ ds, ∀ z, single v.1 v.2 = .ok z → Has v.2 (dim :: moms) →
      ∀ d, d ∈ z.dims ↔ d ∈ v.2.dims)
    {group : Option δ} (hdim : group ≠ none → ds.HasDim dim)
    (hgr : ∀ n, group = some n → n = dim ∨ ¬ ds.HasDim n) :
    ∃ out', out.renameTo dim group = .ok out' ∧
      EachVariable (OnItsOwn (dim :: moms)
        (fun n x => (single n x).bind fun z =>
          match group with
          | none => .ok z
          | some n => z.rename dim n)
        (fun x y => CopyAs lift x (copyDims x.dims dim moms axesToEnd) dim (group.getD dim) y))
        ds out' := by
  cases group with
  | none =>
    refine ⟨out, rfl, eachVariable_imp h fun v _ y hy => ⟨fun hh => ?_, fun hh => ?_⟩⟩
    · obtain ⟨z, e, ha⟩ := hy.1 hh
      refine ⟨z, ?_, ha⟩
      show (single v.1 v.2).bind _ = _
      rw [e]
      rfl
    · exact copyAs_refl (hy.2 hh) dim
  | some new =>
    have hmem : ∀ v ∈ ds, ∀ y : DataArray δ β, OnItsOwn (dim :: moms) single
        (fun x y => CopyOf lift x (copyDims x.dims dim moms axesToEnd) y) v.1 v.2 y →
        ∀ d, d ∈ y.dims ↔ d ∈ v.2.dims := by
      intro v hv y hy d
      by_cases hh : Has v.2 (dim :: moms)
      · obtain ⟨z, e, ha⟩ := hy.1 hh
        rw [ha.dims_eq]
        exact hdims v hv z e hh d
      · rw [(hy.2 hh).dims_eq]
        exact (copyDims_perm (g.distinct v hv) hL axesToEnd).mem_iff
    have hh1 : ∀ d, out.HasDim d ↔ ds.HasDim d := by
      intro d
      constructor
      · rintro ⟨w, hw, hd⟩
        obtain ⟨v, hv, -, hr⟩ := (eachVariable_mem h).1 w hw
        exact ⟨v, hv, (hmem v hv _ hr d).1 hd⟩
      · rintro ⟨v, hv, hd⟩
        obtain ⟨w, hw, -, hr⟩ := (eachVariable_mem h).2 v hv
        exact ⟨w, hw, (hmem v hv _ hr d).2 hd⟩
    show ∃ out', out.rename dim new = .ok out' ∧ _
    unfold Dataset.rename
    rw [if_neg (by simpa [hh1] using hdim (by simp))]
    by_cases hnd : new = dim
    · subst hnd
      rw [if_pos rfl]
      refine ⟨out, rfl, eachVariable_imp h fun v hv y hy => ⟨fun hh => ?_, fun hh => ?_⟩⟩
      · obtain ⟨z, e, ha⟩ := hy.1 hh
        refine ⟨z, ?_, ha⟩
        show (single v.1 v.2).bind _ = _
        rw [e]
        have hz : new ∈ z.dims := (hdims v hv z e hh new).2 (hh new List.mem_cons_self)
        simp [Except.bind, DataArray.rename, hz]
      · exact copyAs_refl (hy.2 hh) new
    · have hno : ¬ ds.HasDim new := (hgr new rfl).resolve_left hnd
      rw [if_neg hnd, if_neg (by simpa [hh1] using hno)]
      refine mapVars_then h fun v hv y hy => ?_
      have hnx : new ∉ v.2.dims := fun hx => hno ⟨v, hv, hx⟩
      by_cases hh : Has v.2 (dim :: moms)
      · obtain ⟨z, e, ha⟩ := hy.1 hh
        have hdy : dim ∈ y.dims := (hmem v hv y hy dim).2 (hh dim List.mem_cons_self)
        have hny : new ∉ y.dims := fun h => hnx ((hmem v hv y hy new).1 h)
        obtain ⟨w, er⟩ : ∃ w, y.rename dim new = .ok w := by
          unfold DataArray.rename
          rw [if_neg (by simpa using hdy), if_neg hnd, if_neg hny]
          exact ⟨_, rfl⟩
        obtain ⟨w', ew, ha'⟩ := rename_alike ha er
        refine ⟨_, by rw [if_pos hdy]; exact er, fun _ => ⟨w', ?_, ha'⟩, fun h => absurd hh h⟩
        show (single v.1 v.2).bind _ = _
        rw [e]
        exact ew
      · have hc := hy.2 hh
        by_cases hdx : dim ∈ v.2.dims
        · have hdc : dim ∈ copyDims v.2.dims dim moms axesToEnd :=
            (copyDims_perm (g.distinct v hv) hL axesToEnd).mem_iff.2 hdx
          obtain ⟨w, ew, hw⟩ := rename_shows hc hdc
            (fun h => hnx ((copyDims_perm (g.distinct v hv) hL axesToEnd).mem_iff.1 h))
          exact ⟨w, by rw [if_pos ((hmem v hv y hy dim).2 hdx)]; exact ew,
            fun h => absurd h hh, fun _ => hw⟩
        · exact ⟨y, by rw [if_neg fun h => hdx ((hmem v hv y hy dim).1 h)], fun h => absurd h hh,
            fun _ => copyAs_absent hc (copyDims_perm (g.distinct v hv) hL axesToEnd) hdx hnx⟩

/-! ### What the calls for one variable give -/

theorem goodNamed_of {ds : Dataset ν δ α} (g : GoodDataset ds) {dim : δ} {moms : List δ}
    (hL : (dim :: moms).Nodup) {v : ν × DataArray δ α} (hv : v ∈ ds) (hh : Has v.2 (dim :: moms)) :
    GoodNamed v.2 moms dim where
  distinct := g.distinct v hv
  momDistinct := (List.nodup_cons.1 hL).2
  momPresent := fun d hd => hh d (List.mem_cons_of_mem _ hd)
  present := hh dim List.mem_cons_self
  notMom := (List.nodup_cons.1 hL).1

/-- From the call with `axes_to_end` to what `apply_ufunc` gives. -/
theorem inner_ok {i : Py (DataArray δ β)} {dims : List δ} {dim : δ} {moms : List δ} {S : δ → ℕ}
    {F : (δ → ℕ) → β}
    (h : ∃ y, (i.bind fun y => y.step (fun z => sameDims z dims dim moms true false)) = .ok y ∧
      ShowsNamed y (dimsAfter dims dim moms true) S F) :
    ∃ y, i = .ok y ∧ y.dims = dims.filter (fun d => decide (d ∉ dim :: moms)) ++ dim :: moms ∧
      ∀ d ∈ y.dims, y.size d = S d := by
  obtain ⟨y, e, hy⟩ := h
  cases i with
  | error e' => cases e
  | ok y' =>
    have : y' = y := by
      have := (step_same_end (y := y') (dims := dims) (dim := dim) (moms := moms)).symm.trans e
      exact Except.ok.inj this
    subst this
    refine ⟨y', rfl, hy.dims_eq, fun d hd => hy.size_eq d ?_⟩
    rw [← hy.dims_eq]
    exact hd

theorem mem_step_same {x : DataArray δ α} {moms : List δ} {dim : δ} (g : GoodNamed x moms dim)
    {y z : DataArray δ β}
    (hy : y.dims = x.dims.filter (fun d => decide (d ∉ dim :: moms)) ++ dim :: moms)
    {axesToEnd : Bool} (e : y.step (fun z => sameDims z x.dims dim moms axesToEnd false) = .ok z) (d : δ) :
    d ∈ z.dims ↔ d ∈ x.dims := by
  obtain ⟨w, e', hw⟩ := sameDims_shows (size := y.size) (F := entry y) g
    ⟨hy, fun _ _ => rfl, fun _ _ => rfl⟩ axesToEnd
  rw [e] at e'
  rw [Except.ok.inj e', hw.dims_eq]
  unfold dimsAfter
  cases axesToEnd
  · exact Iff.rfl
  · exact mem_filter_append g.core d

theorem inner_fails {i : Py (DataArray δ β)} {dims : List δ} {dim : δ} {moms : List δ} {e : PyErr}
    (h : (i.bind fun y => y.step (fun z => sameDims z dims dim moms true false)) = .error e) :
    i = .error e := by
  cases i with
  | error e' => exact h
  | ok y => exact absurd ((step_same_end (y := y)).symm.trans h) (by simp)

/-- All variables, from what the call for one variable gives. -/
theorem each_dataset {ds : Dataset ν δ α} (g : GoodDataset ds) {dim : δ} {moms : List δ}
    (hL : (dim :: moms).Nodup) {lift : α → β} {inner : ν → DataArray δ α → Py (DataArray δ β)}
    {single : ν → DataArray δ α → Bool → Py (DataArray δ β)} {S : δ → ℕ}
    (hX : ∀ v ∈ ds, Has v.2 (dim :: moms) → ∀ ate, single v.1 v.2 ate =
      (inner v.1 v.2).bind fun y => y.step (fun z => sameDims z v.2.dims dim moms ate false))
    (hok : ∀ v ∈ ds, Has v.2 (dim :: moms) → ∃ y size F, single v.1 v.2 true = .ok y ∧
      ShowsNamed y (dimsAfter v.2.dims dim moms true) size F ∧ ∀ d ∈ v.2.dims, size d = S d)
    (hcp : ∀ v ∈ ds, ¬ Has v.2 (dim :: moms) → ∀ d ∈ v.2.dims, v.2.size d = S d)
    (axesToEnd : Bool) :
    (∃ out, ((applyDataset ds (dim :: moms) lift inner).bind fun out =>
        orderSame ds out dim moms axesToEnd) = .ok out ∧
      EachVariable (OnItsOwn (dim :: moms) (fun n x => single n x axesToEnd)
        (fun x y => CopyOf lift x (copyDims x.dims dim moms axesToEnd) y)) ds out) ∧
    ∀ v ∈ ds, ∀ z, single v.1 v.2 axesToEnd = .ok z → Has v.2 (dim :: moms) →
      ∀ d, d ∈ z.dims ↔ d ∈ v.2.dims := by
  have hin : ∀ v ∈ ds, Has v.2 (dim :: moms) → ∃ y, inner v.1 v.2 = .ok y ∧
      y.dims = v.2.dims.filter (fun d => decide (d ∉ dim :: moms)) ++ dim :: moms ∧
      ∀ d ∈ y.dims, y.size d = S d := by
    intro v hv hh
    have gn := goodNamed_of g hL hv hh
    obtain ⟨y, size, F, e, hy, hsz⟩ := hok v hv hh
    rw [hX v hv hh] at e
    obtain ⟨y, e, hd, hs⟩ := inner_ok ⟨y, e, hy⟩
    refine ⟨y, e, hd, fun d hdy => ?_⟩
    rw [hs d hdy]
    rw [hd] at hdy
    exact hsz d ((mem_filter_append gn.core d).1 hdy)
  constructor
  · obtain ⟨out, e, h⟩ := same_dataset g hL (lift := lift) hin hcp axesToEnd
    refine ⟨out, e, eachVariable_imp h fun v hv y hy => ⟨fun hh => ?_, hy.2⟩⟩
    show ∃ z, single v.1 v.2 axesToEnd = .ok z ∧ _
    rw [hX v hv hh]
    exact hy.1 hh
  · intro v hv z e hh d
    obtain ⟨y, e', hd, -⟩ := hin v hv hh
    rw [hX v hv hh, e'] at e
    exact mem_step_same (goodNamed_of g hL hv hh) hd e d

theorem bind_ok_self {α : Type} (p : Py α) : (p.bind fun z => (.ok z : Py α)) = p := by
  cases p <;> rfl

/-- All variables, where the dimension gets a new size and perhaps a new name. -/
theorem resized_dataset {ds : Dataset ν δ α} (g : GoodDataset ds) {dim : δ} {moms : List δ}
    (hL : (dim :: moms).Nodup) {lift : α → β} {inner : ν → DataArray δ α → Py (DataArray δ β)}
    {single : ν → DataArray δ α → Option δ → Bool → Py (DataArray δ β)}
    (hX : ∀ v ∈ ds, Has v.2 (dim :: moms) → ∀ grp ate, single v.1 v.2 grp ate =
      (inner v.1 v.2).bind fun y =>
        (y.step (fun z => sameDims z v.2.dims dim moms ate false)).bind fun z =>
        match grp with
        | none => .ok z
        | some n => z.rename dim n)
    {group : Option δ} (hgr : ∀ n, group = some n → n = dim ∨ ¬ ds.HasDim n)
    (hdim : group ≠ none → ds.HasDim dim) (axesToEnd : Bool) :
    (∀ e, (∃ v ∈ ds, Has v.2 (dim :: moms)) →
      (∀ v ∈ ds, Has v.2 (dim :: moms) → single v.1 v.2 none true = .error e) →
      ((applyDataset ds (dim :: moms) lift inner).bind fun out =>
        (orderSame ds out dim moms axesToEnd).bind fun out => out.renameTo dim group) = .error e) ∧
    (∀ n, (∀ v ∈ ds, Has v.2 (dim :: moms) → ∃ y F, single v.1 v.2 none true = .ok y ∧
        ShowsNamed y (dimsAfter v.2.dims dim moms true) (sizesWith v.2 dim n) F) →
      ((∃ v ∈ ds, ∃ w ∈ ds, Has v.2 (dim :: moms) ∧ ¬ Has w.2 (dim :: moms) ∧ dim ∈ w.2.dims ∧
          w.2.size dim ≠ n) →
        ((applyDataset ds (dim :: moms) lift inner).bind fun out =>
          (orderSame ds out dim moms axesToEnd).bind fun out => out.renameTo dim group)
          = .error .valueError) ∧
      ((∀ w ∈ ds, ¬ Has w.2 (dim :: moms) → dim ∈ w.2.dims → w.2.size dim = n) →
        ∃ out, ((applyDataset ds (dim :: moms) lift inner).bind fun out =>
          (orderSame ds out dim moms axesToEnd).bind fun out => out.renameTo dim group) = .ok out ∧
          EachVariable (OnItsOwn (dim :: moms) (fun n x => single n x group axesToEnd)
            (fun x y => CopyAs lift x (copyDims x.dims dim moms axesToEnd) dim (group.getD dim) y))
            ds out)) := by
  have hX0 : ∀ v ∈ ds, Has v.2 (dim :: moms) → ∀ ate, single v.1 v.2 none ate =
      (inner v.1 v.2).bind fun y => y.step (fun z => sameDims z v.2.dims dim moms ate false) := by
    intro v hv hh ate
    rw [hX v hv hh]
    simp only [bind_ok_self]
  constructor
  · rintro e ⟨v, hv, hh⟩ hbad
    rw [applyDataset_fails (e := e) hv hh]
    · rfl
    · intro w hw hw'
      have := hbad w hw hw'
      rw [hX0 w hw hw'] at this
      cases hi : inner w.1 w.2 with
      | error e => rw [hi] at this; exact this
      | ok y =>
        rw [hi] at this
        exact absurd ((step_same_end (y := y)).symm.trans this) (by simp)
  · intro n hok
    have hin : ∀ v ∈ ds, Has v.2 (dim :: moms) → ∃ y, inner v.1 v.2 = .ok y ∧
        y.dims = v.2.dims.filter (fun d => decide (d ∉ dim :: moms)) ++ dim :: moms ∧
        ∀ d ∈ y.dims, y.size d = sizesWith v.2 dim n d := by
      intro v hv hh
      obtain ⟨y, F, e, hy⟩ := hok v hv hh
      rw [hX0 v hv hh] at e
      exact inner_ok ⟨y, e, hy⟩
    constructor
    · rintro ⟨v, hv, w, hw, hh, hn, hd, hne⟩
      obtain ⟨y, ey, hyd, hys⟩ := hin v hv hh
      have hdy : dim ∈ y.dims := by rw [hyd]; simp
      rw [applyDataset_conflict (fun v hv hh => (hin v hv hh).imp fun _ h => h.1) hv hw hh hn ey hdy hd]
      · rfl
      · rw [hys dim hdy, sizesWith, if_pos rfl]
        exact Ne.symm hne
    · intro hcp
      obtain ⟨⟨out, e, h⟩, hdims⟩ := each_dataset g hL (lift := lift) (inner := inner)
        (S := fun d => if d = dim then n else commonSize ds d)
        (single := fun m x ate => single m x none ate)
        (fun v hv hh ate => hX0 v hv hh ate)
        (fun v hv hh => by
          obtain ⟨y, F, e, hy⟩ := hok v hv hh
          refine ⟨y, _, F, e, hy, fun d hd => ?_⟩
          unfold sizesWith
          by_cases h : d = dim
          · rw [if_pos h, if_pos h]
          · rw [if_neg h, if_neg h, commonSize_eq g hv hd])
        (fun v hv hn d hd => by
          by_cases h : d = dim
          · subst h; rw [if_pos rfl]; exact hcp v hv hn hd
          · rw [if_neg h, commonSize_eq g hv hd]) axesToEnd
      obtain ⟨out', e', h'⟩ := renameTo_dataset g hL h hdims (group := group) hdim hgr
      refine ⟨out', ?_, eachVariable_imp h' fun v hv y hy => ⟨fun hh => ?_, hy.2⟩⟩
      · cases ha : applyDataset ds (dim :: moms) lift inner with
        | error e0 => rw [ha] at e; cases e
        | ok o =>
          rw [ha] at e
          show (orderSame ds o dim moms axesToEnd).bind _ = _
          rw [show orderSame ds o dim moms axesToEnd = .ok out from e]
          exact e'
      · obtain ⟨z, ez, ha⟩ := hy.1 hh
        refine ⟨z, ?_, ha⟩
        show single v.1 v.2 group axesToEnd = _
        rw [← ez, hX v hv hh]
        show _ = (single v.1 v.2 none axesToEnd).bind _
        rw [hX0 v hv hh]
        cases inner v.1 v.2 <;> rfl

/-- All variables, where the last step is the same as for one variable. -/
theorem own_dataset {ds : Dataset ν δ α} (g : GoodDataset ds) {core : List δ} {lift : α → β}
    {inner : ν → DataArray δ α → Py (DataArray δ β)}
    {post : List δ → DataArray δ β → Py (DataArray δ β)} {S : δ → ℕ}
    {C : DataArray δ α → DataArray δ β → Prop}
    (hin : ∀ v ∈ ds, Has v.2 core → ∃ y, inner v.1 v.2 = .ok y ∧ (∃ z, post v.2.dims y = .ok z) ∧
      ∀ d ∈ y.dims, y.size d = S d)
    (hcp : ∀ v ∈ ds, ¬ Has v.2 core → ∀ d ∈ v.2.dims, v.2.size d = S d)
    (hcopy : ∀ v ∈ ds, ¬ Has v.2 core → ∃ w, post v.2.dims (v.2.mapData lift) = .ok w ∧ C v.2 w) :
    ∃ out, ((applyDataset ds core lift inner).bind fun out =>
        out.mapVars fun n y => post (ds.dimsOf n) y) = .ok out ∧
      EachVariable (fun n x y => (Has x core → (inner n x).bind (post x.dims) = .ok y) ∧
        (¬ Has x core → C x y)) ds out := by
  obtain ⟨out, e, h⟩ := applyDataset_ok (lift := lift)
    (fun v hv hh => (hin v hv hh).imp fun _ h => ⟨h.1, h.2.2⟩) hcp
  rw [e]
  refine mapVars_then h fun v hv y hy => ?_
  rw [dimsOf_mem g.names hv]
  by_cases hh : Has v.2 core
  · obtain ⟨y', e', ⟨z, ez⟩, -⟩ := hin v hv hh
    have hyy : y' = y := by
      have := hy.1 hh
      rw [e'] at this
      exact Except.ok.inj this
    subst hyy
    refine ⟨z, ez, fun _ => ?_, fun h => absurd hh h⟩
    rw [e']
    exact ez
  · rw [hy.2 hh]
    obtain ⟨w, e1, hw⟩ := hcopy v hv hh
    exact ⟨w, e1, fun h => absurd h hh, fun _ => hw⟩

theorem alike_refl (y : DataArray δ α) : Alike y y := ⟨rfl, fun _ _ => rfl, fun _ => rfl⟩

/-! ### Reductions -/

theorem wrapResult_dims {inputs : List (Frame δ)} {exclude dims : List δ} {a : Nd.Arr α}
    {y : DataArray δ α} (h : wrapResult inputs exclude dims a = .ok y) : y.dims = dims := by
  unfold wrapResult at h
  split at h
  · cases h
  · split at h
    · cases h
    · split at h
      · cases h
      · rw [← Except.ok.inj h]; rfl

/-- The call of `apply_ufunc` in `reduce_data`. -/
def reduceInner {K V M : Type} [Field K] [DecidableEq K] (core : Nd.Core K M) (k : Kernel K V M)
    (x : DataArray δ K) (moms l : List δ) (keepdims : Bool) : Py (DataArray δ (Option K)) :=
  applyUfunc x (l ++ moms) [] (if keepdims then l ++ moms else moms) l (fun a =>
    Nd.reduceNd core k a (Nd.axesLast core.nd)
      (.many ((List.range l.length).map (fun j : ℕ => .int (-(l.length : ℤ) - core.nd + j))))
      keepdims false)

theorem reduceX_named {K V M : Type} [Field K] [DecidableEq K] [CharZero K] (core : Nd.Core K M)
    (k : Kernel K V M) {x : DataArray δ K} {moms l : List δ} (g : GoodReduce x moms l)
    {dim : Option (Option (List δ))} (hsel : ChosenMany x.dims moms none dim l)
    (keepdims axesToEnd : Bool) :
    reduceX core k x moms none dim keepdims axesToEnd =
      (reduceInner core k x moms l keepdims).bind fun y =>
        y.step (fun z => reduceDataDims z x.dims l moms keepdims axesToEnd) := by
  unfold reduceX
  rw [(C57_select_many g.distinct).1 none dim l g.dsDistinct g.present g.notMom hsel]
  rfl

theorem reduceInner_ok {K V M : Type} [Field K] [DecidableEq K] [CharZero K] {core : Nd.Core K M}
    (hc : core.Ok) (k : Kernel K V M) {x : DataArray δ K} {moms l : List δ} (g : GoodReduce x moms l)
    (hm : moms.length = core.nd) (keepdims : Bool) :
    ∃ y, reduceInner core k x moms l keepdims = .ok y ∧
      y.dims = x.dims.filter (fun d => decide (d ∉ l ++ moms)) ++
        (if keepdims then l ++ moms else moms) ∧
      (∀ d ∈ y.dims, y.size d = if d ∈ l then 1 else x.size d) ∧
      ∀ ate, ∃ z, y.step (fun z => reduceDataDims z x.dims l moms keepdims ate) = .ok z := by
  have hcn : (l ++ moms).Nodup := by
    rw [List.nodup_append]
    exact ⟨g.dsDistinct, g.momDistinct, fun a ha b hb hab => g.notMom a ha (hab ▸ hb)⟩
  have hcs : ∀ d ∈ l ++ moms, d ∈ x.dims := by
    intro d hd
    rcases List.mem_append.1 hd with hd | hd
    exacts [g.present d hd, g.momPresent d hd]
  have hsel : ChosenMany x.dims moms none (some (some l)) l := .inl ⟨rfl, rfl⟩
  obtain ⟨z, ez, -, hzs, -⟩ := reduceX_strong hc k g hm hsel keepdims true
  rw [reduceX_named core k g hsel] at ez
  cases hi : reduceInner core k x moms l keepdims with
  | error e => rw [hi] at ez; cases ez
  | ok y =>
    rw [hi] at ez
    have hoc : ∀ d ∈ (if keepdims then l ++ moms else moms), d ∈ l ++ moms := by
      intro d hd
      cases keepdims
      · exact List.mem_append_right _ hd
      · exact hd
    have hyd : y.dims = x.dims.filter (fun d => decide (d ∉ l ++ moms)) ++
        (if keepdims then l ++ moms else moms) := by
      unfold reduceInner at hi
      obtain ⟨-, a, -, -, e⟩ := applyUfunc_run x g.distinct (core := l ++ moms) (plain := [])
        (outCore := if keepdims then l ++ moms else moms) (exclude := l) hcn hcs (by
          intro d _
          constructor
          · rintro ⟨_, h⟩ h'
            exact h (by rw [List.append_nil]; exact List.mem_append_left _ h')
          · intro h
            refine ⟨fun h' => h (List.mem_append_left _ h'), fun h' => ?_⟩
            rw [List.append_nil] at h'
            rcases List.mem_append.1 h' with h' | h'
            exacts [h h', h (hoc d h')])
        (fun a => Nd.reduceNd core k a (Nd.axesLast core.nd)
          (.many ((List.range l.length).map (fun j : ℕ =>
            .int (-(l.length : ℤ) - core.nd + j)))) keepdims false)
      rw [e] at hi
      cases hf : Nd.reduceNd core k a (Nd.axesLast core.nd)
          (.many ((List.range l.length).map (fun j : ℕ =>
            .int (-(l.length : ℤ) - core.nd + j)))) keepdims false with
      | error e' => rw [hf] at hi; cases hi
      | ok b =>
        rw [hf] at hi
        exact wrapResult_dims hi
    have hLn : (if keepdims then l ++ moms else moms).Nodup := by
      cases keepdims
      · exact g.momDistinct
      · exact hcn
    have hyn : y.dims.Nodup := by
      rw [hyd, List.nodup_append]
      refine ⟨g.distinct.filter _, hLn, fun a ha b hb hab => ?_⟩
      subst hab
      have := (List.mem_filter.1 ha).2
      rw [decide_eq_true_iff] at this
      exact this (hoc a hb)
    refine ⟨y, rfl, hyd, fun d hd => ?_, fun ate => ?_⟩
    · obtain ⟨a, ea, -, da⟩ := transpose_any y.toArr hyn hLn
      have : z = { a with size := y.size } := by
        refine (Except.ok.inj (Eq.trans ?_ ez)).symm
        simp only [Except.bind, DataArray.step, reduceDataDims]
        rw [if_neg (by simp), ea]
        rfl
      have hdz : d ∈ z.dims := by
        rw [this]
        show d ∈ a.dims
        rw [da]
        exact (lastOf_perm hyn hLn).mem_iff.2 hd
      have h := hzs d hdz
      rw [this] at h
      exact h
    · obtain ⟨z', ez', -⟩ := reduceX_strong hc k g hm hsel keepdims ate
      rw [reduceX_named core k g hsel, hi] at ez'
      exact ⟨z', ez'⟩

end Labelled

end Cmomy
