import Verif.Spec.LabelledCollect
import Verif.Lemmas.LabelledObject
import Verif.Lemmas.ObjectMethods
import Verif.Props.LabelledNd
import Verif.Props.LabelledPush
import Verif.Props.Indexed
import Verif.Lemmas.Agree

/-!
# The collecting methods of labelled objects
-/

set_option linter.unusedSectionVars false

namespace Cmomy

open Spec Labelled Axes

section Names

variable {δ : Type} [DecidableEq δ] {K M : Type} [Field K] [DecidableEq K] {σ : Type*} {obj : DataArray δ K} {moms : List δ}
  {core : Nd.Core K M} {H : List σ → M → Prop} {L : (δ → ℕ) → List σ}

theorem recordNamed_withNames (hc : core.Ok) (x : DataArray δ K) (moms : List δ) (ms : List ℕ)
    (c : δ → ℕ) : recordNamed core x moms (withNames moms ms c) = recordNamed core x moms c := by
  unfold recordNamed
  refine hc.recd_congr _ _ fun ms' _ => ?_
  refine entry_congr x fun d _ => ?_
  unfold withNames
  by_cases h : d ∈ moms <;> simp [h]

theorem withNames_lt {size : δ → ℕ} {ms : List ℕ} (hms : Within (moms.map size) ms) {d : δ}
    (hd : d ∈ moms) (c : δ → ℕ) : withNames moms ms c d < size d := by
  obtain ⟨h1, h2⟩ := within_iff.1 hms
  have hi := List.idxOf_lt_length_of_mem hd
  have := h2 (moms.idxOf d) (by rw [List.length_map]; exact hi)
  rw [List.getD_eq_getElem (l := moms.map size) _ (by rw [List.length_map]; exact hi),
    List.getElem_map, List.getElem_idxOf hi] at this
  unfold withNames
  rwa [if_pos hd]

/-- From the entries of a result to the records they come from. -/
theorem resultNamed_of_shows {out : DataArray δ (Option K)} {dims : List δ} {size : δ → ℕ}
    {F : (δ → ℕ) → Option K} (hs : ShowsNamed out dims size F) (hmn : moms.Nodup)
    {R : (δ → ℕ) → Option M} (hF : ∀ c, F c = (R c).map (fun r => core.ent r (moms.map c)))
    (hR : ∀ c ms, R (withNames moms ms c) = R c) {L' : (δ → ℕ) → List σ}
    (hH : ∀ c, (∀ d ∈ dims, d ∉ moms → c d < size d) → ∃ r, R c = some r ∧ H (L' c) r) :
    ResultNamed core H out moms dims size L' where
  dims_eq := hs.dims_eq
  size_eq := hs.size_eq
  holds := by
    intro c hcb
    obtain ⟨r, h1, h2⟩ := hH c hcb
    refine ⟨r, h2, fun ms hms => ?_⟩
    have hl : ms.length = moms.length := by simpa using (within_iff.1 hms).1
    rw [hs.entry_eq _ fun d hd => ?_, hF, hR, h1, Option.map_some, map_withNames hmn hl]
    by_cases hm : d ∈ moms
    · exact withNames_lt hms hm c
    · unfold withNames
      rw [if_neg hm]
      exact hcb d hd hm

theorem resultNamed_congr {out : DataArray δ (Option K)} {dims : List δ} {size : δ → ℕ}
    {L L' : (δ → ℕ) → List σ} (h : ResultNamed core H out moms dims size L)
    (e : ∀ c, (∀ d ∈ dims, d ∉ moms → c d < size d) → ∀ r, H (L c) r → H (L' c) r) :
    ResultNamed core H out moms dims size L' where
  dims_eq := h.dims_eq
  size_eq := h.size_eq
  holds := fun c hcb => by
    obtain ⟨r, h1, h2⟩ := h.holds c hcb
    exact ⟨r, e c hcb r h1, h2⟩

theorem goodNamed_of (hS : StandsNamed core H obj moms L) {d : δ} (hd : d ∈ valDims obj moms) :
    GoodNamed obj moms d where
  distinct := hS.object.distinct
  momDistinct := hS.object.momDistinct
  momPresent := hS.object.momPresent
  present := (mem_valDims.1 hd).1
  notMom := (mem_valDims.1 hd).2

theorem length_samplesAlongName (d : δ) (n : ℕ) (c : δ → ℕ) :
    (samplesAlongName L d n c).length = n := by
  simp [samplesAlongName]

/-- The records met along a dimension stand for the samples met along it. -/
theorem along_holds (hS : StandsNamed core H obj moms L) {d : δ} {c : δ → ℕ}
    (hb : ∀ e ∈ valDims obj moms, e ≠ d → c e < obj.size e) :
    List.Forall₂ H (samplesAlongName L d (obj.size d) c) (recordsAlong core obj moms d c) := by
  unfold samplesAlongName recordsAlong
  rw [List.forall₂_map_left_iff, List.forall₂_map_right_iff, List.forall₂_same]
  intro j hj
  refine hS.holds _ fun e he => ?_
  by_cases h : e = d
  · subst h; rw [Function.update_self]; exact List.mem_range.1 hj
  · rw [Function.update_of_ne h]; exact hb e he h

theorem allCoords_bounds {size : δ → ℕ} {ds : List δ} {c c' : δ → ℕ} (h : c' ∈ allCoords size ds c) :
    (∀ d ∈ ds, c' d < size d) ∧ ∀ d ∉ ds, c' d = c d := by
  induction ds generalizing c with
  | nil =>
    rw [allCoords, List.mem_singleton] at h
    subst h
    exact ⟨by simp, fun _ _ => rfl⟩
  | cons b ds ih =>
    rw [allCoords, List.mem_flatMap] at h
    obtain ⟨s, hs, h⟩ := h
    obtain ⟨h1, h2⟩ := ih h
    refine ⟨fun d hd => ?_, fun d hd => ?_⟩
    · by_cases hds : d ∈ ds
      · exact h1 d hds
      · rcases List.mem_cons.1 hd with rfl | hd
        · rw [h2 d hds, Function.update_self]; exact List.mem_range.1 hs
        · exact absurd hd hds
    · rw [List.mem_cons, not_or] at hd
      rw [h2 d hd.2, Function.update_of_ne hd.1]

theorem over_holds (hS : StandsNamed core H obj moms L) {ds : List δ} {c : δ → ℕ}
    (hb : ∀ e ∈ valDims obj moms, e ∉ ds → c e < obj.size e) :
    List.Forall₂ H ((allCoords obj.size ds c).map L) (recordsNamed core obj moms ds c) := by
  unfold recordsNamed
  rw [List.forall₂_map_left_iff, List.forall₂_map_right_iff, List.forall₂_same]
  intro c' hc'
  obtain ⟨h1, h2⟩ := allCoords_bounds hc'
  refine hS.holds _ fun e he => ?_
  by_cases h : e ∈ ds
  · exact h1 e h
  · rw [h2 e h]; exact hb e he h

theorem allCoords_withNames (size : δ → ℕ) {ds : List δ} (hd : ∀ d ∈ ds, d ∉ moms) (ms : List ℕ)
    (c : δ → ℕ) :
    allCoords size ds (withNames moms ms c) = (allCoords size ds c).map (withNames moms ms) := by
  induction ds generalizing c with
  | nil => rfl
  | cons b ds ih =>
    simp only [allCoords, List.map_flatMap]
    refine List.flatMap_congr fun s _ => ?_
    rw [← ih (fun d h => hd d (List.mem_cons_of_mem _ h))]
    congr 1
    funext e
    unfold withNames
    by_cases h : e = b
    · subst h
      rw [Function.update_self, if_neg (hd e (by simp)), Function.update_self]
    · rw [Function.update_of_ne h]
      split_ifs
      · rfl
      · rw [Function.update_of_ne h]

theorem recordsNamed_withNames (hc : core.Ok) {ds : List δ} (hd : ∀ d ∈ ds, d ∉ moms) (ms : List ℕ)
    (c : δ → ℕ) :
    recordsNamed core obj moms ds (withNames moms ms c) = recordsNamed core obj moms ds c := by
  unfold recordsNamed
  rw [allCoords_withNames obj.size hd, List.map_map]
  exact List.map_congr_left fun c' _ => recordNamed_withNames hc obj moms ms c'

/-- An operation along one dimension: from the entries to the samples. -/
theorem axis_op_named (hc : core.Ok) (hS : StandsNamed core H obj moms L) {d pos : δ}
    (hd : d ∈ valDims obj moms) (hp : pos ∉ moms) {out : DataArray δ (Option K)} {dims : List δ}
    {size : δ → ℕ} {G : List M → ℕ → Option M}
    (hs : ShowsNamed out dims size (fun c => (G (recordsAlong core obj moms d c) (c pos)).map
      (fun r => core.ent r (moms.map c))))
    (hdims : ∀ e ∈ valDims obj moms, e ≠ d → e ∈ dims ∧ size e = obj.size e) (hpos : pos ∈ dims)
    {L' : (δ → ℕ) → List σ}
    (hG : ∀ c, (∀ e ∈ valDims obj moms, e ≠ d → c e < obj.size e) → c pos < size pos → ∀ data,
      List.Forall₂ H (samplesAlongName L d (obj.size d) c) data →
        ∃ r, G data (c pos) = some r ∧ H (L' c) r) :
    ResultNamed core H out moms dims size L' := by
  refine resultNamed_of_shows hs hS.object.momDistinct
    (R := fun c => G (recordsAlong core obj moms d c) (c pos)) (fun _ => rfl) (fun c ms => ?_)
    (fun c hcb => ?_)
  · rw [recordsAlong_withNames hc obj (mem_valDims.1 hd).2]
    congr 1
    unfold withNames
    rw [if_neg hp]
  · have hb : ∀ e ∈ valDims obj moms, e ≠ d → c e < obj.size e := fun e he hne => by
      obtain ⟨h1, h2⟩ := hdims e he hne
      rw [← h2]
      exact hcb e h1 (mem_valDims.1 he).2
    exact hG c hb (hcb pos hpos hp) _ (along_holds hS hb)

theorem mem_dimsAfter {dims : List δ} {d : δ} (hd : d ∈ dims) (hm : ∀ e ∈ moms, e ∈ dims) (ate : Bool)
    {e : δ} : e ∈ dimsAfter dims d moms ate ↔ e ∈ dims := by
  unfold dimsAfter
  split_ifs
  · simp only [List.mem_append, List.mem_filter, List.mem_cons, decide_eq_true_eq, not_or]
    constructor
    · rintro (h | rfl | h)
      · exact h.1
      · exact hd
      · exact hm e h
    · intro h
      by_cases h1 : e = d
      · exact .inr (.inl h1)
      · by_cases h2 : e ∈ moms
        · exact .inr (.inr h2)
        · exact .inl ⟨h, h1, h2⟩
  · rfl

theorem mem_renamed {dims : List δ} {old new e : δ} (he : e ∈ dims) (hne : e ≠ old) :
    e ∈ renamed dims old new :=
  List.mem_map.2 ⟨e, he, if_neg hne⟩

theorem new_mem_renamed {dims : List δ} {old new : δ} (h : old ∈ dims) : new ∈ renamed dims old new :=
  List.mem_map.2 ⟨old, h, if_pos rfl⟩

/-- What the results of an operation along `d` with the new name `pos` have in common. -/
theorem result_dims (hS : StandsNamed core H obj moms L) {d pos : δ} (hd : d ∈ valDims obj moms)
    (hp : pos = d ∨ pos ∉ obj.dims) (newSize : ℕ) (ate : Bool) :
    (∀ e ∈ valDims obj moms, e ≠ d → e ∈ renamed (dimsAfter obj.dims d moms ate) d pos ∧
      sizesWith obj pos newSize e = obj.size e) ∧ pos ∈ renamed (dimsAfter obj.dims d moms ate) d pos ∧
      pos ∉ moms := by
  obtain ⟨h1, h2⟩ := mem_valDims.1 hd
  refine ⟨fun e he hne => ⟨mem_renamed ((mem_dimsAfter h1 hS.object.momPresent ate).2
    (mem_valDims.1 he).1) hne, ?_⟩, new_mem_renamed ((mem_dimsAfter h1 hS.object.momPresent ate).2 h1), ?_⟩
  · unfold sizesWith
    rw [if_neg]
    rintro rfl
    rcases hp with hp | hp
    · exact hne hp
    · exact hp (mem_valDims.1 he).1
  · rcases hp with rfl | hp
    · exact h2
    · exact fun h => hp (hS.object.momPresent _ h)

end Names

section Selected

variable {α β : Type*}

theorem forall2_filterMap_get {R : α → β → Prop} {l : List α} {l' : List β} (h : List.Forall₂ R l l')
    (idx : List ℤ) : List.Forall₂ R (idx.filterMap (fun i => l[i.toNat]?))
      (idx.filterMap (fun i => l'[i.toNat]?)) := by
  induction idx with
  | nil => simp
  | cons i idx ih =>
    rw [List.filterMap_cons, List.filterMap_cons]
    by_cases hi : i.toNat < l.length
    · have hi' : i.toNat < l'.length := by rw [← h.length_eq]; exact hi
      rw [List.getElem?_eq_getElem hi, List.getElem?_eq_getElem hi']
      exact .cons (h.get hi hi') ih
    · have hi' : ¬ i.toNat < l'.length := by rw [← h.length_eq]; exact hi
      rw [List.getElem?_eq_none (by omega), List.getElem?_eq_none (by omega)]
      exact ih

theorem selectRows_cast (data : List α) (index : List ℕ) (a b : ℕ) :
    selectRows data (index.map (fun i : ℕ => (i : ℤ))) a b
      = (slice index a b).filterMap (fun i => data[i]?) := by
  unfold selectRows slice
  rw [Int.toNat_natCast, Int.toNat_natCast, ← List.map_take, ← List.map_drop, List.filterMap_map]
  rfl

theorem positions_withLabel (g : ℤ) (labels : List (Option ℤ)) (l : List α) :
    (positionsWhere (fun x => x = some g) labels).filterMap (fun i => l[i]?)
      = withLabel g labels l := by
  unfold positionsWhere withLabel
  induction labels generalizing l with
  | nil => simp
  | cons x labels ih =>
    rw [List.length_cons, List.range_succ_eq_map, List.filter_cons]
    cases l with
    | nil => simp
    | cons y l =>
      have hi := ih l
      have e : (List.filter (fun i => ((x :: labels)[i]?).any (fun x => decide (x = some g)))
          (List.map Nat.succ (List.range labels.length))).filterMap (fun i => (y :: l)[i]?)
          = (labels.zip l).filterMap (fun p => if p.1 = some g then some p.2 else none) := by
        rw [← hi, List.filter_map, List.filterMap_map]
        rfl
      rw [List.zip_cons_cons, List.filterMap_cons]
      by_cases hx : x = some g
      · simp only [List.getElem?_cons_zero, Option.any_some, hx, decide_true, if_true]
        rw [List.filterMap_cons]
        simp only [List.getElem?_cons_zero]
        congr 1
        rw [hx] at e
        exact e
      · simp only [List.getElem?_cons_zero, Option.any_some, hx, decide_false, Bool.false_eq_true,
          if_false]
        exact e

theorem groupsOf_unique {labels : List (Option ℤ)} {gs gs' : List ℤ} (h : GroupsOf labels gs)
    (h' : GroupsOf labels gs') : gs = gs' := by
  have p : gs.Perm gs' := (List.perm_ext_iff_of_nodup (h.1.imp ne_of_lt) (h'.1.imp ne_of_lt)).2
    fun z => by rw [h.2, h'.2]
  exact p.eq_of_pairwise' (h.1.imp le_of_lt) (h'.1.imp le_of_lt)

/-- The table of `factor_by_to_index`, in terms of the labels. -/
theorem index_table {argsort : List ℤ → List ℕ} (ha : IsArgsort argsort) {labels : List (Option ℤ)}
    {gs : List ℤ} (hg : GroupsOf labels gs) :
    ∃ index start stop, Factor.factorByToIndex argsort false labels = (gs, index, start, stop) ∧
      start.length = gs.length ∧ stop.length = gs.length ∧
      (∀ j (hj : j < gs.length), ∃ a b, start[j]? = some a ∧ stop[j]? = some b ∧
        ∀ l : List α, ((slice index a b).filterMap (fun i => l[i]?)).Perm
          (withLabel gs[j] labels l)) ∧
      ∀ n, (LabelsWithin labels n → Indexed.validateIndex n (index.map (fun i : ℕ => (i : ℤ)))
          (start.map (fun i : ℕ => (i : ℤ))) (stop.map (fun i : ℕ => (i : ℤ))) = .ok ()) ∧
        (¬ LabelsWithin labels n → Indexed.validateIndex n (index.map (fun i : ℕ => (i : ℤ)))
          (start.map (fun i : ℕ => (i : ℤ))) (stop.map (fun i : ℕ => (i : ℤ)))
            = .error .valueError) := by
  obtain ⟨groups, codes, e1, -, h2, h3, -, -⟩ := C34_codes true false labels
  obtain ⟨groups', index, start, stop, e, h4, h5, h6, h7⟩ := C34_index_slices argsort ha false labels
  have hgr : groups' = gs := by
    have : groups' = groups := by
      have := congrArg Prod.fst e
      simp only [Factor.factorByToIndex, e1] at this
      exact this.symm
    rw [this]
    exact groupsOf_unique ⟨h2 rfl, fun z => by rw [h3]; simp⟩ hg
  subst hgr
  have hmem : ∀ i, i ∈ index ↔ ∃ z : ℤ, labels[i]? = some (some z) ∧ 0 ≤ z := by
    intro i
    rw [← h7, List.mem_flatMap]
    constructor
    · rintro ⟨p, hp, hi⟩
      obtain ⟨j, hj, hpj⟩ := List.getElem_of_mem hp
      have hjl : j < groups'.length := by
        rw [List.length_zip] at hj; omega
      obtain ⟨a, b, ea, eb, hperm⟩ := h6 j hjl
      rw [← hpj, List.getElem_zip] at hi
      have hja : j < start.length := by omega
      have hjb : j < stop.length := by omega
      rw [List.getElem?_eq_getElem hja, Option.some.injEq] at ea
      rw [List.getElem?_eq_getElem hjb, Option.some.injEq] at eb
      simp only [ea, eb] at hi
      have := hperm.mem_iff.1 hi
      unfold positionsWhere at this
      rw [List.mem_filter] at this
      refine ⟨groups'[j], ?_, ((hg.2 _).1 (List.getElem_mem hjl)).2⟩
      cases hx : labels[i]? with
      | none => rw [hx] at this; simp at this
      | some x =>
        rw [hx, Option.any_some] at this
        rw [of_decide_eq_true this.2]
    · rintro ⟨z, hz, h0⟩
      have hzg : z ∈ groups' := (hg.2 z).2 ⟨List.mem_of_getElem? hz, h0⟩
      obtain ⟨j, hj, rfl⟩ := List.getElem_of_mem hzg
      obtain ⟨a, b, ea, eb, hperm⟩ := h6 j hj
      refine ⟨(a, b), ?_, hperm.mem_iff.2 ?_⟩
      · exact List.mem_of_getElem? (i := j) (getElem?_zip_pair ea eb)
      · unfold positionsWhere
        rw [List.mem_filter, List.mem_range, hz]
        refine ⟨?_, by simp⟩
        by_contra hcon
        rw [List.getElem?_eq_none (by omega)] at hz
        cases hz
  refine ⟨index, start, stop, e, h4, h5, fun j hj => ?_, fun n => ?_⟩
  · obtain ⟨a, b, ea, eb, hperm⟩ := h6 j hj
    refine ⟨a, b, ea, eb, fun l => ?_⟩
    rw [← positions_withLabel]
    exact hperm.filterMap _
  · have hv : Indexed.validateIndex (Factor.factorBy true false labels).2.length
        (index.map (fun i : ℕ => (i : ℤ))) (start.map (fun i : ℕ => (i : ℤ)))
        (stop.map (fun i : ℕ => (i : ℤ))) = .ok () := by
      obtain ⟨idx, hp, -, e', -⟩ := Factor.codesToIndex_spec ha (Factor.factorBy true false labels).2
        (Factor.factorBy true false labels).1.length (Factor.mem_codes_iff true _)
      have := codesTable_accepted (Factor.factorBy true false labels).2
        (Factor.factorBy true false labels).1.length (Factor.mem_codes_iff true _) idx hp
      have e2 : Factor.codesToIndex argsort (Factor.factorBy true false labels).2 = (index, start, stop) :=
        congrArg Prod.snd e
      rw [e2] at e'
      cases e'
      exact this
    rw [C35_acceptance] at hv
    constructor
    · intro hl
      rw [C35_acceptance]
      refine ⟨hv.1, hv.2.1, ?_⟩
      rcases hv.2.2 with h | ⟨k1, k2, k3, k4, k5, k6⟩
      · exact .inl h
      · refine .inr ⟨k1, k2, k3, fun i hi => ⟨(k4 i hi).1, ?_⟩, k5, k6⟩
        obtain ⟨q, hq, rfl⟩ := List.mem_map.1 hi
        obtain ⟨z, hz, h0⟩ := (hmem q).1 hq
        exact Int.ofNat_lt.2 (hl q z hz h0)
    · intro hl
      refine Indexed.validateIndex_error fun hok => hl fun i z hz h0 => ?_
      rw [C35_acceptance] at hok
      have hi := (hmem i).2 ⟨z, hz, h0⟩
      rcases hok.2.2 with ⟨h, -⟩ | ⟨-, -, -, k4, -⟩
      · rw [List.map_eq_nil_iff] at h
        rw [h] at hi
        cases hi
      · have := (k4 i (List.mem_map.2 ⟨i, hi, rfl⟩)).2
        omega

end Selected

section Kernels

variable {K V M ι σ : Type*} [Field K] [LinearOrder K] [IsStrictOrderedRing K]
  {k : Kernel K V M} {law : Lawful k ι} {H : List σ → M → Prop} {wt : List σ → K}
  {scaled : K → σ → σ}

theorem forall2_selectRows {α β : Type*} {R : α → β → Prop} {l : List α} {l' : List β}
    (h : List.Forall₂ R l l') (index : List ℤ) (a b : ℤ) :
    List.Forall₂ R (selectRows l index a b) (selectRows l' index a b) := by
  unfold selectRows
  exact forall2_filterMap_get h _

theorem mem_selectRows {α : Type*} {l : List α} {index : List ℤ} {a b : ℤ} {x : α}
    (h : x ∈ selectRows l index a b) : x ∈ l := by
  unfold selectRows at h
  obtain ⟨i, _, e⟩ := List.mem_filterMap.1 h
  exact List.mem_of_getElem? e

theorem Meaning.indexed (T : Meaning k law H wt scaled) {Ls : List (List σ)} {data : List M}
    (h : List.Forall₂ H Ls data) (hw : ∀ A ∈ Ls, 0 ≤ wt A) {index start stop : List ℤ}
    (hv : Indexed.validateIndex data.length index start stop = .ok ()) {j : ℕ} {a b : ℤ}
    (ha : start[j]? = some a) (hb : stop[j]? = some b) :
    ∃ r, (match Indexed.reduceDataIndexed k data index start stop none with
        | .ok rows => (rows[j]?).join
        | .error _ => none) = some r ∧ H (selectRows Ls index a b).flatten r := by
  rw [Indexed.reduceDataIndexed_eq k data index start stop none hv (by simp)]
  have hsel := forall2_selectRows h index a b
  have hnn := T.nonneg hsel (fun A hA => hw A (mem_selectRows hA))
  obtain ⟨r, e⟩ := Indexed.copyFold_exists (k := k) law
    (l := (selectRows data index a b).map (fun d => ((1 : K), d))) (by
      intro q hq
      obtain ⟨d, hd, rfl⟩ := List.mem_map.1 hq
      rw [mul_one]
      exact hnn d hd)
  refine ⟨r, ?_, (T.iff _ _).2 ?_⟩
  · simp only [List.getElem?_map, getElem?_zip_pair ha hb, Option.map_some, Option.getD_none,
      selectScaled_ones, e, Option.join_some]
  · rw [Indexed.copyFold_raw law e, law.rtot_map_one, T.rsum hsel]

end Kernels

section Methods

variable {δ : Type} [DecidableEq δ] {K V M : Type} {ι σ : Type*} [Field K] [LinearOrder K]
  [IsStrictOrderedRing K]
  {k : Kernel K V M} {law : Lawful k ι} {H : List σ → M → Prop} {wt : List σ → K}
  {scaled : K → σ → σ} {core : Nd.Core K M} {obj : DataArray δ K} {moms : List δ}
  {L : (δ → ℕ) → List σ}

theorem along_nonneg_named (hw : ∀ c, InLabelled obj moms c → 0 ≤ wt (L c)) {d : δ} {c : δ → ℕ}
    (hb : ∀ e ∈ valDims obj moms, e ≠ d → c e < obj.size e) :
    ∀ A ∈ samplesAlongName L d (obj.size d) c, 0 ≤ wt A := by
  intro A hA
  obtain ⟨j, hj, rfl⟩ := List.mem_map.1 hA
  refine hw _ fun e he => ?_
  by_cases h : e = d
  · subst h; rw [Function.update_self]; exact List.mem_range.1 hj
  · rw [Function.update_of_ne h]; exact hb e he h

theorem single_axis (axis : Option (Option AxisArg)) : singleAxis (oneAxis axis) = .ok axis := by
  rcases axis with _ | _ | a <;> rfl

theorem single_dim (dim : Option (Option δ)) : singleDim (oneDim dim) = .ok dim := by
  rcases dim with _ | _ | a <;> rfl

theorem Meaning.reduce_named (T : Meaning k law H wt scaled) (hc : core.Ok)
    (hS : StandsNamed core H obj moms L) (hw : ∀ c, InLabelled obj moms c → 0 ≤ wt (L c))
    (argsort : List ℤ → List ℕ) {axis : Option AxesArg} {dim : Option (Option (List δ))} {ds : List δ}
    (hsel : ChosenMany obj.dims moms axis dim ds) (hne : ds ≠ []) (hnd : ds.Nodup)
    (hv : ∀ d ∈ ds, d ∈ valDims obj moms) (hz : ∀ d ∈ obj.dims, d ∉ ds → obj.size d ≠ 0)
    (byFirst : Bool) (groupDim : Option δ) (keepdims axesToEnd : Bool) :
    ∃ out, reduceObjX core k argsort obj moms axis dim none none byFirst groupDim keepdims axesToEnd
        = .ok out ∧
      ResultNamed core H out moms (dimsReduced obj.dims ds moms keepdims false)
        (fun d => if d ∈ ds then 1 else obj.size d) (samplesOverNames L obj.size ds) := by
  have g : GoodReduce obj moms ds :=
    { distinct := hS.object.distinct
      momDistinct := hS.object.momDistinct
      momPresent := hS.object.momPresent
      dsDistinct := hnd
      present := fun d hd => (mem_valDims.1 (hv d hd)).1
      notMom := fun d hd => (mem_valDims.1 (hv d hd)).2
      some_dim := hne
      nonempty := hz }
  obtain ⟨out, e, hs⟩ := C57_reduce_data hc k g hS.object.momCount hsel keepdims false
  refine ⟨out, e, resultNamed_of_shows hs hS.object.momDistinct (fun _ => rfl)
    (fun c ms => by rw [recordsNamed_withNames hc g.notMom]) (fun c hcb => ?_)⟩
  have hb : ∀ e ∈ valDims obj moms, e ∉ ds → c e < obj.size e := by
    intro e he hne
    obtain ⟨h1, h2⟩ := mem_valDims.1 he
    have := hcb e (by
      cases keepdims
      · exact List.mem_filter.2 ⟨h1, by simpa using hne⟩
      · exact h1) h2
    rwa [if_neg hne] at this
  obtain ⟨r, e, hr⟩ := T.reduce (over_holds hS hb) (fun A hA => by
    obtain ⟨c', hc', rfl⟩ := List.mem_map.1 hA
    obtain ⟨h1, h2⟩ := allCoords_bounds hc'
    refine hw _ fun e he => ?_
    by_cases h : e ∈ ds
    · exact h1 e h
    · rw [h2 e h]; exact hb e he h)
  refine ⟨r, e, ?_⟩
  unfold samplesOverNames
  rwa [List.flatMap_def]

/-- With labels, the call goes to one of two functions. -/
theorem reduce_by_eq (argsort : List ℤ → List ℕ) (axis : Option (Option AxisArg))
    (dim : Option (Option δ)) (l : List (Option ℤ)) (block : Option ℤ) (byFirst : Bool)
    (groupDim : Option δ) (keepdims axesToEnd : Bool) :
    reduceObjX core k argsort obj moms (oneAxis axis) (oneDim dim) (some l) block byFirst groupDim
      keepdims axesToEnd = if byFirst then
        reduceByIndex core k argsort obj moms axis dim l groupDim axesToEnd
      else reduceByCode core k obj moms axis dim l groupDim axesToEnd := by
  unfold reduceObjX
  simp only [single_axis, single_dim, Except.bind]

theorem reduce_block_eq (argsort : List ℤ → List ℕ) (axis : Option (Option AxisArg))
    (dim : Option (Option δ)) (b : ℤ) (byFirst : Bool)
    (groupDim : Option δ) (keepdims axesToEnd : Bool) :
    reduceObjX core k argsort obj moms (oneAxis axis) (oneDim dim) none (some b) byFirst groupDim
      keepdims axesToEnd = (blockLabels obj moms axis dim b).bind fun l =>
        reduceObjX core k argsort obj moms (oneAxis axis) (oneDim dim) (some l) none byFirst groupDim
          keepdims axesToEnd := by
  unfold reduceObjX
  simp only [single_axis, single_dim, Except.bind]

theorem Meaning.by_named (T : Meaning k law H wt scaled) (hc : core.Ok)
    (hS : StandsNamed core H obj moms L) (hw : ∀ c, InLabelled obj moms c → 0 ≤ wt (L c))
    {argsort : List ℤ → List ℕ} (ha : IsArgsort argsort) {axis : Option (Option AxisArg)}
    {dim : Option (Option δ)} {d : δ} (hsel : Chosen obj.dims moms axis dim d)
    (hd : d ∈ valDims obj moms) {labels : List (Option ℤ)} {gs : List ℤ} (hg : GroupsOf labels gs)
    (hl : LabelsWithin labels (obj.size d)) (block : Option ℤ) {groupDim : Option δ}
    (hgr : ∀ n, groupDim = some n → n = d ∨ n ∉ obj.dims) (keepdims axesToEnd : Bool) :
    ∃ out, reduceObjX core k argsort obj moms (oneAxis axis) (oneDim dim) (some labels) block true
        groupDim keepdims axesToEnd = .ok out ∧
      ResultNamed core H out moms (renamed (dimsAfter obj.dims d moms axesToEnd) d (groupDim.getD d))
        (sizesWith obj (groupDim.getD d) gs.length)
        (fun c => (withLabel (gs.getD (c (groupDim.getD d)) 0) labels
          (samplesAlongName L d (obj.size d) c)).flatten) := by
  obtain ⟨index, start, stop, e, l1, l2, hrow, hval⟩ := index_table (α := List σ) ha hg
  rw [reduce_by_eq, if_pos rfl]
  unfold reduceByIndex
  rw [e]
  obtain ⟨out, e2, hs⟩ := (C57_indexed hc k (index.map (fun i : ℕ => (i : ℤ)))
    (start.map (fun i : ℕ => (i : ℤ))) (stop.map (fun i : ℕ => (i : ℤ))) none (goodNamed_of hS hd)
    hS.object.momCount hsel groupDim hgr axesToEnd).2 ((hval _).1 hl) (by simp)
  have hp : groupDim.getD d = d ∨ groupDim.getD d ∉ obj.dims := by
    cases groupDim with
    | none => exact .inl rfl
    | some n => exact hgr n rfl
  obtain ⟨r1, r2, r3⟩ := result_dims hS hd hp gs.length axesToEnd
  refine ⟨out, e2, ?_⟩
  rw [List.length_map, l1] at hs
  refine axis_op_named hc hS hd r3 (G := fun data j =>
    match Indexed.reduceDataIndexed k data (index.map (fun i : ℕ => (i : ℤ)))
      (start.map (fun i : ℕ => (i : ℤ))) (stop.map (fun i : ℕ => (i : ℤ))) none with
      | .ok rows => (rows[j]?).join
      | .error _ => none) hs r1 r2 (fun c hb hb2 data hda => ?_)
  have hj : c (groupDim.getD d) < gs.length := by
    unfold sizesWith at hb2
    rwa [if_pos rfl] at hb2
  obtain ⟨a, b, ea, eb, hperm⟩ := hrow _ hj
  obtain ⟨r, er, hr⟩ := T.indexed hda (along_nonneg_named hw hb)
    (index := index.map (fun i : ℕ => (i : ℤ))) (start := start.map (fun i : ℕ => (i : ℤ)))
    (stop := stop.map (fun i : ℕ => (i : ℤ)))
    (by rw [← hda.length_eq, length_samplesAlongName]; exact (hval _).1 hl)
    (j := c (groupDim.getD d)) (a := a) (b := b) (by rw [List.getElem?_map, ea]; rfl)
    (by rw [List.getElem?_map, eb]; rfl)
  refine ⟨r, er, T.of_raw ?_ hr⟩
  rw [selectRows_cast, T.raw_flatten, T.raw_flatten, List.getD_eq_getElem _ _ hj]
  exact ((hperm _).map _).sum_eq

theorem by_refused (hS : StandsNamed core H obj moms L) (hc : core.Ok) (k : Kernel K V M)
    {argsort : List ℤ → List ℕ} (ha : IsArgsort argsort) {axis : Option (Option AxisArg)}
    {dim : Option (Option δ)} {d : δ} (hsel : Chosen obj.dims moms axis dim d)
    (hd : d ∈ valDims obj moms) {labels : List (Option ℤ)}
    (hl : ¬ LabelsWithin labels (obj.size d)) (block : Option ℤ) {groupDim : Option δ}
    (hgr : ∀ n, groupDim = some n → n = d ∨ n ∉ obj.dims) (keepdims axesToEnd : Bool) :
    reduceObjX core k argsort obj moms (oneAxis axis) (oneDim dim) (some labels) block true
        groupDim keepdims axesToEnd = .error .valueError := by
  obtain ⟨groups, codes, e1, -, h2, h3, -, -⟩ := C34_codes true false labels
  obtain ⟨index, start, stop, e, l1, l2, hrow, hval⟩ := index_table (α := List σ) ha
    (labels := labels) (gs := groups) ⟨h2 rfl, fun z => by rw [h3]; simp⟩
  rw [reduce_by_eq, if_pos rfl]
  unfold reduceByIndex
  rw [e]
  refine (C57_indexed hc k _ _ _ none (goodNamed_of hS hd) hS.object.momCount hsel groupDim hgr
    axesToEnd).1 (.inl ?_)
  rw [(hval _).2 hl]
  simp

theorem Meaning.code_named (T : Meaning k law H wt scaled) (hc : core.Ok)
    (hS : StandsNamed core H obj moms L) (hw : ∀ c, InLabelled obj moms c → 0 ≤ wt (L c))
    (argsort : List ℤ → List ℕ) {axis : Option (Option AxisArg)}
    {dim : Option (Option δ)} {d : δ} (hsel : Chosen obj.dims moms axis dim d)
    (hd : d ∈ valDims obj moms) {by_ : List ℤ} {m : ℤ} (hl : by_.length = obj.size d) (hm : m ∈ by_)
    (hmax : ∀ l ∈ by_, l ≤ m) (h1 : -1 ≤ m) (block : Option ℤ) {groupDim : Option δ}
    (hgr : ∀ n, groupDim = some n → n = d ∨ n ∉ obj.dims) (keepdims axesToEnd : Bool) :
    ∃ out, reduceObjX core k argsort obj moms (oneAxis axis) (oneDim dim) (some (by_.map some)) block
        false groupDim keepdims axesToEnd = .ok out ∧
      ResultNamed core H out moms (renamed (dimsAfter obj.dims d moms axesToEnd) d (groupDim.getD d))
        (sizesWith obj (groupDim.getD d) (m + 1).toNat)
        (fun c => (groupRows (c (groupDim.getD d)) by_
          (samplesAlongName L d (obj.size d) c)).flatten) := by
  rw [reduce_by_eq, if_neg (by simp)]
  unfold reduceByCode
  rw [if_neg (by simp), List.filterMap_map]
  have hid : by_.filterMap (id ∘ some) = by_ := by
    rw [Function.id_comp]; exact List.filterMap_some
  rw [hid]
  have hp : groupDim.getD d = d ∨ groupDim.getD d ∉ obj.dims := by
    cases groupDim with
    | none => exact .inl rfl
    | some n => exact hgr n rfl
  obtain ⟨r1, r2, r3⟩ := result_dims hS hd hp (m + 1).toNat axesToEnd
  obtain ⟨out, e2, hs⟩ := (C57_grouped hc k by_ (goodNamed_of hS hd) hS.object.momCount hsel groupDim
    hgr axesToEnd).2 m hl (List.max?_eq_some_iff.2 ⟨hm, hmax⟩) h1
  refine ⟨out, e2, axis_op_named hc hS hd r3 (G := fun data j =>
    match k.reduceDataGrouped data by_ none with
      | .ok rows => (rows[j]?).join
      | .error _ => none) hs r1 r2 (fun c hb hb2 data hda => ?_)⟩
  have hj : c (groupDim.getD d) < (m + 1).toNat := by
    unfold sizesWith at hb2
    rwa [if_pos rfl] at hb2
  obtain ⟨r, e, hr⟩ := T.reduce (forall2_groupRows hda (c (groupDim.getD d)) by_)
    (fun A hA => along_nonneg_named hw hb A (mem_groupRows hA))
  refine ⟨r, ?_, hr⟩
  rw [C31_grouped_rows_default k data by_ m (by rw [hl, ← hda.length_eq, length_samplesAlongName]) hm
    hmax h1]
  simp [hj, e]

theorem code_refused (hS : StandsNamed core H obj moms L) (hc : core.Ok) (k : Kernel K V M)
    (argsort : List ℤ → List ℕ) {axis : Option (Option AxisArg)}
    {dim : Option (Option δ)} {d : δ} (hsel : Chosen obj.dims moms axis dim d)
    (hd : d ∈ valDims obj moms) {by_ : List ℤ}
    (h : by_.length ≠ obj.size d ∨ ∀ l ∈ by_, l < -1) (block : Option ℤ) {groupDim : Option δ}
    (hgr : ∀ n, groupDim = some n → n = d ∨ n ∉ obj.dims) (keepdims axesToEnd : Bool) :
    reduceObjX core k argsort obj moms (oneAxis axis) (oneDim dim) (some (by_.map some)) block
        false groupDim keepdims axesToEnd = .error .valueError := by
  rw [reduce_by_eq, if_neg (by simp)]
  unfold reduceByCode
  rw [if_neg (by simp), List.filterMap_map]
  have hid : by_.filterMap (id ∘ some) = by_ := by
    rw [Function.id_comp]; exact List.filterMap_some
  rw [hid]
  refine (C57_grouped hc k by_ (goodNamed_of hS hd) hS.object.momCount hsel groupDim hgr axesToEnd).1
    (h.imp_right fun h m hm => h m (List.max?_eq_some_iff.1 hm).1)

theorem withLabel_some {α : Type*} (g : ℤ) (by_ : List ℤ) (l : List α) :
    withLabel g (by_.map some) l = groupRows g by_ l := by
  unfold withLabel groupRows
  induction by_ generalizing l with
  | nil => simp
  | cons b by_ ih =>
    cases l with
    | nil => simp
    | cons x l =>
      rw [List.map_cons, List.zip_cons_cons, List.zip_cons_cons, List.filterMap_cons,
        List.filterMap_cons, ih]
      simp only [Option.some.injEq]

theorem labelsWithin_of_length {labels : List (Option ℤ)} {n : ℕ} (h : labels.length ≤ n) :
    LabelsWithin labels n := by
  intro i z hi _
  by_contra hcon
  rw [List.getElem?_eq_none (by omega)] at hi
  cases hi

theorem blockLabels_eq (hS : StandsNamed core H obj moms L) {axis : Option (Option AxisArg)}
    {dim : Option (Option δ)} {d : δ} (hsel : Chosen obj.dims moms axis dim d)
    (hd : d ∈ valDims obj moms) (b : ℤ) :
    blockLabels obj moms axis dim b = (Block.blockBy (obj.size d) b .dropLast).bind fun by_ =>
      if by_ = [] then .error .valueError else .ok (by_.map some) := by
  unfold blockLabels selectNdatX
  rw [selectAxisDim_ok hS.object.distinct (mem_valDims.1 hd).1 (mem_valDims.1 hd).2 hsel]
  rfl

/-- Both policies take the labels of whole blocks alike. -/
theorem Meaning.both_named (T : Meaning k law H wt scaled) (hc : core.Ok)
    (hS : StandsNamed core H obj moms L) (hw : ∀ c, InLabelled obj moms c → 0 ≤ wt (L c))
    {argsort : List ℤ → List ℕ} (ha : IsArgsort argsort) {axis : Option (Option AxisArg)}
    {dim : Option (Option δ)} {d : δ} (hsel : Chosen obj.dims moms axis dim d)
    (hd : d ∈ valDims obj moms) {by_ : List ℤ} {n : ℕ} (hl : by_.length = obj.size d)
    (hn : 0 < n) (hall : ∀ z : ℤ, 0 ≤ z → (z ∈ by_ ↔ z < n)) (block : Option ℤ) (byFirst : Bool)
    {groupDim : Option δ}
    (hgr : ∀ n, groupDim = some n → n = d ∨ n ∉ obj.dims) (keepdims axesToEnd : Bool) :
    ∃ out, reduceObjX core k argsort obj moms (oneAxis axis) (oneDim dim) (some (by_.map some)) block
        byFirst groupDim keepdims axesToEnd = .ok out ∧
      ResultNamed core H out moms (renamed (dimsAfter obj.dims d moms axesToEnd) d (groupDim.getD d))
        (sizesWith obj (groupDim.getD d) n)
        (fun c => (groupRows (c (groupDim.getD d)) by_
          (samplesAlongName L d (obj.size d) c)).flatten) := by
  cases byFirst with
  | false =>
    have := T.code_named hc hS hw argsort hsel hd hl (m := ((n - 1 : ℕ) : ℤ))
      ((hall _ (by omega)).2 (by omega)) (fun l h => by
        by_contra hcon
        have := (hall l (by omega)).1 h
        omega) (by omega) block hgr keepdims axesToEnd
    rwa [show (((n - 1 : ℕ) : ℤ) + 1).toNat = n by omega] at this
  | true =>
    have hg : GroupsOf (by_.map some) ((List.range n).map (fun i : ℕ => (i : ℤ))) := by
      refine ⟨?_, fun z => ?_⟩
      · rw [List.pairwise_map]
        exact List.pairwise_lt_range.imp (fun h => by omega)
      · rw [List.mem_map, List.mem_map_of_injective (Option.some_injective ℤ)]
        constructor
        · rintro ⟨i, hi, rfl⟩
          have := List.mem_range.1 hi
          exact ⟨(hall _ (by omega)).2 (by omega), by omega⟩
        · rintro ⟨h1, h2⟩
          have := (hall z h2).1 h1
          exact ⟨z.toNat, List.mem_range.2 (by omega), by omega⟩
    obtain ⟨out, e, h⟩ := T.by_named hc hS hw ha hsel hd hg
      (labelsWithin_of_length (by rw [List.length_map, hl])) block hgr keepdims axesToEnd
    refine ⟨out, e, ?_⟩
    rw [List.length_map, List.length_range] at h
    refine resultNamed_congr h fun c hcb r hr => ?_
    have hp : groupDim.getD d = d ∨ groupDim.getD d ∉ obj.dims := by
      cases groupDim with
      | none => exact .inl rfl
      | some n => exact hgr n rfl
    obtain ⟨r1, r2, r3⟩ := result_dims hS hd hp n axesToEnd
    have hj := hcb _ r2 r3
    unfold sizesWith at hj
    rw [if_pos rfl] at hj
    rwa [withLabel_some, List.getD_eq_getElem _ _ (by rw [List.length_map, List.length_range]; exact hj),
      List.getElem_map, List.getElem_range] at hr

theorem Meaning.block_named (T : Meaning k law H wt scaled) (hc : core.Ok)
    (hS : StandsNamed core H obj moms L) (hw : ∀ c, InLabelled obj moms c → 0 ≤ wt (L c))
    {argsort : List ℤ → List ℕ} (ha : IsArgsort argsort) {axis : Option (Option AxisArg)}
    {dim : Option (Option δ)} {d : δ} (hsel : Chosen obj.dims moms axis dim d)
    (hd : d ∈ valDims obj moms) {b : ℕ} (h1 : 1 ≤ b) (h2 : b ≤ obj.size d) (byFirst : Bool)
    {groupDim : Option δ}
    (hgr : ∀ n, groupDim = some n → n = d ∨ n ∉ obj.dims) (keepdims axesToEnd : Bool) :
    ∃ out, reduceObjX core k argsort obj moms (oneAxis axis) (oneDim dim) none (some (b : ℤ))
        byFirst groupDim keepdims axesToEnd = .ok out ∧
      ResultNamed core H out moms (renamed (dimsAfter obj.dims d moms axesToEnd) d (groupDim.getD d))
        (sizesWith obj (groupDim.getD d) (obj.size d / b))
        (fun c => (slice (samplesAlongName L d (obj.size d) c) (b * c (groupDim.getD d))
          (b * (c (groupDim.getD d) + 1))).flatten) := by
  have hq : 0 < obj.size d / b := Nat.div_pos h2 (by omega)
  have hlen : (Block.arangeRepeat (obj.size d / b) b
      ++ List.replicate (obj.size d % b) (-1)).length = obj.size d := by
    rw [List.length_append, Block.length_arangeRepeat, List.length_replicate]
    exact Nat.div_add_mod' _ _
  obtain ⟨out, e, h⟩ := T.both_named hc hS hw ha hsel hd
    (by_ := Block.arangeRepeat (obj.size d / b) b ++ List.replicate (obj.size d % b) (-1))
    (n := obj.size d / b) hlen hq (fun z hz => by
      rw [List.mem_append, ← List.count_pos_iff, Block.count_arangeRepeat]
      have : z ∉ List.replicate (obj.size d % b) (-1) := fun h => by
        have := List.eq_of_mem_replicate h; omega
      rw [or_iff_left this]
      split_ifs with hh <;> omega) none byFirst hgr keepdims axesToEnd
  refine ⟨out, ?_, ?_⟩
  · rw [reduce_block_eq, blockLabels_eq hS hsel hd, Block.blockBy_eq _ _ _ h1 h2 (by decide)]
    simp only [Except.bind]
    rw [if_neg (by intro h; rw [h] at hlen; simp at hlen; omega)]
    exact e
  · refine resultNamed_congr h fun c hcb r hr => ?_
    have hp : groupDim.getD d = d ∨ groupDim.getD d ∉ obj.dims := by
      cases groupDim with
      | none => exact .inl rfl
      | some n => exact hgr n rfl
    obtain ⟨r1, r2, r3⟩ := result_dims hS hd hp (obj.size d / b) axesToEnd
    have hj := hcb _ r2 r3
    unfold sizesWith at hj
    rw [if_pos rfl] at hj
    rwa [groupRows_blocks hj] at hr

theorem Meaning.one_block_named (T : Meaning k law H wt scaled) (hc : core.Ok)
    (hS : StandsNamed core H obj moms L) (hw : ∀ c, InLabelled obj moms c → 0 ≤ wt (L c))
    {argsort : List ℤ → List ℕ} (ha : IsArgsort argsort) {axis : Option (Option AxisArg)}
    {dim : Option (Option δ)} {d : δ} (hsel : Chosen obj.dims moms axis dim d)
    (hd : d ∈ valDims obj moms) {b : ℤ} (hb : b ≤ 0) (h2 : obj.size d ≠ 0) (byFirst : Bool)
    {groupDim : Option δ}
    (hgr : ∀ n, groupDim = some n → n = d ∨ n ∉ obj.dims) (keepdims axesToEnd : Bool) :
    ∃ out, reduceObjX core k argsort obj moms (oneAxis axis) (oneDim dim) none (some b)
        byFirst groupDim keepdims axesToEnd = .ok out ∧
      ResultNamed core H out moms (renamed (dimsAfter obj.dims d moms axesToEnd) d (groupDim.getD d))
        (sizesWith obj (groupDim.getD d) 1)
        (fun c => (samplesAlongName L d (obj.size d) c).flatten) := by
  obtain ⟨out, e, h⟩ := T.both_named hc hS hw ha hsel hd (by_ := List.replicate (obj.size d) 0)
    (n := 1) (by simp) (by omega) (fun z hz => by
      rw [List.mem_replicate]
      constructor
      · rintro ⟨-, rfl⟩; norm_num
      · intro h; exact ⟨h2, by omega⟩) none byFirst hgr keepdims axesToEnd
  refine ⟨out, ?_, ?_⟩
  · rw [reduce_block_eq, blockLabels_eq hS hsel hd, (C33_degenerate _ b .dropLast).1 (.inl hb)]
    simp only [Except.bind]
    rw [if_neg (by intro h; rw [List.replicate_eq_nil_iff] at h; exact h2 h)]
    exact e
  · refine resultNamed_congr h fun c hcb r hr => ?_
    have hp : groupDim.getD d = d ∨ groupDim.getD d ∉ obj.dims := by
      cases groupDim with
      | none => exact .inl rfl
      | some n => exact hgr n rfl
    obtain ⟨r1, r2, r3⟩ := result_dims hS hd hp 1 axesToEnd
    have hj := hcb _ r2 r3
    unfold sizesWith at hj
    rw [if_pos rfl] at hj
    rwa [groupRows_replicate, if_pos (by omega), List.take_of_length_le
      (by rw [length_samplesAlongName])] at hr

theorem block_refused (hS : StandsNamed core H obj moms L) (k : Kernel K V M)
    (argsort : List ℤ → List ℕ) {axis : Option (Option AxisArg)}
    {dim : Option (Option δ)} {d : δ} (hsel : Chosen obj.dims moms axis dim d)
    (hd : d ∈ valDims obj moms) {b : ℤ} (h : obj.size d = 0 ∨ (obj.size d : ℤ) < b) (byFirst : Bool)
    (groupDim : Option δ) (keepdims axesToEnd : Bool) :
    reduceObjX core k argsort obj moms (oneAxis axis) (oneDim dim) none (some b) byFirst groupDim
      keepdims axesToEnd = .error .valueError := by
  rw [reduce_block_eq, blockLabels_eq hS hsel hd]
  by_cases hb : b ≤ 0
  · rw [(C33_degenerate _ b .dropLast).1 (.inl hb)]
    rcases h with h | h
    · rw [h]; rfl
    · omega
  · rw [(C33_degenerate _ b .dropLast).2.1 (by omega) (by omega)]
    rfl

theorem Meaning.cumulative_named (T : Meaning k law H wt scaled) (hc : core.Ok)
    (hS : StandsNamed core H obj moms L) (hw : ∀ c, InLabelled obj moms c → 0 ≤ wt (L c))
    {axis : Option (Option AxisArg)} {dim : Option (Option δ)} {d : δ}
    (hsel : Chosen obj.dims moms axis dim d) (hd : d ∈ valDims obj moms) (axesToEnd : Bool) :
    ∃ out, cumulativeObjX core k obj moms axis dim axesToEnd = .ok out ∧
      ResultNamed core H out moms (dimsAfter obj.dims d moms axesToEnd) obj.size
        (fun c => ((samplesAlongName L d (obj.size d) c).take (c d + 1)).flatten) := by
  obtain ⟨h1, h2⟩ := mem_valDims.1 hd
  obtain ⟨out, e, hs⟩ := C57_cumulative hc k false (goodNamed_of hS hd) hS.object.momCount hsel axesToEnd
  refine ⟨out, e, axis_op_named hc hS hd h2 (G := fun data j =>
    (k.cumulative data).bind (fun rows => rows[j]?)) hs
    (fun e he hne => ⟨(mem_dimsAfter h1 hS.object.momPresent axesToEnd).2 (mem_valDims.1 he).1, rfl⟩)
    ((mem_dimsAfter h1 hS.object.momPresent axesToEnd).2 h1) (fun c hb hb2 data hda => ?_)⟩
  exact T.cumulative hda (along_nonneg_named hw hb) (by rw [length_samplesAlongName]; exact hb2)

theorem Meaning.resample_named (T : Meaning k law H wt scaled) (hc : core.Ok)
    (hS : StandsNamed core H obj moms L) (hw : ∀ c, InLabelled obj moms c → 0 ≤ wt (L c))
    {axis : Option (Option AxisArg)} {dim : Option (Option δ)} {d rep : δ}
    (hsel : Chosen obj.dims moms axis dim d) (hd : d ∈ valDims obj moms) (hrep : rep ∉ obj.dims)
    {freq : List (List K)} (hf : ∀ fs ∈ freq, ∀ f ∈ fs, 0 ≤ f) (axesToEnd : Bool) :
    ∃ out, resampleAndReduceX core k obj moms freq (obj.size d) axis dim rep axesToEnd = .ok out ∧
      ResultNamed core H out moms (renamed (dimsAfter obj.dims d moms axesToEnd) d rep)
        (sizesWith obj rep freq.length)
        (fun c => ((freq.getD (c rep) []).zip (samplesAlongName L d (obj.size d) c)).flatMap
          (fun p => p.2.map (scaled p.1))) := by
  obtain ⟨r1, r2, r3⟩ := result_dims hS hd (.inr hrep) freq.length axesToEnd
  obtain ⟨out, e, hs⟩ := (C57_resample_data hc k freq (obj.size d) (goodNamed_of hS hd) hrep
    hS.object.momCount hsel axesToEnd).2 rfl
  refine ⟨out, e, axis_op_named hc hS hd r3 (G := fun data j =>
    ((k.resampleData freq data)[j]?).join) hs r1 r2 (fun c hb hb2 data hda => ?_)⟩
  have hj : c rep < freq.length := by
    unfold sizesWith at hb2
    rwa [if_pos rfl] at hb2
  exact T.resample hda (along_nonneg_named hw hb) hf hj

theorem Meaning.indices_named (T : Meaning k law H wt scaled) (hc : core.Ok)
    (hS : StandsNamed core H obj moms L) (hw : ∀ c, InLabelled obj moms c → 0 ≤ wt (L c))
    {axis : Option (Option AxisArg)} {dim : Option (Option δ)} {d rep : δ}
    (hsel : Chosen obj.dims moms axis dim d) (hd : d ∈ valDims obj moms) (hrep : rep ∉ obj.dims)
    {idx : List (List ℕ)} (hi : ∀ row ∈ idx, ∀ j ∈ row, j < obj.size d) (axesToEnd : Bool) :
    ∃ out, resampleAndReduceX core k obj moms
        (idx.map (fun row => (counts (obj.size d) row).map Nat.cast)) (obj.size d) axis dim rep axesToEnd
        = .ok out ∧
      ResultNamed core H out moms (renamed (dimsAfter obj.dims d moms axesToEnd) d rep)
        (sizesWith obj rep idx.length)
        (fun c => (takeAt (samplesAlongName L d (obj.size d) c) (idx.getD (c rep) [])).flatten) := by
  obtain ⟨out, e, h⟩ := T.resample_named hc hS hw hsel hd hrep
    (freq := idx.map (fun row => (counts (obj.size d) row).map Nat.cast)) (by
      intro fs hfs f hf
      obtain ⟨row, _, rfl⟩ := List.mem_map.1 hfs
      obtain ⟨c, _, rfl⟩ := List.mem_map.1 hf
      exact Nat.cast_nonneg c) axesToEnd
  refine ⟨out, e, ?_⟩
  rw [List.length_map] at h
  obtain ⟨r1, r2, r3⟩ := result_dims hS hd (.inr hrep) idx.length axesToEnd
  refine resultNamed_congr h fun c hcb r hr => ?_
  have hb := hcb _ r2 r3
  unfold sizesWith at hb
  rw [if_pos rfl] at hb
  refine T.of_raw ?_ hr
  rw [List.getD_eq_getElem _ _ (by rw [List.length_map]; exact hb), List.getElem_map,
    List.getD_eq_getElem _ _ hb]
  have hlen := length_samplesAlongName (L := L) d (obj.size d) c
  have := T.raw_taken (idx := idx[c rep]) (Ls := samplesAlongName L d (obj.size d) c)
    (by rw [hlen]; exact hi _ (List.getElem_mem hb))
  rw [hlen] at this
  exact this

theorem Meaning.jackknife_named (T : Meaning k law H wt scaled) (hc : core.Ok)
    (hS : StandsNamed core H obj moms L) (hw : ∀ c, InLabelled obj moms c → 0 ≤ wt (L c))
    {axis : Option (Option AxisArg)} {dim : Option (Option δ)} {d : δ}
    (hsel : Chosen obj.dims moms axis dim d) (hd : d ∈ valDims obj moms) {rep : Option δ}
    (hrep : ∀ n, rep = some n → n = d ∨ n ∉ obj.dims)
    (hz : ∀ e ∈ obj.dims, e ≠ d → obj.size e ≠ 0)
    (hne : ∀ c, InLabelled obj moms c →
      wt ((samplesAlongName L d (obj.size d) c).eraseIdx (c d)).flatten ≠ 0) (axesToEnd : Bool) :
    ∃ out, jackknifeAndReduceX core k obj moms axis dim rep axesToEnd = .ok out ∧
      ResultNamed core H out moms (renamed (dimsAfter obj.dims d moms axesToEnd) d (rep.getD d))
        (sizesWith obj (rep.getD d) (obj.size d))
        (fun c => ((samplesAlongName L d (obj.size d) c).eraseIdx (c (rep.getD d))).flatten) := by
  have hp : rep.getD d = d ∨ rep.getD d ∉ obj.dims := by
    cases rep with
    | none => exact .inl rfl
    | some n => exact hrep n rfl
  obtain ⟨r1, r2, r3⟩ := result_dims hS hd hp (obj.size d) axesToEnd
  obtain ⟨out, e, hs⟩ := C57_jackknife_data hc k (goodNamed_of hS hd) hz hS.object.momCount hsel rep
    hrep axesToEnd
  refine ⟨out, e, axis_op_named hc hS hd r3 (G := fun data j =>
    (k.jackknifeData data).bind (fun rows => (rows[j]?).join)) hs r1 r2
    (fun c hb hb2 data hda => ?_)⟩
  have hj : c (rep.getD d) < obj.size d := by
    unfold sizesWith at hb2
    rwa [if_pos rfl] at hb2
  refine T.jackknife hda (along_nonneg_named hw hb) (by rw [length_samplesAlongName]; exact hj) ?_
  have := hne (Function.update c d (c (rep.getD d))) (fun e he => by
    by_cases h : e = d
    · subst h; rw [Function.update_self]; exact hj
    · rw [Function.update_of_ne h]; exact hb e he h)
  unfold samplesAlongName at this ⊢
  simpa only [Function.update_idem, Function.update_self] using this

end Methods

section Adding

variable {δ : Type} [DecidableEq δ] {K V M : Type} {ι σ : Type*} [Field K] [DecidableEq K]
  {k : Kernel K V M} {law : Lawful k ι} {H : List σ → M → Prop} {wt : List σ → K}
  {scaled : K → σ → σ} {core : Nd.Core K M} {obj other : DataArray δ K} {moms : List δ}
  {L L' : (δ → ℕ) → List σ} {fam : List ℕ → Kernel K V M}

theorem entry_whole (x : DataArray δ K) (c : δ → ℕ) : entry x.whole c = some (entry x c) := rfl

theorem cellNamed_whole (c : δ → ℕ) :
    cellNamed core obj.whole moms c = some (recordNamed core obj moms c) := by
  unfold cellNamed recordNamed
  simp only [entry_whole, Option.isSome_some, if_true, Option.getD_some]

/-- What remains of an update in which every record is found. -/
theorem updated_result (hc : core.Ok) (hS : StandsNamed core H obj moms L)
    {out : DataArray δ (Option K)} {f : (δ → ℕ) → M → Option M}
    (h : UpdatedNamed core moms obj.whole out f) {L2 : (δ → ℕ) → List σ}
    (hf : ∀ c ms, f (withNames moms ms c) = f c)
    (hH : ∀ c, InLabelled obj moms c → ∃ r, f c (recordNamed core obj moms c) = some r ∧ H (L2 c) r) :
    ResultNamed core H out moms (valDims obj moms ++ moms) obj.size L2 where
  dims_eq := h.dims
  size_eq := fun d hd => h.size d (by
    rcases List.mem_append.1 hd with hd | hd
    · exact (mem_valDims.1 hd).1
    · exact hS.object.momPresent d hd)
  holds := fun c hcb => by
    have hin : InLabelled obj moms c := fun d hd =>
      hcb d (List.mem_append_left _ hd) (mem_valDims.1 hd).2
    obtain ⟨r, e, hr⟩ := hH c hin
    refine ⟨r, hr, fun ms hms => ?_⟩
    have hl : ms.length = moms.length := by simpa using (within_iff.1 hms).1
    rw [h.entry _ (fun d hd => by
      unfold withNames
      rw [if_neg (mem_valDims.1 hd).2]
      exact hin d hd), cellNamed_whole, recordNamed_withNames hc, Option.bind_some, hf, e,
      Option.map_some, map_withNames hS.object.momDistinct hl]

theorem goodRecord_of (ha : Addable obj other moms) :
    GoodRecord core moms (valDims obj.whole moms) obj.whole.size (.named other) :=
  ⟨ha.distinct, ha.momPresent, fun d hd => ⟨by
    by_cases hm : d ∈ moms
    · exact List.mem_append_right _ hm
    · exact List.mem_append_left _ (mem_valDims.2 ⟨(ha.within d hd).1, hm⟩), (ha.within d hd).2⟩⟩

theorem other_holds (hS' : StandsNamed core H other moms L') (ha : Addable obj other moms)
    {c : δ → ℕ} (h : InLabelled obj moms c) : H (L' c) (recordNamed core other moms c) :=
  hS'.holds c fun d hd => by
    obtain ⟨h1, h2⟩ := mem_valDims.1 hd
    rw [(ha.within d h1).2]
    exact h d (mem_valDims.2 ⟨(ha.within d h1).1, h2⟩)

theorem checkOther_ok (ha : Addable obj other moms) : checkOtherX obj moms other moms = .ok () := by
  unfold checkOtherX
  rw [if_neg]
  rw [not_not]
  exact List.map_congr_left fun d hd => (ha.within d (ha.momPresent d hd)).2

theorem whole_object {nd : ℕ} (g : LabelledObject obj moms nd) : LabelledObject obj.whole moms nd :=
  ⟨g.distinct, g.momDistinct, g.momPresent, g.momCount⟩

theorem Meaning.add_named (T : Meaning k law H wt scaled) (hc : core.Ok)
    (hS : StandsNamed core H obj moms L) (hS' : StandsNamed core H other moms L')
    (ha : Addable obj other moms) (hk : fam (moms.map obj.size) = k)
    (hw : ∀ c, InLabelled obj moms c → wt (L' c) = 0 ∨ wt (L c) + wt (L' c) ≠ 0) :
    ∃ out, addX core fam false obj moms other moms = .ok out ∧
      ResultNamed core H out moms (valDims obj moms ++ moms) obj.size (fun c => L c ++ L' c) := by
  unfold addX
  rw [checkOther_ok ha]
  obtain ⟨out, e, h⟩ := C64_push_data hc fam (whole_object hS.object) (goodRecord_of ha)
  refine ⟨out, e, updated_result hc hS h (fun c ms => ?_) (fun c hin => ?_)⟩
  · funext r
    show Kernel.pushData _ (recordNamed core other moms _) _ = _
    rw [recordNamed_withNames hc]
    rfl
  · show ∃ r, (fam (moms.map obj.size)).pushData (recordNamed core other moms c)
      (recordNamed core obj moms c) = some r ∧ _
    have h1 := hS.holds c hin
    have h2 := other_holds hS' ha hin
    rw [hk, law.data_eq]
    obtain ⟨r, e⟩ := law.pushScale_exists (d := recordNamed core other moms c) (s := 1)
      (o := recordNamed core obj moms c) (by
        rw [mul_one, T.cell_weight h1, T.cell_weight h2]; exact hw c hin)
    refine ⟨r, e, (T.iff _ _).2 ?_⟩
    rw [law.pushScale_raw e, one_smul, T.append, (T.iff _ _).1 h1, (T.iff _ _).1 h2]

theorem Meaning.sub_named (T : Meaning k law H wt scaled) (hc : core.Ok)
    (hS : StandsNamed core H obj moms L) (hS' : StandsNamed core H other moms L')
    (ha : Addable obj other moms) (hk : fam (moms.map obj.size) = k)
    (hw : ∀ c, InLabelled obj moms c → wt (L' c) = 0 ∨ wt (L c) ≠ wt (L' c)) :
    ∃ out, addX core fam true obj moms other moms = .ok out ∧
      ResultNamed core H out moms (valDims obj moms ++ moms) obj.size
        (fun c => L c ++ (L' c).map (scaled (-1))) := by
  unfold addX
  rw [checkOther_ok ha]
  obtain ⟨out, e, h⟩ := C64_push_data_scale hc fam (whole_object hS.object) (goodRecord_of ha)
    (s := ⟨[], fun _ => -1⟩) ⟨Nat.zero_le _, fun p hp => absurd hp (Nat.not_lt_zero p)⟩
  refine ⟨out, e, updated_result hc hS h (fun c ms => ?_) (fun c hin => ?_)⟩
  · funext r
    show Kernel.pushScale _ (recordNamed core other moms _) (-1) _ = _
    rw [recordNamed_withNames hc]
    rfl
  · show ∃ r, (fam (moms.map obj.size)).pushScale (recordNamed core other moms c) (-1)
      (recordNamed core obj moms c) = some r ∧ _
    have h1 := hS.holds c hin
    have h2 := other_holds hS' ha hin
    rw [hk]
    obtain ⟨r, e⟩ := law.pushScale_exists (d := recordNamed core other moms c) (s := -1)
      (o := recordNamed core obj moms c) (by
        rw [T.cell_weight h1, T.cell_weight h2]
        refine (hw c hin).imp (fun h => by rw [h, zero_mul]) (fun h h' => h ?_)
        linear_combination h')
    refine ⟨r, e, (T.iff _ _).2 ?_⟩
    rw [law.pushScale_raw e, T.append, T.scale, (T.iff _ _).1 h1, (T.iff _ _).1 h2]

/-- Taking back what had been added. -/
theorem Meaning.sub_back_named (T : Meaning k law H wt scaled) (hc : core.Ok)
    (hS : StandsNamed core H obj moms L) (hS' : StandsNamed core H other moms L')
    (ha : Addable obj other moms) (hk : fam (moms.map obj.size) = k)
    (hraw : ∀ A B : List σ, A.Perm B → T.raw A = T.raw B) {P : (δ → ℕ) → List σ}
    (hP : ∀ c, InLabelled obj moms c → (L c).Perm (P c ++ L' c))
    (hw : ∀ c, InLabelled obj moms c → wt (P c) ≠ 0) :
    ∃ out, addX core fam true obj moms other moms = .ok out ∧
      ResultNamed core H out moms (valDims obj moms ++ moms) obj.size P := by
  have hwt : ∀ c, InLabelled obj moms c → wt (L c) = wt (P c) + wt (L' c) := fun c hin => by
    rw [← T.weight, ← T.weight, ← T.weight, hraw _ _ (hP c hin), T.append]
    rfl
  obtain ⟨out, e, h⟩ := T.sub_named hc hS hS' ha hk (fun c hin => .inr fun h => hw c hin (by
    rw [hwt c hin] at h
    linear_combination h))
  refine ⟨out, e, resultNamed_congr h fun c hcb r hr => T.of_raw ?_ hr⟩
  have hin : InLabelled obj moms c := fun d hd =>
    hcb d (List.mem_append_left _ hd) (mem_valDims.1 hd).2
  rw [T.append, hraw _ _ (hP c hin), T.append, T.scale, neg_one_smul, add_neg_cancel_right]

end Adding

end Cmomy
