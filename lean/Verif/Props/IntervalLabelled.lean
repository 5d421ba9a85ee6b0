import Verif.Lemmas.IntervalLabelled

/-!
# C87: confidence intervals of labelled arrays

`bootstrap_confidence_interval` for `DataArray`s matches replicates, estimates and leave-one-out estimates
by dimension name.
-/

namespace Cmomy

open Labelled Spec Axes

variable {δ : Type} [DecidableEq δ] {K : Type} [Field K] [LinearOrder K] [FloorRing K]

omit [Field K] [LinearOrder K] [FloorRing K] in
private theorem renamed_ok {boot j : DataArray δ K} {dim rep : δ} (hd : boot.dims.Nodup)
    (hdim : dim ∈ boot.dims) (hrep : rep ∉ boot.dims) (hp : j.dims.Perm boot.dims)
    (hs : ∀ d ∈ j.dims, d ≠ dim → j.size d = boot.size d) :
    ∃ j', j.rename dim rep = .ok j' ∧
      j'.dims.Perm (boot.dims.filter (fun d => decide (d ≠ dim)) ++ [rep]) ∧
      (∀ d ∈ boot.dims.filter (fun d => decide (d ≠ dim)), j'.size d = boot.size d) ∧
      ∀ c, valuesNamed j' rep c = valuesNamed j dim c := by
  have hne : rep ≠ dim := fun e => hrep (e ▸ hdim)
  have hrj : rep ∉ j.dims := fun h => hrep (hp.mem_iff.1 h)
  unfold DataArray.rename
  rw [if_neg (by simpa using hp.mem_iff.2 hdim), if_neg hne, if_neg hrj]
  refine ⟨_, rfl, ?_, ?_, ?_⟩
  · show (j.dims.map (fun d => if d = dim then rep else d)).Perm _
    refine (hp.map _).trans ?_
    have hpb : boot.dims.Perm (boot.dims.filter (fun d => decide (d ≠ dim)) ++ [dim]) := by
      refine (List.perm_ext_iff_of_nodup hd ?_).2 fun d => ?_
      · rw [List.nodup_append]
        refine ⟨hd.filter _, by simp, ?_⟩
        rintro p hp q hq rfl
        simp at hp hq
        exact hp.2 hq
      · simp only [List.mem_append, List.mem_filter, List.mem_singleton, decide_eq_true_eq]
        constructor
        · intro h
          by_cases e : d = dim
          exacts [.inr e, .inl ⟨h, e⟩]
        · rintro (h | rfl)
          exacts [h.1, hdim]
    refine (hpb.map _).trans (List.Perm.of_eq ?_)
    rw [List.map_append]
    refine congrArg₂ _ ?_ (by simp)
    conv_rhs => rw [← List.map_id (boot.dims.filter _)]
    refine List.map_congr_left fun d hdm => ?_
    have : d ≠ dim := by simpa using (List.mem_filter.1 hdm).2
    rw [if_neg this]; rfl
  · intro d hdm
    have h1 := List.mem_filter.1 hdm
    have h2 : d ≠ dim := by simpa using h1.2
    have h3 : d ≠ rep := fun e => hrep (e ▸ h1.1)
    show (if d = rep then j.size dim else j.size d) = _
    rw [if_neg h3]
    exact hs d (hp.mem_iff.2 h1.1) h2
  · intro c
    unfold valuesNamed
    simp only [if_true]
    refine List.map_congr_left fun s _ => ?_
    unfold entry
    simp only [List.map_map]
    congr 1
    refine List.map_congr_left fun d hdj => ?_
    show Function.update c rep s (if d = dim then rep else d) = _
    by_cases e : d = dim
    · subst e; simp
    · rw [if_neg e, Function.update_of_ne e, Function.update_of_ne (show d ≠ rep from fun h => hrj (h ▸ hdj))]

private theorem run (N : NormalFns K) {boot : DataArray δ K} {hat jack : Option (DataArray δ K)}
    {alpha : AlphaArg K} {method : String} {axis : Option (Option AxisArg)} {dimArg : Option (Option δ)}
    {dim rep ciDim : δ} (hp : SameNames boot hat jack dim rep ciDim)
    (hc : Chosen boot.dims [] axis dimArg dim)
    (hh : method = "basic" ∨ method = "bca" → hat ≠ none) (hj : method = "bca" → jack ≠ none) :
    ∃ b h j m, SamePlaces b h j (-1) ((boot.dims.filter (fun d => decide (d ≠ dim))).map boot.size)
        (boot.size dim) m [] ∧
      (∀ c, elementsAlong b ((boot.dims.filter (fun d => decide (d ≠ dim))).map boot.size).length
        (boot.size dim) ((boot.dims.filter (fun d => decide (d ≠ dim))).map c) = valuesNamed boot dim c) ∧
      (∀ c, h.map (estimateAt · ((boot.dims.filter (fun d => decide (d ≠ dim))).map boot.size).length
        ((boot.dims.filter (fun d => decide (d ≠ dim))).map c)) = (usedHat method hat).map (entry · c)) ∧
      (∀ c, j.map (elementsAlong · ((boot.dims.filter (fun d => decide (d ≠ dim))).map boot.size).length
        m ((boot.dims.filter (fun d => decide (d ≠ dim))).map c)) =
        (usedJack method jack).map (valuesNamed · dim c)) ∧
      ∃ frames : List (Frame δ), (∀ f ∈ frames, ∀ d ∈ f.1, d ∈ boot.dims.filter (fun d => decide (d ≠ dim)) →
          f.2 d = boot.size d) ∧ (∀ f ∈ frames, ciDim ∉ f.1) ∧
        bootstrapCIX N boot hat jack alpha method axis dimArg rep ciDim =
          ((Nd.bootCINd N b h j alpha.alphas method (-1)).bind fun out =>
            wrapResult frames [] (boot.dims.filter (fun d => decide (d ≠ dim)) ++ [ciDim])
              (firstToLast out)).bind fun y => y.transposeStrict [some ciDim, none] := by
  have hren : ∃ jack', renameOpt jack dim rep = .ok jack' ∧ (jack'.isNone ↔ jack = none) ∧
      (∀ j ∈ jack', j.dims.Perm (boot.dims.filter (fun d => decide (d ≠ dim)) ++ [rep]) ∧
        ∀ d ∈ boot.dims.filter (fun d => decide (d ≠ dim)), j.size d = boot.size d) ∧
      ∀ c, jack'.map (valuesNamed · rep c) = jack.map (valuesNamed · dim c) := by
    cases jack with
    | none => exact ⟨none, rfl, by simp, by simp, fun c => rfl⟩
    | some j =>
      obtain ⟨j', e1, e2, e3, e4⟩ := renamed_ok hp.distinct hp.present hp.repNew (hp.jackDims j rfl)
        (hp.jackSize j rfl)
      refine ⟨some j', by show (j.rename dim rep).map some = _; rw [e1]; rfl, by simp,
        by rintro _ ⟨⟩; exact ⟨e2, e3⟩, fun c => ?_⟩
      simp only [Option.map_some, e4]
  obtain ⟨jack', r1, r2, r3, r4⟩ := hren
  have hsubH : ∀ h ∈ usedHat method hat, h ∈ hat := by
    intro h hm
    unfold usedHat at hm
    split at hm
    · exact hm
    · simp at hm
  have hsubJ : ∀ j ∈ usedJack method jack', j ∈ jack' := by
    intro h hm
    unfold usedJack at hm
    split at hm
    · exact hm
    · simp at hm
  obtain ⟨b, h, j, s1, s2, s3, s4, s5⟩ := applyCI_run N (hat := usedHat method hat)
    (jack := usedJack method jack') (alphas := alpha.alphas) (method := method) rfl hp.distinct hp.present
    hp.repNew hp.ciNew hp.newDistinct (fun x hx => hp.hatDims x (hsubH x hx))
    (fun x hx => hp.hatSize x (hsubH x hx)) (fun x hx => (r3 x (hsubJ x hx)).1)
    (fun x hx => (r3 x (hsubJ x hx)).2)
  refine ⟨b, h, j, _, s1, s2, s3, fun c => ?_,
    boot.frame :: ((usedHat method hat).toList ++ (usedJack method jack').toList).map DataArray.frame,
    ?_, ?_, ?_⟩
  · rw [s4 c]
    unfold usedJack
    split
    · exact r4 c
    · rfl
  · intro f hf d hdf hdl
    simp only [List.mem_cons, List.mem_map, List.mem_append, Option.mem_toList] at hf
    rcases hf with rfl | ⟨x, hx | hx, rfl⟩
    · rfl
    · exact hp.hatSize x (hsubH x hx) d hdf
    · exact (r3 x (hsubJ x hx)).2 d hdl
  · intro f hf hcf
    simp only [List.mem_cons, List.mem_map, List.mem_append, Option.mem_toList] at hf
    rcases hf with rfl | ⟨x, hx | hx, rfl⟩
    · exact hp.ciNew hcf
    · exact hp.ciNew (List.mem_of_mem_filter ((hp.hatDims x (hsubH x hx)).mem_iff.1 hcf))
    · rcases List.mem_append.1 ((r3 x (hsubJ x hx)).1.mem_iff.1 hcf) with h | h
      · exact hp.ciNew (List.mem_of_mem_filter h)
      · exact hp.newDistinct (List.mem_singleton.1 h).symm
  · unfold bootstrapCIX
    rw [selectAxisDim_ok hp.distinct hp.present (by simp) hc]
    show (renameOpt jack dim rep).bind _ = _
    rw [r1]
    show (if _ then _ else _) = _
    rw [if_neg (by
      rintro ⟨h1, h2⟩
      exact hh h1 (by simpa using h2)), if_neg (by
      rintro ⟨h1, h2⟩
      exact hj h1 (r2.1 h2))]
    show (applyCI N boot (usedHat method hat) (usedJack method jack') _ _ _ _ _).bind _ = _
    rw [s5]

private theorem finish {boot : DataArray δ K} {dim ciDim : δ} {L : ℕ} {out : Nd.Arr (Option K)}
    {frames : List (Frame δ)} (hd : boot.dims.Nodup) (hci : ciDim ∉ boot.dims)
    (hs : out.shape = L :: (boot.dims.filter (fun d => decide (d ≠ dim))).map boot.size)
    (hf : ∀ f ∈ frames, ∀ d ∈ f.1, d ∈ boot.dims.filter (fun d => decide (d ≠ dim)) → f.2 d = boot.size d)
    (hfc : ∀ f ∈ frames, ciDim ∉ f.1) :
    ∃ y, (wrapResult frames [] (boot.dims.filter (fun d => decide (d ≠ dim)) ++ [ciDim])
        (firstToLast out)).bind (fun y => y.transposeStrict [some ciDim, none]) = .ok y ∧
      y.dims = ciDim :: boot.dims.filter (fun d => decide (d ≠ dim)) ∧ y.size ciDim = L ∧
      (∀ d ∈ boot.dims, d ≠ dim → y.size d = boot.size d) ∧
      ∀ c, entry y c = elementAt out (c ciDim :: (boot.dims.filter (fun d => decide (d ≠ dim))).map c) := by
  generalize hl : boot.dims.filter (fun d => decide (d ≠ dim)) = loop at *
  have hln : loop.Nodup := by rw [← hl]; exact hd.filter _
  have hcl : ciDim ∉ loop := by rw [← hl]; exact fun h => hci (List.mem_of_mem_filter h)
  have hn : (loop ++ [ciDim]).Nodup := by
    rw [List.nodup_append]
    refine ⟨hln, by simp, ?_⟩
    rintro p hp q hq rfl
    have : p = ciDim := by simpa using hq
    exact hcl (this ▸ hp)
  have hsh : (firstToLast out).shape = (loop ++ [ciDim]).map (fun d => if d = ciDim then L else boot.size d) := by
    unfold firstToLast
    rw [hs]
    simp only [List.drop_succ_cons, List.drop_zero, List.take_succ_cons, List.take_zero, List.map_append,
      List.map_cons, List.map_nil, if_true]
    refine congrArg₂ _ (List.map_congr_left fun d hdl => ?_) rfl
    rw [if_neg (show d ≠ ciDim from fun e => hcl (e ▸ hdl))]
  have hw := wrapResult_ok (inputs := frames) (exclude := []) hn hsh (by
    intro f hfm d hdd hdf _
    rcases List.mem_append.1 hdd with h | h
    · rw [if_neg (show d ≠ ciDim from fun e => hcl (e ▸ h)), hf f hfm d hdf h]
    · have : d = ciDim := by simpa using h
      exact absurd (this ▸ hdf) (hfc f hfm))
  rw [hw]
  have hi : infixDims [some ciDim, none] (loop ++ [ciDim]) = .ok (ciDim :: loop) := by
    unfold infixDims
    have h1 : (loop ++ [ciDim]).filter (fun d => decide (some d ∉ [some ciDim, none])) = loop := by
      rw [List.filter_append, List.filter_eq_self.2, List.filter_eq_nil_iff.2]
      · simp
      · simp
      · intro d hdl
        have : d ≠ ciDim := fun e => hcl (e ▸ hdl)
        simpa using this
    rw [if_pos (by simp), if_neg (by
      rintro (h | h)
      · exact h hn
      · simp at h), h1]
    simp
  obtain ⟨y, y1, y2, y3, y4⟩ := transposeStrict_ok (x := DataArray.ofNd (loop ++ [ciDim]) (firstToLast out))
    (supplied := [some ciDim, none]) hn (by simp)
    (by intro d hd'
        have : d = ciDim := by simpa using hd'
        subst this
        show d ∈ loop ++ [d]
        simp) hi
    (show ([ciDim] ++ loop).Perm (loop ++ [ciDim]) from List.perm_append_comm)
  have hsz : ∀ d ∈ loop ++ [ciDim], y.size d = if d = ciDim then L else boot.size d := by
    intro d hdd
    rw [y3]
    show (firstToLast out).shape.getD ((loop ++ [ciDim]).idxOf d) 0 = _
    have := List.idxOf_lt_length_iff.2 hdd
    rw [hsh, List.getD_eq_getElem _ _ (by simpa using this), List.getElem_map, List.getElem_idxOf]
  refine ⟨y, y1, y2, ?_, ?_, fun c => ?_⟩
  · rw [hsz _ (by simp), if_pos rfl]
  · intro d hdd hne
    have hm : d ∈ loop := by rw [← hl]; simp [hdd, hne]
    rw [hsz _ (List.mem_append_left _ hm), if_neg (show d ≠ ciDim from fun e => hcl (e ▸ hm))]
  · rw [y4, ofNd_entry, Nd.elementAt_eq]
    show out.get (Nd.insertAt 0 _ (Nd.dropAt _ _)) = _
    have hol : out.shape.length - 1 = loop.length := by rw [hs]; simp
    rw [hol, dropAt_pos, Nd.insertAt_at _ (Nat.zero_le _)]
    congr 2
    have : pos (loop ++ [ciDim]) c loop.length = c ciDim := by simp [pos]
    rw [this]; rfl

/-- **C87**: the result has dimension `ci_dim` first, of the length of the list of levels, and then the
dimensions of the replicates without `dim`, in order. At every place it has the interval of the replicates,
the estimate and the leave-one-out estimates found there by name, however the three arrays order their
dimensions. -/
theorem C87_each_place (N : NormalFns K) {boot : DataArray δ K} {hat jack : Option (DataArray δ K)}
    {alpha : AlphaArg K} {method : String} {axis : Option (Option AxisArg)} {dimArg : Option (Option δ)}
    {dim rep ciDim : δ} (hp : SameNames boot hat jack dim rep ciDim) (hL : alpha.alphas ≠ [])
    (hc : Chosen boot.dims [] axis dimArg dim)
    (hh : method = "basic" ∨ method = "bca" → hat ≠ none) (hj : method = "bca" → jack ≠ none)
    {out : DataArray δ (Option K)}
    (h : bootstrapCIX N boot hat jack alpha method axis dimArg rep ciDim = .ok out) :
    out.dims = ciDim :: boot.dims.filter (fun d => decide (d ≠ dim)) ∧
    out.size ciDim = alpha.alphas.length ∧ (∀ d ∈ boot.dims, d ≠ dim → out.size d = boot.size d) ∧
    ∀ c, (∀ d ∈ boot.dims, d ≠ dim → c d < boot.size d) → c ciDim < alpha.alphas.length → ∃ r,
      bootCI N (valuesNamed boot dim c) ((usedHat method hat).map (entry · c))
        ((usedJack method jack).map (valuesNamed · dim c)) alpha.alphas method = .ok r ∧
      entry out c = r.bind (·[c ciDim]?) := by
  obtain ⟨b, bh, bj, m, s1, s2, s3, s4, frames, f1, f2, f3⟩ := run N (alpha := alpha) hp hc hh hj
  rw [f3] at h
  cases hr : Nd.bootCINd N b bh bj alpha.alphas method (-1) with
  | error e => rw [hr] at h; simp [Except.bind] at h
  | ok o =>
    rw [hr] at h
    obtain ⟨k1, k2⟩ := C86_each_place N hL s1 hr
    rw [List.append_nil] at k1 k2
    obtain ⟨y, y1, y2, y3, y4, y5⟩ := finish (dim := dim) hp.distinct hp.ciNew k1 f1 f2
    have : y = out := by
      have h' : (wrapResult frames [] (boot.dims.filter (fun d => decide (d ≠ dim)) ++ [ciDim])
        (firstToLast o)).bind (fun y => y.transposeStrict [some ciDim, none]) = .ok out := h
      rw [y1] at h'
      exact Except.ok.inj h'
    subst this
    refine ⟨y2, y3, y4, fun c hcs hci => ?_⟩
    obtain ⟨r, r1, r2⟩ := k2 ((boot.dims.filter (fun d => decide (d ≠ dim))).map c)
      (forall₂_lt_map fun d hd => by
        have := List.mem_filter.1 hd
        exact hcs d this.1 (by simpa using this.2))
    rw [s2 c, s3 c, s4 c] at r1
    exact ⟨r, r1, by rw [y5 c, r2 _ hci]⟩

/-- **C87**: there is a result whenever every place has one, and no dimension but `dim` is empty. -/
theorem C87_succeeds (N : NormalFns K) {boot : DataArray δ K} {hat jack : Option (DataArray δ K)}
    {alpha : AlphaArg K} {method : String} {axis : Option (Option AxisArg)} {dimArg : Option (Option δ)}
    {dim rep ciDim : δ} (hp : SameNames boot hat jack dim rep ciDim) (hL : alpha.alphas ≠ [])
    (hc : Chosen boot.dims [] axis dimArg dim)
    (hh : method = "basic" ∨ method = "bca" → hat ≠ none) (hj : method = "bca" → jack ≠ none)
    (hne : ∀ d ∈ boot.dims, d ≠ dim → boot.size d ≠ 0)
    (h : ∀ c, (∀ d ∈ boot.dims, d ≠ dim → c d < boot.size d) → ∃ r,
      bootCI N (valuesNamed boot dim c) ((usedHat method hat).map (entry · c))
        ((usedJack method jack).map (valuesNamed · dim c)) alpha.alphas method = .ok r) :
    ∃ out, bootstrapCIX N boot hat jack alpha method axis dimArg rep ciDim = .ok out := by
  obtain ⟨b, bh, bj, m, s1, s2, s3, s4, frames, f1, f2, f3⟩ := run N (alpha := alpha) hp hc hh hj
  have hln : (boot.dims.filter (fun d => decide (d ≠ dim))).Nodup := hp.distinct.filter _
  obtain ⟨o, ho⟩ := C86_succeeds N hL s1 ⟨(boot.dims.filter (fun d => decide (d ≠ dim))).map (fun _ => 0), by
      rw [List.append_nil]
      exact forall₂_lt_map fun d hd => by
        have := List.mem_filter.1 hd
        exact Nat.pos_of_ne_zero (hne d this.1 (by simpa using this.2))⟩ (by
    intro q hq
    rw [List.append_nil] at hq
    have hql : q.length = (boot.dims.filter (fun d => decide (d ≠ dim))).length := by
      simpa using Nd.inShape_length hq
    have hq' : q = (boot.dims.filter (fun d => decide (d ≠ dim))).map
        (fun d => q.getD ((boot.dims.filter (fun d => decide (d ≠ dim))).idxOf d) 0) := by
      refine List.ext_getElem (by simp [hql]) fun k h1 h2 => ?_
      rw [List.getElem_map, hln.idxOf_getElem, List.getD_eq_getElem _ _ h1]
    have hb : ∀ d ∈ boot.dims, d ≠ dim →
        q.getD ((boot.dims.filter (fun d => decide (d ≠ dim))).idxOf d) 0 < boot.size d := by
      intro d hd hdn
      have hm : d ∈ boot.dims.filter (fun d => decide (d ≠ dim)) := by simp [hd, hdn]
      have hi := List.idxOf_lt_length_iff.2 hm
      have := Nd.inShape_lt hq (p := (boot.dims.filter (fun d => decide (d ≠ dim))).idxOf d) (by simpa using hi)
      rw [List.getD_eq_getElem _ _ (by simpa using hi), List.getElem_map, List.getElem_idxOf] at this
      exact this
    obtain ⟨r, hr⟩ := h _ hb
    rw [← s2, ← s3, ← s4, ← hq'] at hr
    exact ⟨r, hr⟩)
  obtain ⟨k1, -⟩ := C86_each_place N hL s1 ho
  rw [List.append_nil] at k1
  obtain ⟨y, y1, -⟩ := finish (dim := dim) hp.distinct hp.ciNew k1 f1 f2
  exact ⟨y, by rw [f3, ho]; exact y1⟩

/-- **C87**: the order of dimensions has no influence: two calls whose inputs have the same dimensions in
another order, and the same numbers by name, give the same numbers by name. -/
theorem C87_order (N : NormalFns K) {boot boot' : DataArray δ K} {hat jack hat' jack' : Option (DataArray δ K)}
    {alpha : AlphaArg K} {method : String} {axis axis' : Option (Option AxisArg)}
    {dimArg dimArg' : Option (Option δ)} {dim rep ciDim : δ} (hp : SameNames boot hat jack dim rep ciDim)
    (hp' : SameNames boot' hat' jack' dim rep ciDim) (hL : alpha.alphas ≠ [])
    (hc : Chosen boot.dims [] axis dimArg dim) (hc' : Chosen boot'.dims [] axis' dimArg' dim)
    (hh : method = "basic" ∨ method = "bca" → hat ≠ none) (hj : method = "bca" → jack ≠ none)
    (hh' : method = "basic" ∨ method = "bca" → hat' ≠ none) (hj' : method = "bca" → jack' ≠ none)
    (hd : boot'.dims.Perm boot.dims) (hs : ∀ d ∈ boot.dims, boot'.size d = boot.size d)
    (e1 : ∀ c, entry boot' c = entry boot c) (e2 : ∀ c, hat'.map (entry · c) = hat.map (entry · c))
    (e3 : ∀ c, jack'.map (valuesNamed · dim c) = jack.map (valuesNamed · dim c))
    {out out' : DataArray δ (Option K)}
    (h : bootstrapCIX N boot hat jack alpha method axis dimArg rep ciDim = .ok out)
    (h' : bootstrapCIX N boot' hat' jack' alpha method axis' dimArg' rep ciDim = .ok out') :
    out'.dims.Perm out.dims ∧
    ∀ c, (∀ d ∈ boot.dims, d ≠ dim → c d < boot.size d) → c ciDim < alpha.alphas.length →
      entry out' c = entry out c := by
  obtain ⟨a1, -, -, a4⟩ := C87_each_place N hp hL hc hh hj h
  obtain ⟨b1, -, -, b4⟩ := C87_each_place N hp' hL hc' hh' hj' h'
  refine ⟨by rw [a1, b1]; exact (hd.filter _).cons _, fun c hcs hci => ?_⟩
  obtain ⟨r, r1, r2⟩ := a4 c hcs hci
  obtain ⟨r', r1', r2'⟩ := b4 c (fun d hm hne => by
    rw [hs d (hd.mem_iff.1 hm)]; exact hcs d (hd.mem_iff.1 hm) hne) hci
  have k1 : valuesNamed boot' dim c = valuesNamed boot dim c := by
    unfold valuesNamed
    rw [hs dim hp.present]
    exact List.map_congr_left fun s _ => e1 _
  have k2 : (usedHat method hat').map (entry · c) = (usedHat method hat).map (entry · c) := by
    unfold usedHat
    split
    · exact e2 c
    · rfl
  have k3 : (usedJack method jack').map (valuesNamed · dim c) =
      (usedJack method jack).map (valuesNamed · dim c) := by
    unfold usedJack
    split
    · exact e3 c
    · rfl
  rw [k1, k2, k3, r1] at r1'
  rw [r2, r2', Except.ok.inj r1']

omit [Field K] [LinearOrder K] [FloorRing K] in
private theorem values_ne {boot : DataArray δ K} {dim : δ} (hn : boot.size dim ≠ 0) (c : δ → ℕ) :
    valuesNamed boot dim c ≠ [] := by
  intro h
  have := congrArg List.length h
  simp [valuesNamed] at this
  exact hn this

section Quantiles

variable [IsStrictOrderedRing K]

/-- **C87**: percentile intervals of a labelled array: the entry at level `j` of every place is the quantile
of the replicates found there by name. -/
theorem C87_percentile (N : NormalFns K) {boot : DataArray δ K} {hat jack : Option (DataArray δ K)}
    {alpha : AlphaArg K} {method : String} {axis : Option (Option AxisArg)} {dimArg : Option (Option δ)}
    {dim rep ciDim : δ} (hp : SameNames boot hat jack dim rep ciDim) (hL : alpha.alphas ≠ [])
    (hq : Levels alpha.alphas) (hc : Chosen boot.dims [] axis dimArg dim) (hn : boot.size dim ≠ 0)
    (hne : ∀ d ∈ boot.dims, d ≠ dim → boot.size d ≠ 0)
    (h1 : method.toLower ≠ "basic") (h2 : method.toLower ≠ "bca") :
    ∃ out, bootstrapCIX N boot hat jack alpha method axis dimArg rep ciDim = .ok out ∧
      out.dims = ciDim :: boot.dims.filter (fun d => decide (d ≠ dim)) ∧
      ∀ c, (∀ d ∈ boot.dims, d ≠ dim → c d < boot.size d) → ∀ q, alpha.alphas[c ciDim]? = some q →
        ∃ v, entry out c = some v ∧ IsQuantile (valuesNamed boot dim c) q v := by
  have m1 : method ≠ "basic" := by rintro rfl; exact h1 (by decide +kernel)
  have m2 : method ≠ "bca" := by rintro rfl; exact h2 (by decide +kernel)
  have hh : method = "basic" ∨ method = "bca" → hat ≠ none := by
    rintro (h | h)
    exacts [absurd h m1, absurd h m2]
  have hj : method = "bca" → jack ≠ none := fun h => absurd h m2
  have key := fun c => C45_percentile N (valuesNamed boot dim c) (values_ne hn c)
    ((usedHat method hat).map (entry · c)) ((usedJack method jack).map (valuesNamed · dim c)) alpha.alphas hq
    method h1 h2
  obtain ⟨out, ho⟩ := C87_succeeds N hp hL hc hh hj hne (fun c _ => by
    obtain ⟨ci, hci, -⟩ := key c
    exact ⟨_, hci⟩)
  obtain ⟨k1, -, -, k4⟩ := C87_each_place N hp hL hc hh hj ho
  refine ⟨out, ho, k1, fun c hcs q hjq => ?_⟩
  obtain ⟨r, r1, r2⟩ := k4 c hcs (List.getElem?_eq_some_iff.1 hjq).1
  obtain ⟨ci, hci, hf⟩ := key c
  rw [r1, Except.ok.injEq] at hci
  subst hci
  obtain ⟨v, hv, hv'⟩ := forall₂_entry hf hjq
  exact ⟨v, by rw [r2]; simpa using hv, hv'⟩

/-- **C87**: basic intervals of a labelled array: the entry at level `j` of every place is the reflection,
about the estimate found there by name, of the quantile at level `j` counted from the end. -/
theorem C87_basic (N : NormalFns K) {boot hat : DataArray δ K} {jack : Option (DataArray δ K)}
    {alpha : AlphaArg K} {axis : Option (Option AxisArg)} {dimArg : Option (Option δ)}
    {dim rep ciDim : δ} (hp : SameNames boot (some hat) jack dim rep ciDim) (hL : alpha.alphas ≠ [])
    (hq : Levels alpha.alphas) (hc : Chosen boot.dims [] axis dimArg dim) (hn : boot.size dim ≠ 0)
    (hne : ∀ d ∈ boot.dims, d ≠ dim → boot.size d ≠ 0) :
    ∃ out, bootstrapCIX N boot (some hat) jack alpha "basic" axis dimArg rep ciDim = .ok out ∧
      out.dims = ciDim :: boot.dims.filter (fun d => decide (d ≠ dim)) ∧
      ∀ c, (∀ d ∈ boot.dims, d ≠ dim → c d < boot.size d) → ∀ q, alpha.alphas.reverse[c ciDim]? = some q →
        ∃ v, entry out c = some v ∧ IsQuantile (valuesNamed boot dim c) q (2 * entry hat c - v) := by
  have key := fun c => C45_basic_levels N (valuesNamed boot dim c) (values_ne hn c) (entry hat c)
    ((usedJack "basic" jack).map (valuesNamed · dim c)) alpha.alphas hq "basic" (by decide +kernel)
  have e : ∀ c, (usedHat "basic" (some hat)).map (entry · c) = some (entry hat c) := fun c => rfl
  obtain ⟨out, ho⟩ := C87_succeeds N hp hL hc (method := "basic") (by simp) (by simp) hne (fun c _ => by
    obtain ⟨ci, hci, -⟩ := key c
    exact ⟨_, by rw [e]; exact hci⟩)
  obtain ⟨k1, -, -, k4⟩ := C87_each_place N hp hL hc (by simp) (by simp) ho
  refine ⟨out, ho, k1, fun c hcs q hjq => ?_⟩
  obtain ⟨r, r1, r2⟩ := k4 c hcs (by simpa using (List.getElem?_eq_some_iff.1 hjq).1)
  obtain ⟨ci, hci, hf⟩ := key c
  have hr : r = some ci := by
    rw [e] at r1
    have := r1.symm.trans hci
    simpa using this
  subst hr
  obtain ⟨v, hv, hv'⟩ := forall₂_entry hf hjq
  exact ⟨v, by rw [r2]; simpa using hv, hv'⟩

/-- **C87**: `bca` intervals of a labelled array: at every place where nothing infinite or undefined occurs,
the entries are quantiles of the replicates found there by name, at the levels adjusted by the bias and the
skewness found there. -/
theorem C87_bca (N : NormalFns K) (hN : ∀ x, 0 ≤ N.ndtr x ∧ N.ndtr x ≤ 1)
    {boot hat jack : DataArray δ K} {alpha : AlphaArg K} {axis : Option (Option AxisArg)}
    {dimArg : Option (Option δ)} {dim rep ciDim : δ}
    (hp : SameNames boot (some hat) (some jack) dim rep ciDim) (hL : alpha.alphas ≠ [])
    (hc : Chosen boot.dims [] axis dimArg dim) (hn : boot.size dim ≠ 0) {out : DataArray δ (Option K)}
    (h : bootstrapCIX N boot (some hat) (some jack) alpha "bca" axis dimArg rep ciDim = .ok out) {c : δ → ℕ}
    (hcs : ∀ d ∈ boot.dims, d ≠ dim → c d < boot.size d) {v q : K} (hq : alpha.alphas[c ciDim]? = some q)
    (hv : entry out c = some v) :
    ∃ a z0 z, computeA N (valuesNamed jack dim c) = some a ∧
      N.ndtri (percentileOfScore (valuesNamed boot dim c) (entry hat c)) = some z0 ∧
      N.ndtri q = some z ∧ 1 - a * (z0 + z) ≠ 0 ∧
      IsQuantile (valuesNamed boot dim c) (N.ndtr (z0 + (z0 + z) / (1 - a * (z0 + z)))) v := by
  obtain ⟨-, -, -, k4⟩ := C87_each_place N hp hL hc (by simp) (by simp) h
  obtain ⟨r, r1, r2⟩ := k4 c hcs (List.getElem?_eq_some_iff.1 hq).1
  rw [r2] at hv
  cases r with
  | none => simp at hv
  | some ci =>
    obtain ⟨a, z0, ha, hz, hf, -⟩ := C45_bca N hN (valuesNamed boot dim c) (values_ne hn c) (entry hat c)
      (valuesNamed jack dim c) alpha.alphas "bca" (by decide +kernel) ci r1
    obtain ⟨y, hy, z, q1, q2, q3⟩ := forall₂_entry hf hq
    have : y = v := by
      have : ci[c ciDim]? = some v := by simpa using hv
      rw [hy] at this
      exact Option.some.inj this
    subst this
    exact ⟨a, z0, z, ha, hz, q1, q2, q3⟩

/-- **C87**: `bca` intervals of a labelled array raise nothing, when there are replicates and no other
dimension is empty. -/
theorem C87_bca_succeeds (N : NormalFns K) (hN : ∀ x, 0 ≤ N.ndtr x ∧ N.ndtr x ≤ 1)
    {boot hat jack : DataArray δ K} {alpha : AlphaArg K} {axis : Option (Option AxisArg)}
    {dimArg : Option (Option δ)} {dim rep ciDim : δ}
    (hp : SameNames boot (some hat) (some jack) dim rep ciDim) (hL : alpha.alphas ≠ [])
    (hc : Chosen boot.dims [] axis dimArg dim) (hn : boot.size dim ≠ 0)
    (hne : ∀ d ∈ boot.dims, d ≠ dim → boot.size d ≠ 0) :
    ∃ out, bootstrapCIX N boot (some hat) (some jack) alpha "bca" axis dimArg rep ciDim = .ok out := by
  refine C87_succeeds N hp hL hc (by simp) (by simp) hne fun c _ => ?_
  have h1 : "bca".toLower = "bca" := by decide +kernel
  have e : (usedHat "bca" (some hat)).map (entry · c) = some (entry hat c) := rfl
  have e' : (usedJack "bca" (some jack)).map (valuesNamed · dim c) = some (valuesNamed jack dim c) := rfl
  simp only [bootCI, h1, e, e', reduceCtorEq, and_false, if_false, if_true]
  cases computeA N (valuesNamed jack dim c) with
  | none => exact ⟨_, rfl⟩
  | some a =>
    cases computeZ0 N (entry hat c) (valuesNamed boot dim c) with
    | none => exact ⟨_, rfl⟩
    | some z0 =>
      simp only
      cases hm : alpha.alphas.mapM (bcaLevel N a z0) with
      | none => exact ⟨_, rfl⟩
      | some avals =>
        have hl : Levels avals := by
          intro y hy
          obtain ⟨x, -, hx⟩ := mapM_some_mem hm y hy
          unfold bcaLevel at hx
          cases hz : N.ndtri x with
          | none => rw [hz] at hx; simp at hx
          | some z =>
            rw [hz] at hx
            simp only [Option.bind_eq_bind, Option.bind_some] at hx
            split at hx
            · simp at hx
            · rw [← Option.some.inj hx]; exact hN _
        simp only
        rw [npQuantile_ok (values_ne hn c) hl]
        exact ⟨_, rfl⟩

end Quantiles
/-- **C87**: labelled calls compare the name of the method as it is written, array calls ignore case. So
`"Basic"` or `"BCa"` is refused for labelled arrays whatever estimates are given. -/
theorem C87_method_case (N : NormalFns K) {boot : DataArray δ K} {hat jack : Option (DataArray δ K)}
    {alpha : AlphaArg K} {method : String} {axis : Option (Option AxisArg)} {dimArg : Option (Option δ)}
    {dim rep ciDim : δ} (hp : SameNames boot hat jack dim rep ciDim)
    (hc : Chosen boot.dims [] axis dimArg dim) (h1 : method ≠ "basic") (h2 : method ≠ "bca")
    (h3 : method.toLower = "basic" ∨ method.toLower = "bca") :
    bootstrapCIX N boot hat jack alpha method axis dimArg rep ciDim = .error .valueError := by
  obtain ⟨b, bh, bj, m, -, -, s3, -, frames, -, -, f3⟩ := run N (alpha := alpha) hp hc
    (by rintro (h | h); exacts [absurd h h1, absurd h h2]) (fun h => absurd h h2)
  have hbh : bh = none := by
    have := s3 (fun _ => 0)
    unfold usedHat at this
    rw [if_neg (by rintro (h | h); exacts [h1 h, h2 h])] at this
    simpa using this
  rw [f3, hbh]
  have : Nd.bootCINd N b none bj alpha.alphas method (-1) = .error .valueError := by
    unfold Nd.bootCINd
    rcases h3 with h | h <;> simp [h]
  rw [this]
  rfl

/-- **C87**: the methods `"basic"` and `"bca"` raise `TypeError` without labelled estimates, and `"bca"`
also without labelled leave-one-out estimates. -/
theorem C87_missing (N : NormalFns K) {boot : DataArray δ K} {hat jack : Option (DataArray δ K)}
    {alpha : AlphaArg K} {method : String} {axis : Option (Option AxisArg)} {dimArg : Option (Option δ)}
    {dim rep ciDim : δ} (hp : SameNames boot hat jack dim rep ciDim)
    (hc : Chosen boot.dims [] axis dimArg dim)
    (h : (method = "basic" ∨ method = "bca") ∧ hat = none ∨ method = "bca" ∧ jack = none) :
    bootstrapCIX N boot hat jack alpha method axis dimArg rep ciDim = .error .typeError := by
  have hren : ∃ jack', renameOpt jack dim rep = .ok jack' ∧ (jack = none → jack' = none) := by
    cases jack with
    | none => exact ⟨none, rfl, fun _ => rfl⟩
    | some j =>
      obtain ⟨j', e1, -⟩ := renamed_ok hp.distinct hp.present hp.repNew (hp.jackDims j rfl)
        (hp.jackSize j rfl)
      exact ⟨some j', by show (j.rename dim rep).map some = _; rw [e1]; rfl, by simp⟩
  obtain ⟨jack', r1, r2⟩ := hren
  unfold bootstrapCIX
  rw [selectAxisDim_ok hp.distinct hp.present (by simp) hc]
  show (renameOpt jack dim rep).bind _ = _
  rw [r1]
  show (if (method = "basic" ∨ method = "bca") ∧ hat.isNone then _ else _) = _
  by_cases hm : (method = "basic" ∨ method = "bca") ∧ hat.isNone
  · rw [if_pos hm]
  · rw [if_neg hm]
    rcases h with h | h
    · exact absurd ⟨h.1, by simp [h.2]⟩ hm
    · rw [if_pos ⟨h.1, by simp [r2 h.2]⟩]

/-- **C87**: other methods make no use of the estimates: the call is the call without them. -/
theorem C87_unused (N : NormalFns K) {boot : DataArray δ K} {hat jack : Option (DataArray δ K)}
    {alpha : AlphaArg K} {method : String} {axis : Option (Option AxisArg)} {dimArg : Option (Option δ)}
    {dim rep ciDim : δ} (hp : SameNames boot hat jack dim rep ciDim)
    (hc : Chosen boot.dims [] axis dimArg dim) (h1 : method ≠ "basic") (h2 : method ≠ "bca") :
    bootstrapCIX N boot hat jack alpha method axis dimArg rep ciDim =
      bootstrapCIX N boot none none alpha method axis dimArg rep ciDim := by
  have hren : ∃ jack', renameOpt jack dim rep = .ok jack' := by
    cases jack with
    | none => exact ⟨none, rfl⟩
    | some j =>
      obtain ⟨j', e1, -⟩ := renamed_ok hp.distinct hp.present hp.repNew (hp.jackDims j rfl)
        (hp.jackSize j rfl)
      exact ⟨some j', by show (j.rename dim rep).map some = _; rw [e1]; rfl⟩
  obtain ⟨jack', r1⟩ := hren
  unfold bootstrapCIX
  rw [selectAxisDim_ok hp.distinct hp.present (by simp) hc]
  have r2 : renameOpt (none : Option (DataArray δ K)) dim rep = .ok none := rfl
  simp only [Except.bind, r1, r2, h1, h2, or_self, false_and, if_false]

/-! ## Concrete cases -/

private def exFns : NormalFns ℚ where
  ndtr _ := 1 / 2
  ndtri := some
  pow32 x := x

/-- Replicates along the first dimension. -/
private def exBoot : DataArray String ℚ :=
  ⟨⟨["rep", "x"], fun i => (i.getD 0 0 + 1 + 10 * i.getD 1 0 : ℕ)⟩, fun d => if d = "rep" then 3 else 2⟩

private def exHat : DataArray String ℚ := ⟨⟨["x"], fun i => (10 * i.getD 0 0 + 3 : ℕ)⟩, fun _ => 2⟩

/-- Four leave-one-out estimates along the last dimension. -/
private def exJack : DataArray String ℚ :=
  ⟨⟨["x", "rep"], fun i => (i.getD 1 0 + 1 : ℕ)⟩, fun d => if d = "rep" then 4 else 2⟩

private theorem ex_names : SameNames exBoot (some exHat) (some exJack) "rep" "_rep_jack" "alpha" where
  distinct := by decide
  present := by decide
  hatDims := by rintro h ⟨⟩; decide
  hatSize := by rintro h ⟨⟩; decide
  jackDims := by rintro h ⟨⟩; decide
  jackSize := by rintro h ⟨⟩; decide
  repNew := by decide
  ciNew := by decide
  newDistinct := by decide

private theorem ex_chosen : Chosen exBoot.dims [] none (some (some "rep")) "rep" := .inl ⟨rfl, rfl⟩

private theorem ex_levels : Levels ([1 / 4, 3 / 4] : List ℚ) := by
  intro q h; simp at h; rcases h with rfl | rfl <;> norm_num

/-- At `x = 1` the replicates are 11, 12, 13 and the estimate is 13. -/
example : ∃ out v, bootstrapCIX exFns exBoot (some exHat) (some exJack) (.levels [1 / 4, 3 / 4]) "basic" none
      (some (some "rep")) "_rep_jack" "alpha" = .ok out ∧ out.dims = ["alpha", "x"] ∧
    entry out (fun _ => 1) = some v ∧ IsQuantile [11, 12, 13] (1 / 4) (2 * 13 - v) := by
  obtain ⟨out, h1, h2, h3⟩ := C87_basic exFns (alpha := .levels [1 / 4, 3 / 4]) ex_names (by simp [AlphaArg.alphas])
    ex_levels ex_chosen (by decide) (by decide)
  obtain ⟨v, hv, hq⟩ := h3 (fun _ => 1) (by decide) (1 / 4) (by simp [AlphaArg.alphas])
  have e : valuesNamed exBoot "rep" (fun _ => 1) = [11, 12, 13] := by decide +kernel
  have e' : entry exHat (fun _ => 1) = 13 := by decide +kernel
  rw [e, e'] at hq
  exact ⟨out, v, h1, h2, hv, hq⟩

example := C87_percentile exFns (alpha := .levels [1 / 4, 3 / 4]) (method := "percentile") ex_names
  (by simp [AlphaArg.alphas]) ex_levels ex_chosen (by decide) (by decide) (by decide +kernel) (by decide +kernel)

private theorem ex_spread : ∀ x, 0 ≤ exFns.ndtr x ∧ exFns.ndtr x ≤ 1 := by
  intro x; simp only [exFns]; norm_num

/-- At `x = 1` the leave-one-out estimates are 1, 2, 3, 4 without skewness, the bias is `5/6`, and the level
is `1/2`. -/
example : ∃ out v, bootstrapCIX exFns exBoot (some exHat) (some exJack) (.levels [1 / 4, 3 / 4]) "bca" none
      (some (some "rep")) "_rep_jack" "alpha" = .ok out ∧
    entry out (fun _ => 1) = some v ∧ IsQuantile [11, 12, 13] (1 / 2) v := by
  obtain ⟨out, ho⟩ := C87_bca_succeeds exFns ex_spread (alpha := .levels [1 / 4, 3 / 4]) ex_names
    (by simp [AlphaArg.alphas]) ex_chosen (by decide) (by decide)
  obtain ⟨-, -, -, k4⟩ := C87_each_place exFns ex_names (by simp [AlphaArg.alphas]) ex_chosen (by simp)
    (by simp) ho
  obtain ⟨r, r1, r2⟩ := k4 (fun _ => 1) (by decide) (by decide)
  have e : valuesNamed exBoot "rep" (fun _ => 1) = [11, 12, 13] := by decide +kernel
  have e' : (usedHat "bca" (some exHat)).map (entry · (fun _ => 1)) = some 13 := by decide +kernel
  have e'' : (usedJack "bca" (some exJack)).map (valuesNamed · "rep" (fun _ => 1)) = some [1, 2, 3, 4] := by
    decide +kernel
  have low : "bca".toLower = "bca" := by decide +kernel
  have ha : computeA exFns [1, 2, 3, 4] = some 0 := by norm_num [computeA, exFns]
  have hz : computeZ0 exFns 13 [11, 12, 13] = some (5 / 6) := by
    norm_num [computeZ0, exFns, percentileOfScore, List.filter]
  have hm : ([1 / 4, 3 / 4] : List ℚ).mapM (bcaLevel exFns 0 (5 / 6)) = some [1 / 2, 1 / 2] := by
    norm_num [bcaLevel, exFns]
  have hl : Levels ([1 / 2, 1 / 2] : List ℚ) := by
    intro q h; simp at h; subst h; norm_num
  have hr : r = some [quantile1 [11, 12, 13] (1 / 2), quantile1 [11, 12, 13] (1 / 2)] := by
    rw [e, e', e''] at r1
    simp only [bootCI, low, AlphaArg.alphas, ha, hz, hm, npQuantile_ok (List.cons_ne_nil _ _) hl] at r1
    have := Except.ok.inj r1
    exact this.symm
  have hv : entry out (fun _ => 1) = some (quantile1 [11, 12, 13] (1 / 2)) := by rw [r2, hr]; rfl
  obtain ⟨a, z0, z, -, -, -, -, h⟩ := C87_bca exFns ex_spread ex_names (by simp [AlphaArg.alphas]) ex_chosen
    (by decide) ho (c := fun _ => 1) (by decide) (q := 3 / 4) (by simp [AlphaArg.alphas]) hv
  rw [e] at h
  exact ⟨out, _, ho, hv, h⟩

example := C87_method_case exFns (alpha := .levels [1 / 4, 3 / 4]) (method := "BCa") ex_names ex_chosen
  (by decide) (by decide) (.inr (by decide +kernel))

example := C87_unused exFns (alpha := .levels [1 / 4, 3 / 4]) (method := "percentile") ex_names ex_chosen
  (by decide) (by decide)

example := C87_missing exFns (alpha := .levels [1 / 4, 3 / 4]) (method := "basic") (hat := none)
  (jack := some exJack)
  { ex_names with hatDims := (by simp), hatSize := (by simp) } ex_chosen (.inl ⟨.inl rfl, rfl⟩)

/-- The replicates of the example with the dimensions in the other order. -/
private def exTurned : DataArray String ℚ :=
  ⟨⟨["x", "rep"], fun i => (i.getD 1 0 + 1 + 10 * i.getD 0 0 : ℕ)⟩, fun d => if d = "rep" then 3 else 2⟩

private theorem ex_turned : SameNames exTurned (some exHat) (some exJack) "rep" "_rep_jack" "alpha" where
  distinct := by decide
  present := by decide
  hatDims := by rintro h ⟨⟩; decide
  hatSize := by rintro h ⟨⟩; decide
  jackDims := by rintro h ⟨⟩; decide
  jackSize := by rintro h ⟨⟩; decide
  repNew := by decide
  ciNew := by decide
  newDistinct := by decide

/-- Both calls succeed and agree; the second one chooses the dimension by axis. -/
example : ∃ out out', bootstrapCIX exFns exBoot (some exHat) (some exJack) (.levels [1 / 4, 3 / 4]) "basic" none
      (some (some "rep")) "_rep_jack" "alpha" = .ok out ∧
    bootstrapCIX exFns exTurned (some exHat) (some exJack) (.levels [1 / 4, 3 / 4]) "basic"
      (some (some (.int (-1)))) none "_rep_jack" "alpha" = .ok out' ∧
    entry out' (fun _ => 1) = entry out (fun _ => 1) := by
  have hc : Chosen exTurned.dims [] (some (some (.int (-1)))) none "rep" :=
    .inr (.inl ⟨rfl, -1, rfl, by unfold InRange; decide, by decide⟩)
  obtain ⟨out, h, -⟩ := C87_basic exFns (alpha := .levels [1 / 4, 3 / 4]) ex_names (by simp [AlphaArg.alphas])
    ex_levels ex_chosen (by decide) (by decide)
  obtain ⟨out', h', -⟩ := C87_basic exFns (alpha := .levels [1 / 4, 3 / 4]) ex_turned
    (by simp [AlphaArg.alphas]) ex_levels hc (by decide) (by decide)
  exact ⟨out, out', h, h', (C87_order exFns ex_names ex_turned (by simp [AlphaArg.alphas]) ex_chosen hc
    (by simp) (by simp) (by simp) (by simp) (by decide) (by decide) (fun c => rfl) (fun c => rfl)
    (fun c => rfl) h h').2 _ (by decide) (by decide)⟩

end Cmomy
