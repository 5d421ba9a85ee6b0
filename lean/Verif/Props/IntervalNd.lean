import Verif.Lemmas.IntervalNd
import Verif.Props.Interval

/-!
# C86: confidence intervals of arrays treat every place on its own

The replicates run along one axis of `theta_boot`; whatever the other axes are, and wherever that axis
is, the interval found at a place of the other axes is the one `bootstrap_confidence_interval` gives for
the replicates, the estimate and the leave-one-out estimates at that place.
-/

namespace Cmomy

open Nd Axes Spec

variable {K : Type*} [Field K] [LinearOrder K] [FloorRing K]

/-- What is asked of the arguments: `axis` (counted from either end) is the axis of the replicates, the
estimates have the other axes, and this one with size one or not at all, the leave-one-out estimates have these axes and one more at the same
position, of any size. -/
structure SamePlaces (boot : Arr K) (hat jack : Option (Arr K)) (axis : ℤ) (pre : List ℕ) (n m : ℕ)
    (post : List ℕ) : Prop where
  replicates : boot.shape = pre ++ n :: post
  inRange : InRange boot.shape.length axis
  position : wrap boot.shape.length axis = pre.length
  estimates : ∀ h ∈ hat, h.shape = pre ++ post ∨ h.shape = pre ++ 1 :: post
  leftOut : ∀ j ∈ jack, j.shape = pre ++ m :: post

/-- The interval of one place. -/
def placeCI (N : NormalFns K) (boot : Arr K) (hat jack : Option (Arr K)) (alphas : List K)
    (method : String) (ax n m : ℕ) (c : List ℕ) : Py (Option (List K)) :=
  bootCI N (elementsAlong boot ax n c) (hat.map (estimateAt · ax c)) (jack.map (elementsAlong · ax m c))
    alphas method

private theorem place_index (j : ℕ) (c : List ℕ) :
    (at_ (j :: c)) 0 = j ∧ dropAt 0 (at_ (j :: c)) = at_ c := by
  refine ⟨by simp [at_], ?_⟩
  funext p; simp [dropAt, at_]

private theorem quantileNd_ok {boot : Arr K} {pre post : List ℕ} {n : ℕ} {alphas : List K}
    (hb : boot.shape = pre ++ n :: post) {q : Arr K} (h : quantileNd boot alphas pre.length = .ok q) :
    q.shape = alphas.length :: (pre ++ post) ∧ ∀ c, c.length = (pre ++ post).length →
      npQuantile (elementsAlong boot pre.length n c) alphas =
        .ok (alphas.map (quantile1 (elementsAlong boot pre.length n c))) ∧
      ∀ j, q.get (at_ (j :: c)) =
        quantile1 (elementsAlong boot pre.length n c) (alphas.getD j 0) := by
  have hn : boot.shape.getD pre.length 0 = n := by rw [hb]; simp
  unfold quantileNd at h
  rw [hn] at h
  split at h
  · rename_i hl
    split at h
    · simp at h
    · rename_i h0
      rw [Except.ok.injEq] at h
      subst h
      refine ⟨by simp [hb, List.eraseIdx_append_of_length_le], fun c hc => ⟨?_, fun j => ?_⟩⟩
      · unfold npQuantile
        rw [if_pos hl, if_neg]
        simp [elementsAlong, h0]
      · show quantile1 (boot.lineAt _ (dropAt 0 _)) (alphas.getD (at_ (j :: c) 0) 0) = _
        rw [(place_index j c).1, (place_index j c).2, lineAt_eq hb hc]
  · simp at h

private theorem quantileNd_runs {boot : Arr K} {pre post c : List ℕ} {n : ℕ} {alphas r : List K}
    (hb : boot.shape = pre ++ n :: post)
    (h : npQuantile (elementsAlong boot pre.length n c) alphas = .ok r) :
    ∃ q, quantileNd boot alphas pre.length = .ok q := by
  have hn : boot.shape.getD pre.length 0 = n := by rw [hb]; simp
  unfold npQuantile at h
  unfold quantileNd
  rw [hn]
  split at h
  · rename_i hl
    split at h
    · simp at h
    · rename_i h0
      rw [if_pos hl, if_neg]
      · exact ⟨_, rfl⟩
      · rintro rfl; simp [elementsAlong] at h0
  · simp at h

private theorem mapM_py_ok {α β : Type*} {f : α → Py β} {l : List α} {r : List β}
    (h : l.mapM f = .ok r) : ∀ x ∈ l, ∃ y, f x = .ok y := by
  induction l generalizing r with
  | nil => simp
  | cons a l ih =>
    rw [List.mapM_cons] at h
    cases ha : f a with
    | error e => rw [ha] at h; simp [bind, Except.bind] at h
    | ok y =>
      rw [ha] at h
      cases hl : l.mapM f with
      | error e => rw [hl] at h; simp [bind, Except.bind] at h
      | ok ys =>
        intro x hx
        rcases List.mem_cons.1 hx with rfl | hx
        · exact ⟨y, ha⟩
        · exact ih hl x hx

private theorem mapM_py_runs {α β : Type*} {f : α → Py β} {l : List α}
    (h : ∀ x ∈ l, ∃ y, f x = .ok y) : ∃ r, l.mapM f = .ok r := by
  induction l with
  | nil => exact ⟨[], rfl⟩
  | cons a l ih =>
    obtain ⟨y, hy⟩ := h a (by simp)
    obtain ⟨ys, hys⟩ := ih (fun x hx => h x (by simp [hx]))
    exact ⟨y :: ys, by rw [List.mapM_cons, hy, hys]; rfl⟩

/-- All there is to say about `_quantile_along_axis` in the place `bca` uses it. -/
private theorem bca_array (N : NormalFns K) {boot hat jack : Arr K} {pre post : List ℕ} {n m : ℕ}
    {alphas : List K} {axis : ℤ} {method : String} (hL : alphas ≠ []) (hm : method.toLower = "bca")
    (hp : SamePlaces boot (some hat) (some jack) axis pre n m post) :
    ∃ out : Arr (Option K), out.shape = alphas.length :: (pre ++ post) ∧
      (∀ c, InShape c (pre ++ post) → ∀ j < alphas.length, ∀ r,
        placeCI N boot (some hat) (some jack) alphas method pre.length n m c = .ok r →
        out.get (at_ (j :: c)) = r.bind (·[j]?)) ∧
      bootCINd N boot (some hat) (some jack) alphas method axis =
        ((ndindexes (pre ++ post)).mapM (fun c =>
          placeCI N boot (some hat) (some jack) alphas method pre.length n m c)).map (fun _ => out) := by
  have hr := hp.inRange
  have hw := hp.position
  rw [hp.replicates] at hr hw
  obtain ⟨h', b, -, -, e1, e2, e3, -⟩ := hat_ready (hat := hat) n 0 (hp.estimates hat rfl) hr hw
  have hj := hp.leftOut jack rfl
  have hjn : npNormalize axis jack.shape.length = .ok pre.length := by
    rw [hj, show (pre ++ m :: post).length = (pre ++ n :: post).length by simp]
    exact (npNormalize_int _ _ _).2 ⟨hr, hw.symm⟩
  have hbn : npNormalize axis (pre ++ n :: post).length = .ok pre.length :=
    (npNormalize_int _ _ _).2 ⟨hr, hw.symm⟩
  have hbe : (pre ++ n :: post).eraseIdx pre.length = pre ++ post := by
    simp [List.eraseIdx_append_of_length_le]
  have hae : (jack.along pre.length (computeA N)).shape = pre ++ post := by
    show jack.shape.eraseIdx _ = _
    rw [hj]; simp [List.eraseIdx_append_of_length_le]
  obtain ⟨a', f1, f2⟩ := fit_hat (pre := pre ++ post) (post := []) alphas.length
    (hat := jack.along pre.length (computeA N)) (by rw [hae]; simp)
  obtain ⟨al, g1, g2⟩ := fit_same
    (a := (⟨pre ++ post ++ [alphas.length], fun i =>
      (a'.get i).bind fun av => (N.ndtri ((percentileNd boot b pre.length).get
          (dropAt (pre ++ post).length i))).bind fun zv =>
        (alphas[i (pre ++ post).length]?).bind (bcaLevel N av zv)⟩ : Arr (Option K))) rfl
  have hals : al.shape = pre ++ post ++ [alphas.length] := by
    unfold fitTo Select.broadcastTo at g1
    split at g1
    · rename_i b' hb'
      split at hb'
      · cases hb'; cases g1; rfl
      · simp at hb'
    · simp at g1
  have hidx : ∀ c, InShape c (pre ++ post) → ∀ j < alphas.length,
      ∀ p < (pre ++ post ++ [alphas.length]).length,
        insertAt (pre ++ post).length j (at_ c) p < (pre ++ post ++ [alphas.length]).getD p 0 := by
    intro c hc j hj' p hp'
    unfold insertAt
    by_cases h : p < (pre ++ post).length
    · rw [if_pos h, List.getD_append _ _ _ _ h]
      exact inShape_lt hc h
    · have : p = (pre ++ post).length := by
        rw [List.length_append, List.length_singleton] at hp'; omega
      rw [if_neg h, if_pos this, List.getD_append_right _ _ _ _ (by omega), this]
      simpa using hj'
  have hrow : ∀ c, InShape c (pre ++ post) →
      quantileRow (al.lineAt (pre ++ post).length (at_ c))
        ((boot.toLast pre.length).lineAt (pre ++ post).length (at_ c)) =
      placeCI N boot (some hat) (some jack) alphas method pre.length n m c := by
    intro c hc
    rw [row_eq N hL hp.replicates hj hc (score := b) (v := estimateAt hat pre.length c) (e3 c hc) (a' := a')
      (f2 c (by simpa using hc)) hals]
    · unfold placeCI bootCI
      simp only [hm, Option.map_some]
      simp
      rfl
    · intro j hj'
      rw [g2 _ (hidx c hc j hj')]
      simp only [dropAt_insertAt]
      simp [insertAt]
  have hts : (boot.toLast pre.length).shape.dropLast = pre ++ post := by
    unfold Arr.toLast
    rw [hp.replicates, hbe, List.dropLast_concat]
  refine ⟨Arr.lastToFirst ⟨pre ++ post ++ [alphas.length], fun i =>
      entryOf (quantileRow (al.lineAt (pre ++ post).length
          (at_ ((List.range (pre ++ post).length).map i)))
        ((boot.toLast pre.length).lineAt (pre ++ post).length
          (at_ ((List.range (pre ++ post).length).map i)))) (i (pre ++ post).length)⟩, ?_, ?_, ?_⟩
  · unfold Arr.lastToFirst
    simp only [List.length_append, List.length_singleton, Nat.add_sub_cancel]
    rw [← List.length_append, List.drop_left, List.take_left]
    rfl
  · intro c hc j hj' r hr'
    have hcl := inShape_length hc
    have hlen : (pre ++ post ++ [alphas.length]).length - 1 = (pre ++ post).length := by
      rw [List.length_append, List.length_singleton, Nat.add_sub_cancel]
    unfold Arr.lastToFirst
    simp only [hlen, (place_index j c).1, (place_index j c).2]
    have hcc : (List.range (pre ++ post).length).map
        (insertAt (pre ++ post).length j (at_ c)) = c := by
      refine List.ext_getElem (by simp [hcl]) fun k h1 h2 => ?_
      have : k < (pre ++ post).length := by rw [← hcl]; exact h2
      rw [List.getElem_map, List.getElem_range]
      unfold insertAt at_
      rw [if_pos this]
      simp [List.getD, h2]
    rw [hcc, hrow c hc, hr']
    cases r with
    | none => rfl
    | some r => simp [insertAt, entryOf]
  · unfold bootCINd
    simp only [hm, if_true]
    rw [hp.replicates, e1]
    simp only [Except.bind]
    unfold computeANd
    rw [hjn]
    simp only [Except.map]
    rw [hbn]
    simp only
    unfold computeZ0Nd
    rw [hp.replicates, e2]
    simp only [Except.map, hbe]
    unfold avalsNd
    simp only [hae]
    rw [show (pre ++ post).length = (pre ++ post).length from rfl]
    rw [f1]
    simp only [Except.map]
    unfold quantileAlong
    simp only [hts]
    have : fitTo (⟨pre ++ post ++ [alphas.length], fun i =>
      (a'.get i).bind fun av => ((Arr.expandAt (⟨pre ++ post, fun i => N.ndtri ((percentileNd boot b pre.length).get i)⟩ : Arr (Option K))
          (pre ++ post).length).get i).bind fun zv =>
        (alphas[i (pre ++ post).length]?).bind (bcaLevel N av zv)⟩ : Arr (Option K))
        (pre ++ post ++ [alphas.length]) = .ok al := g1
    rw [this]
    simp only [Except.bind]
    have hmm : (ndindexes (pre ++ post)).mapM (fun c =>
        quantileRow (al.lineAt (pre ++ post).length (at_ c))
          ((boot.toLast pre.length).lineAt (pre ++ post).length (at_ c))) = (ndindexes (pre ++ post)).mapM (fun c =>
          placeCI N boot (some hat) (some jack) alphas method pre.length n m c) := by
      have : ∀ l : List (List ℕ), (∀ c ∈ l, InShape c (pre ++ post)) → l.mapM (fun c =>
        quantileRow (al.lineAt (pre ++ post).length (at_ c))
          ((boot.toLast pre.length).lineAt (pre ++ post).length (at_ c))) = l.mapM (fun c =>
          placeCI N boot (some hat) (some jack) alphas method pre.length n m c) := by
        intro l hl
        induction l with
        | nil => rfl
        | cons a l ih =>
          rw [List.mapM_cons, List.mapM_cons, hrow a (hl a (by simp)),
            ih (fun c hc => hl c (by simp [hc]))]
      exact this _ fun c hc => mem_ndindexes.1 hc
    rw [hmm]
    cases (ndindexes (pre ++ post)).mapM (fun c =>
          placeCI N boot (some hat) (some jack) alphas method pre.length n m c) <;> rfl

private theorem plain_place (N : NormalFns K) {boot : Arr K} {hat jack : Option (Arr K)} {alphas : List K}
    {method : String} {ax n m : ℕ} {c : List ℕ} (h1 : method.toLower ≠ "bca")
    (h2 : method.toLower ≠ "basic") :
    placeCI N boot hat jack alphas method ax n m c =
      (npQuantile (elementsAlong boot ax n c) alphas).map some := by
  unfold placeCI bootCI
  simp only [h1, h2, or_self, false_and, if_false]
  cases npQuantile (elementsAlong boot ax n c) alphas <;> rfl

private theorem basic_place (N : NormalFns K) {boot hat : Arr K} {jack : Option (Arr K)} {alphas : List K}
    {method : String} {ax n m : ℕ} {c : List ℕ} (h2 : method.toLower = "basic") :
    placeCI N boot (some hat) jack alphas method ax n m c =
      (npQuantile (elementsAlong boot ax n c) alphas).map
        (fun ci => some (ci.reverse.map (fun x => 2 * estimateAt hat ax c - x))) := by
  unfold placeCI bootCI
  simp only [h2]
  cases npQuantile (elementsAlong boot ax n c) alphas <;> rfl

private theorem basic_array (N : NormalFns K) {boot hat : Arr K} {jack : Option (Arr K)} {pre post : List ℕ}
    {n m : ℕ} {alphas : List K} {axis : ℤ} {method : String} (hm : method.toLower = "basic")
    (hp : SamePlaces boot (some hat) jack axis pre n m post) :
    ∃ s : Arr K, (∀ c, InShape c (pre ++ post) → ∀ j, s.get (at_ (j :: c)) = estimateAt hat pre.length c) ∧
      bootCINd N boot (some hat) jack alphas method axis =
        (quantileNd boot alphas pre.length).map (fun ci => ⟨ci.shape, fun i =>
          some (2 * s.get i - ci.get (insertAt 0 (ci.shape.getD 0 0 - 1 - i 0) (dropAt 0 i)))⟩) := by
  have hr := hp.inRange
  have hw := hp.position
  rw [hp.replicates] at hr hw
  obtain ⟨h', b, sq, s, e1, -, -, e4, e5, e6, e7⟩ :=
    hat_ready (hat := hat) n alphas.length (hp.estimates hat rfl) hr hw
  have hbn : npNormalize axis (pre ++ n :: post).length = .ok pre.length :=
    (npNormalize_int _ _ _).2 ⟨hr, hw.symm⟩
  refine ⟨s, e7, ?_⟩
  have hne : ¬ method.toLower = "bca" := by rw [hm]; decide
  unfold bootCINd
  simp only [if_neg hne, if_pos hm]
  rw [hp.replicates, e1]
  simp only [Except.bind]
  rw [hbn]
  simp only
  cases hq : quantileNd boot alphas pre.length with
  | error e => rfl
  | ok ci =>
    have hs := (quantileNd_ok hp.replicates hq).1
    simp only
    unfold reflectNd
    rw [e4]
    simp only [Except.bind]
    rw [e5]
    simp only
    rw [hs, e6]
    simp [Except.map, hs]

private theorem plain_array (N : NormalFns K) {boot : Arr K} {hat jack : Option (Arr K)} {pre post : List ℕ}
    {n m : ℕ} {alphas : List K} {axis : ℤ} {method : String} (h1 : method.toLower ≠ "bca")
    (h2 : method.toLower ≠ "basic") (hp : SamePlaces boot hat jack axis pre n m post) :
    bootCINd N boot hat jack alphas method axis =
      (quantileNd boot alphas pre.length).map (fun ci => ⟨ci.shape, fun i => some (ci.get i)⟩) := by
  unfold bootCINd
  simp only [if_neg h1, if_neg h2]
  rw [(npNormalize_int _ _ _).2 ⟨hp.inRange, hp.position.symm⟩]
  rfl

/-- **C86**: whatever axis the replicates run along and however many other axes there are, the result has
the levels first and the other axes after them in order; at every place it has the interval of the
replicates, the estimate and the leave-one-out estimates at that place. -/
theorem C86_each_place (N : NormalFns K) {boot : Arr K} {hat jack : Option (Arr K)} {pre post : List ℕ}
    {n m : ℕ} {alphas : List K} {axis : ℤ} {method : String} (hL : alphas ≠ [])
    (hp : SamePlaces boot hat jack axis pre n m post) {out : Arr (Option K)}
    (h : bootCINd N boot hat jack alphas method axis = .ok out) :
    out.shape = alphas.length :: (pre ++ post) ∧
    ∀ c, InShape c (pre ++ post) → ∃ r,
      bootCI N (elementsAlong boot pre.length n c) (hat.map (estimateAt · pre.length c))
        (jack.map (elementsAlong · pre.length m c)) alphas method = .ok r ∧
      ∀ j < alphas.length, elementAt out (j :: c) = r.bind (·[j]?) := by
  by_cases h1 : method.toLower = "bca"
  · cases hat with
    | none => unfold bootCINd at h; simp [h1] at h
    | some hat =>
      cases jack with
      | none =>
        unfold bootCINd at h
        simp only [h1, if_true] at h
        cases hh : hatArr hat boot.shape.length axis <;> rw [hh] at h <;> simp [Except.bind] at h
      | some jack =>
        obtain ⟨o, o1, o2, o3⟩ := bca_array N hL h1 hp
        rw [o3] at h
        cases hm : (ndindexes (pre ++ post)).mapM (fun c =>
          placeCI N boot (some hat) (some jack) alphas method pre.length n m c) with
        | error e => rw [hm] at h; simp [Except.map] at h
        | ok rs =>
          rw [hm] at h
          simp only [Except.map, Except.ok.injEq] at h
          subst h
          refine ⟨o1, fun c hc => ?_⟩
          obtain ⟨r, hr⟩ := mapM_py_ok hm c (mem_ndindexes.2 hc)
          exact ⟨r, hr, fun j hj => o2 c hc j hj r hr⟩
  · by_cases h2 : method.toLower = "basic"
    · cases hat with
      | none => unfold bootCINd at h; simp [h2] at h
      | some hat =>
        obtain ⟨s, s1, s2⟩ := basic_array N (alphas := alphas) h2 hp
        rw [s2] at h
        cases hq : quantileNd boot alphas pre.length with
        | error e => rw [hq] at h; simp [Except.map] at h
        | ok ci =>
          rw [hq] at h
          simp only [Except.map, Except.ok.injEq] at h
          subst h
          obtain ⟨q1, q2⟩ := quantileNd_ok hp.replicates hq
          refine ⟨q1, fun c hc => ?_⟩
          obtain ⟨q3, q4⟩ := q2 c (inShape_length hc)
          refine ⟨_, (basic_place N h2).trans (by rw [q3]; rfl), fun j hj => ?_⟩
          rw [elementAt_eq]
          simp only [q1, (place_index j c).1, (place_index j c).2, s1 c hc j]
          have hins : insertAt 0 ((alphas.length :: (pre ++ post)).getD 0 0 - 1 - j) (at_ c) =
              at_ ((alphas.length - 1 - j) :: c) := by
            rw [insertAt_at _ (Nat.zero_le _)]; simp
          rw [hins, q4]
          have hk : alphas.length - 1 - j < alphas.length := by omega
          simp [List.getElem?_reverse, hj, hk, elementAt_eq]
    · rw [plain_array N h1 h2 hp] at h
      cases hq : quantileNd boot alphas pre.length with
      | error e => rw [hq] at h; simp [Except.map] at h
      | ok ci =>
        rw [hq] at h
        simp only [Except.map, Except.ok.injEq] at h
        subst h
        obtain ⟨q1, q2⟩ := quantileNd_ok hp.replicates hq
        refine ⟨q1, fun c hc => ?_⟩
        obtain ⟨q3, q4⟩ := q2 c (inShape_length hc)
        refine ⟨_, (plain_place N h1 h2).trans (by rw [q3]; rfl), fun j hj => ?_⟩
        rw [elementAt_eq]
        simp only [q4]
        simp [hj]

/-- **C86**: and there is a result whenever every place, of which there is at least one, has one. -/
theorem C86_succeeds (N : NormalFns K) {boot : Arr K} {hat jack : Option (Arr K)} {pre post : List ℕ}
    {n m : ℕ} {alphas : List K} {axis : ℤ} {method : String} (hL : alphas ≠ [])
    (hp : SamePlaces boot hat jack axis pre n m post) (hne : ∃ c, InShape c (pre ++ post))
    (h : ∀ c, InShape c (pre ++ post) → ∃ r,
      bootCI N (elementsAlong boot pre.length n c) (hat.map (estimateAt · pre.length c))
        (jack.map (elementsAlong · pre.length m c)) alphas method = .ok r) :
    ∃ out, bootCINd N boot hat jack alphas method axis = .ok out := by
  obtain ⟨c, hc⟩ := hne
  obtain ⟨r, hr⟩ := h c hc
  by_cases h1 : method.toLower = "bca"
  · cases hat with
    | none => unfold bootCI at hr; simp [h1] at hr
    | some hat =>
      cases jack with
      | none => unfold bootCI at hr; simp [h1] at hr
      | some jack =>
        obtain ⟨o, -, -, o3⟩ := bca_array N hL h1 hp
        obtain ⟨rs, hrs⟩ := mapM_py_runs (f := fun c =>
          placeCI N boot (some hat) (some jack) alphas method pre.length n m c)
          (l := ndindexes (pre ++ post)) (fun c hc => h c (mem_ndindexes.1 hc))
        exact ⟨o, by rw [o3, hrs]; rfl⟩
  · by_cases h2 : method.toLower = "basic"
    · cases hat with
      | none => unfold bootCI at hr; simp [h2] at hr
      | some hat =>
        obtain ⟨s, -, s2⟩ := basic_array N (alphas := alphas) h2 hp
        have hr' := (basic_place N (m := m) (jack := jack) h2).symm.trans hr
        cases hq : npQuantile (elementsAlong boot pre.length n c) alphas with
        | error e => rw [hq] at hr'; simp [Except.map] at hr'
        | ok q =>
          obtain ⟨ci, hci⟩ := quantileNd_runs hp.replicates hq
          exact ⟨_, by rw [s2, hci]; rfl⟩
    · have hr' := (plain_place N (m := m) (hat := hat) (jack := jack) h1 h2).symm.trans hr
      cases hq : npQuantile (elementsAlong boot pre.length n c) alphas with
      | error e => rw [hq] at hr'; simp [Except.map] at hr'
      | ok q =>
        obtain ⟨ci, hci⟩ := quantileNd_runs hp.replicates hq
        exact ⟨_, by rw [plain_array N h1 h2 hp, hci]; rfl⟩

/-- **C86**: the interval at a place depends on nothing but what is at that place. Other places may hold
other numbers, and the replicates may run along another axis. -/
theorem C86_alone (N : NormalFns K) {boot boot' : Arr K} {hat hat' jack jack' : Option (Arr K)}
    {pre post pre' post' : List ℕ} {n m m' : ℕ} {alphas : List K} {axis axis' : ℤ} {method : String}
    (hL : alphas ≠ []) (hp : SamePlaces boot hat jack axis pre n m post)
    (hp' : SamePlaces boot' hat' jack' axis' pre' n m' post') {out out' : Arr (Option K)}
    (h : bootCINd N boot hat jack alphas method axis = .ok out)
    (h' : bootCINd N boot' hat' jack' alphas method axis' = .ok out') {c c' : List ℕ}
    (hc : InShape c (pre ++ post)) (hc' : InShape c' (pre' ++ post'))
    (hb : elementsAlong boot' pre'.length n c' = elementsAlong boot pre.length n c)
    (hh : hat'.map (estimateAt · pre'.length c') = hat.map (estimateAt · pre.length c))
    (hj : jack'.map (elementsAlong · pre'.length m' c') = jack.map (elementsAlong · pre.length m c))
    {j : ℕ} (hjL : j < alphas.length) : elementAt out' (j :: c') = elementAt out (j :: c) := by
  obtain ⟨-, k⟩ := C86_each_place N hL hp h
  obtain ⟨-, k'⟩ := C86_each_place N hL hp' h'
  obtain ⟨r, r1, r2⟩ := k c hc
  obtain ⟨r', r1', r2'⟩ := k' c' hc'
  rw [hb, hh, hj, r1, Except.ok.injEq] at r1'
  rw [r2 j hjL, r2' j hjL, r1']

/-- **C86**: a single number as estimate gets two axes only, whatever the replicates have. So for three axes
or more it is refused when the replicates run along axis 2 or later. -/
theorem C86_number_as_estimate (N : NormalFns K) {boot hat : Arr K} {jack : Option (Arr K)} {alphas : List K}
    {axis : ℤ} {method : String} (hh : hat.shape = []) (hb : 3 ≤ boot.shape.length) (ha : 2 ≤ axis)
    (hm : method.toLower = "basic" ∨ method.toLower = "bca") :
    bootCINd N boot (some hat) jack alphas method axis = .error .axisError := by
  have h : hatArr hat boot.shape.length axis = .error .axisError := by
    unfold hatArr
    simp only [hh, if_true, List.length_singleton]
    rw [if_pos (by omega), (npNormalize_error _ _ _).2 ⟨rfl, by push_cast; omega⟩]
    rfl
  unfold bootCINd
  rcases hm with hm | hm <;> simp only [hm, h] <;> rfl

section Quantiles

variable {K : Type*} [Field K] [LinearOrder K] [IsStrictOrderedRing K] [FloorRing K]

private theorem places_ne {boot : Arr K} {n : ℕ} (hn : n ≠ 0) (ax : ℕ) (c : List ℕ) :
    elementsAlong boot ax n c ≠ [] := by
  simp [elementsAlong, hn]

theorem forall₂_entry {α β : Type*} {R : α → β → Prop} {l : List α} {l' : List β}
    (h : List.Forall₂ R l l') {j : ℕ} {x : α} (hx : l[j]? = some x) : ∃ y, l'[j]? = some y ∧ R x y := by
  induction h generalizing j with
  | nil => simp at hx
  | cons h1 _ ih =>
    cases j with
    | zero => simp at hx; subst hx; exact ⟨_, by simp, h1⟩
    | succ j => simpa using ih (by simpa using hx)

/-- **C86**: percentile intervals of an array of replicates: with levels in `[0, 1]` there is always a
result, and at every place entry `j` is the quantile at level `j` of the replicates there. -/
theorem C86_percentile (N : NormalFns K) {boot : Arr K} {hat jack : Option (Arr K)} {pre post : List ℕ}
    {n m : ℕ} {alphas : List K} {axis : ℤ} {method : String} (hL : alphas ≠ []) (hq : Levels alphas)
    (hp : SamePlaces boot hat jack axis pre n m post) (hn : n ≠ 0)
    (hne : ∃ c, InShape c (pre ++ post)) (h1 : method.toLower ≠ "basic") (h2 : method.toLower ≠ "bca") :
    ∃ out, bootCINd N boot hat jack alphas method axis = .ok out ∧
      out.shape = alphas.length :: (pre ++ post) ∧
      ∀ c, InShape c (pre ++ post) → ∀ j q, alphas[j]? = some q →
        ∃ v, elementAt out (j :: c) = some v ∧ IsQuantile (elementsAlong boot pre.length n c) q v := by
  have key := fun c => C45_percentile N (elementsAlong boot pre.length n c) (places_ne hn _ c)
    (hat.map (estimateAt · pre.length c)) (jack.map (elementsAlong · pre.length m c)) alphas hq method h1 h2
  obtain ⟨out, hout⟩ := C86_succeeds N hL hp hne (fun c _ => by
    obtain ⟨ci, hci, -⟩ := key c
    exact ⟨_, hci⟩)
  obtain ⟨k1, k2⟩ := C86_each_place N hL hp hout
  refine ⟨out, hout, k1, fun c hc j q hjq => ?_⟩
  obtain ⟨r, r1, r2⟩ := k2 c hc
  obtain ⟨ci, hci, hf⟩ := key c
  rw [r1, Except.ok.injEq] at hci
  subst hci
  obtain ⟨v, hv, hv'⟩ := forall₂_entry hf hjq
  exact ⟨v, by rw [r2 j (List.getElem?_eq_some_iff.1 hjq).1]; simpa using hv, hv'⟩

/-- **C86**: basic intervals of an array of replicates: at every place, entry `j` is the reflection, about
the estimate there, of the quantile of the replicates there at level `j` counted from the end. -/
theorem C86_basic (N : NormalFns K) {boot hat : Arr K} {jack : Option (Arr K)} {pre post : List ℕ}
    {n m : ℕ} {alphas : List K} {axis : ℤ} {method : String} (hL : alphas ≠ []) (hq : Levels alphas)
    (hp : SamePlaces boot (some hat) jack axis pre n m post) (hn : n ≠ 0)
    (hne : ∃ c, InShape c (pre ++ post)) (h1 : method.toLower = "basic") :
    ∃ out, bootCINd N boot (some hat) jack alphas method axis = .ok out ∧
      out.shape = alphas.length :: (pre ++ post) ∧
      ∀ c, InShape c (pre ++ post) → ∀ j q, alphas.reverse[j]? = some q →
        ∃ v, elementAt out (j :: c) = some v ∧
          IsQuantile (elementsAlong boot pre.length n c) q (2 * estimateAt hat pre.length c - v) := by
  have key := fun c => C45_basic_levels N (elementsAlong boot pre.length n c) (places_ne hn _ c)
    (estimateAt hat pre.length c) (jack.map (elementsAlong · pre.length m c)) alphas hq method h1
  obtain ⟨out, hout⟩ := C86_succeeds N hL hp hne (fun c _ => by
    obtain ⟨ci, hci, -⟩ := key c
    exact ⟨_, hci⟩)
  obtain ⟨k1, k2⟩ := C86_each_place N hL hp hout
  refine ⟨out, hout, k1, fun c hc j q hjq => ?_⟩
  obtain ⟨r, r1, r2⟩ := k2 c hc
  obtain ⟨ci, hci, hf⟩ := key c
  have hr : r = some ci := by
    have := r1.symm.trans hci
    simpa using this
  subst hr
  obtain ⟨v, hv, hv'⟩ := forall₂_entry hf hjq
  have hj := (List.getElem?_eq_some_iff.1 hjq).1
  exact ⟨v, by rw [r2 j (by simpa using hj)]; simpa using hv, hv'⟩

/-- **C86**: `bca` intervals of an array: at every place where nothing infinite or undefined occurs, the
entries are quantiles of the replicates there, at the levels adjusted by that place's own bias and
skewness. -/
theorem C86_bca (N : NormalFns K) (hN : ∀ x, 0 ≤ N.ndtr x ∧ N.ndtr x ≤ 1) {boot hat jack : Arr K}
    {pre post : List ℕ} {n m : ℕ} {alphas : List K} {axis : ℤ} {method : String} (hL : alphas ≠ [])
    (hp : SamePlaces boot (some hat) (some jack) axis pre n m post) (hn : n ≠ 0)
    (h1 : method.toLower = "bca") {out : Arr (Option K)}
    (h : bootCINd N boot (some hat) (some jack) alphas method axis = .ok out) {c : List ℕ}
    (hc : InShape c (pre ++ post)) {j : ℕ} {v q : K} (hq : alphas[j]? = some q)
    (hv : elementAt out (j :: c) = some v) :
    ∃ a z0 z, computeA N (elementsAlong jack pre.length m c) = some a ∧
      N.ndtri (percentileOfScore (elementsAlong boot pre.length n c) (estimateAt hat pre.length c)) = some z0 ∧
      N.ndtri q = some z ∧ 1 - a * (z0 + z) ≠ 0 ∧
      IsQuantile (elementsAlong boot pre.length n c)
        (N.ndtr (z0 + (z0 + z) / (1 - a * (z0 + z)))) v := by
  obtain ⟨-, k2⟩ := C86_each_place N hL hp h
  obtain ⟨r, r1, r2⟩ := k2 c hc
  have hj := (List.getElem?_eq_some_iff.1 hq).1
  rw [r2 j hj] at hv
  cases r with
  | none => simp at hv
  | some ci =>
    obtain ⟨a, z0, ha, hz, hf, -⟩ := C45_bca N hN (elementsAlong boot pre.length n c) (places_ne hn _ c)
      (estimateAt hat pre.length c) (elementsAlong jack pre.length m c) alphas method h1 ci r1
    obtain ⟨y, hy, z, q1, q2, q3⟩ := forall₂_entry hf hq
    have : y = v := by
      have : ci[j]? = some v := by simpa using hv
      rw [hy] at this
      exact Option.some.inj this
    subst this
    exact ⟨a, z0, z, ha, hz, q1, q2, q3⟩

theorem mapM_some_mem {α β : Type*} {f : α → Option β} {l : List α} {r : List β}
    (h : l.mapM f = some r) : ∀ y ∈ r, ∃ x ∈ l, f x = some y := by
  induction l generalizing r with
  | nil => simp at h; subst h; simp
  | cons a l ih =>
    rw [List.mapM_cons] at h
    cases ha : f a with
    | none => rw [ha] at h; simp at h
    | some b =>
      cases hl : l.mapM f with
      | none => rw [ha, hl] at h; simp at h
      | some bs =>
        rw [ha, hl] at h
        simp at h
        subst h
        intro y hy
        rcases List.mem_cons.1 hy with rfl | hy
        · exact ⟨a, by simp, ha⟩
        · obtain ⟨x, hx, hxy⟩ := ih hl y hy
          exact ⟨x, by simp [hx], hxy⟩

/-- **C86**: `bca` gives a result for every array of replicates, whatever the levels; places where an
infinite or undefined number occurs do not stop the others. -/
theorem C86_bca_succeeds (N : NormalFns K) (hN : ∀ x, 0 ≤ N.ndtr x ∧ N.ndtr x ≤ 1) {boot hat jack : Arr K}
    {pre post : List ℕ} {n m : ℕ} {alphas : List K} {axis : ℤ} {method : String} (hL : alphas ≠ [])
    (hp : SamePlaces boot (some hat) (some jack) axis pre n m post) (hn : n ≠ 0)
    (hne : ∃ c, InShape c (pre ++ post)) (h1 : method.toLower = "bca") :
    ∃ out, bootCINd N boot (some hat) (some jack) alphas method axis = .ok out := by
  refine C86_succeeds N hL hp hne fun c _ => ?_
  simp only [bootCI, h1, Option.map_some, reduceCtorEq, and_false, if_false, if_true]
  cases computeA N (elementsAlong jack pre.length m c) with
  | none => exact ⟨_, rfl⟩
  | some a =>
    cases computeZ0 N (estimateAt hat pre.length c) (elementsAlong boot pre.length n c) with
    | none => exact ⟨_, rfl⟩
    | some z0 =>
      simp only
      cases hm : alphas.mapM (bcaLevel N a z0) with
      | none => exact ⟨_, rfl⟩
      | some avals =>
        have hl : Levels avals := by
          intro y hy
          obtain ⟨x, -, hx⟩ := mapM_some_mem hm y hy
          unfold bcaLevel at hx
          cases hz : N.ndtri x with
          | none => rw [hz] at hx; simp at hx
          | some z =>
            rw [hz] at hx
            simp only [Option.bind_eq_bind, Option.bind_some] at hx
            split at hx
            · simp at hx
            · rw [← Option.some.inj hx]; exact hN _
        simp only
        rw [npQuantile_ok (places_ne hn _ c) hl]
        exact ⟨_, rfl⟩

end Quantiles

/-! Example: two places, three replicates each, along the second axis. -/

private def exBoot : Arr ℚ := ⟨[2, 3], fun i => (10 * i 0 + i 1 + 1 : ℕ)⟩
private def exHat : Arr ℚ := ⟨[2], fun i => (10 * i 0 + 3 : ℕ)⟩
private def exJack : Arr ℚ := ⟨[2, 4], fun i => (i 0 + i 1 : ℕ)⟩
private def exFns : NormalFns ℚ := ⟨fun _ => 1 / 2, some, fun x => x⟩

private theorem ex_places : SamePlaces exBoot (some exHat) (some exJack) (-1) [2] 3 4 [] where
  replicates := rfl
  inRange := by unfold InRange; decide
  position := by decide
  estimates := by rintro h ⟨⟩; exact .inl rfl
  leftOut := by rintro h ⟨⟩; rfl

/-- The same with an estimate that keeps the axis. -/
example : SamePlaces exBoot (some ⟨[2, 1], fun i => (10 * i 0 + 3 : ℕ)⟩) (some exJack) 1 [2] 3 4 [] where
  replicates := rfl
  inRange := by unfold InRange; decide
  position := by decide
  estimates := by rintro h ⟨⟩; exact .inr rfl
  leftOut := by rintro h ⟨⟩; rfl

private theorem ex_place : InShape [1] ([2] ++ []) := .cons (by decide) .nil

private theorem ex_levels : Levels ([1 / 4, 3 / 4] : List ℚ) := by
  intro q h; simp at h; rcases h with rfl | rfl <;> norm_num

private theorem ex_low : "Basic".toLower = "basic" := by decide +kernel

private theorem ex_bca_low : "BCa".toLower = "bca" := by decide +kernel

/-- At the second place the replicates are 11, 12, 13 and the estimate is 13. -/
example : ∃ out v, bootCINd exFns exBoot (some exHat) (some exJack) [1 / 4, 3 / 4] "Basic" (-1) = .ok out ∧
    out.shape = [2, 2] ∧ elementAt out [1, 1] = some v ∧ IsQuantile [11, 12, 13] (1 / 4) (2 * 13 - v) := by
  obtain ⟨out, h1, h2, h3⟩ := C86_basic exFns (by simp) ex_levels ex_places (by decide) ⟨_, ex_place⟩ ex_low
  obtain ⟨v, hv, hq⟩ := h3 [1] ex_place 1 (1 / 4) (by simp)
  have e : elementsAlong exBoot [2].length 3 [1] = [11, 12, 13] := by decide +kernel
  have e' : estimateAt exHat [2].length [1] = 13 := by decide +kernel
  rw [e, e'] at hq
  exact ⟨out, v, h1, h2, hv, hq⟩

example := C86_percentile exFns (method := "percentile") (by simp) ex_levels ex_places (by decide)
  ⟨_, ex_place⟩ (by decide +kernel) (by decide +kernel)

/-- At the second place of this run the bias is `5/6`, there is no skewness, and the level is `1/2`. -/
example : ∃ out v, bootCINd exFns exBoot (some exHat) (some exJack) [1 / 4, 3 / 4] "BCa" (-1) = .ok out ∧
    elementAt out [0, 1] = some v ∧ IsQuantile [11, 12, 13] (1 / 2) v := by
  have hN : ∀ x, 0 ≤ exFns.ndtr x ∧ exFns.ndtr x ≤ 1 := by intro x; simp only [exFns]; norm_num
  obtain ⟨out, hout⟩ := C86_bca_succeeds exFns hN (alphas := [1 / 4, 3 / 4]) (by simp) ex_places (by decide)
    ⟨_, ex_place⟩ ex_bca_low
  obtain ⟨-, k2⟩ := C86_each_place exFns (by simp) ex_places hout
  obtain ⟨r, r1, r2⟩ := k2 [1] ex_place
  have e : elementsAlong exBoot [2].length 3 [1] = [11, 12, 13] := by decide +kernel
  have e' : (some exHat).map (estimateAt · [2].length [1]) = some 13 := by decide +kernel
  have e'' : (some exJack).map (elementsAlong · [2].length 4 [1]) = some [1, 2, 3, 4] := by decide +kernel
  have ha : computeA exFns [1, 2, 3, 4] = some 0 := by norm_num [computeA, exFns]
  have hz : computeZ0 exFns 13 [11, 12, 13] = some (5 / 6) := by
    norm_num [computeZ0, exFns, percentileOfScore, List.filter]
  have hm : ([1 / 4, 3 / 4] : List ℚ).mapM (bcaLevel exFns 0 (5 / 6)) = some [1 / 2, 1 / 2] := by
    norm_num [bcaLevel, exFns]
  have hl : Levels ([1 / 2, 1 / 2] : List ℚ) := by
    intro q h; simp at h; subst h; norm_num
  have hr : r = some [quantile1 [11, 12, 13] (1 / 2), quantile1 [11, 12, 13] (1 / 2)] := by
    rw [e, e', e''] at r1
    simp only [bootCI, ex_bca_low, ha, hz, hm, npQuantile_ok (List.cons_ne_nil _ _) hl] at r1
    have := Except.ok.inj r1
    exact this.symm
  have hv : elementAt out [0, 1] = some (quantile1 [11, 12, 13] (1 / 2)) := by
    rw [r2 0 (by simp), hr]; rfl
  obtain ⟨a, z0, z, -, -, -, -, h⟩ := C86_bca exFns hN (by simp) ex_places (by decide) ex_bca_low hout ex_place
    (j := 0) (q := 1 / 4) (by simp) hv
  rw [e] at h
  exact ⟨out, _, hout, hv, h⟩

example := C86_number_as_estimate exFns (boot := ⟨[2, 4, 3], fun _ => 1⟩) (hat := ⟨[], fun _ => 5⟩)
  (jack := none) (alphas := [1 / 4, 3 / 4]) (axis := 2) (method := "Basic") rfl (by decide) (by decide)
  (.inl ex_low)

end Cmomy
