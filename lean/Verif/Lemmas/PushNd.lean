import Verif.Spec.PushNd
import Verif.Lemmas.ValsAccept

/-!
# Pushing onto an array object: the gufunc and the four methods
-/

namespace Cmomy.Nd

open Axes Spec

section Into

variable {K V M : Type*} [Field K] [DecidableEq K]

set_option linter.unusedSectionVars false

theorem lastAxes_ok {n m : ℕ} (h : m ≤ n) : lastAxes n m = .ok (tailAxes n m) := by
  unfold lastAxes
  rw [if_neg (by omega)]
  rfl

theorem lastAxes_error {n m : ℕ} (h : n < m) : lastAxes n m = .error .valueError := by
  unfold lastAxes
  rw [if_pos h]

theorem loopAxes_tail {n m : ℕ} (h : m ≤ n) : loopAxes n (tailAxes n m) = List.range (n - m) := by
  rw [loopAxes_eq]
  exact keptAxes_tail h

theorem keptAxes_nil (n : ℕ) : keptAxes n [] = List.range n := by
  unfold keptAxes
  simp

theorem map_getD_take {L : Type*} (s : List L) (d : L) {k : ℕ} (h : k ≤ s.length) :
    (List.range k).map (fun a => s.getD a d) = s.take k := by
  refine List.ext_getElem (by simp [h]) fun p h1 h2 => ?_
  have : p < s.length := by simp at h2; omega
  simp [List.getElem?_eq_getElem this]

theorem map_getD_drop {L : Type*} (s : List L) (d : L) {m : ℕ} (h : m ≤ s.length) :
    (tailAxes s.length m).map (fun a => s.getD a d) = s.drop (s.length - m) := by
  refine List.ext_getElem (by simp [tailAxes]; omega) fun p h1 h2 => ?_
  have : p < m := by simpa [tailAxes] using h1
  simp [tailAxes, List.getElem?_eq_getElem (show s.length - m + p < s.length by omega)]

theorem loopShape_tail {L : Type*} (a : Arr L) {m : ℕ} (h : m ≤ a.shape.length) :
    a.loopShape (tailAxes a.shape.length m) = a.shape.take (a.shape.length - m) := by
  unfold Arr.loopShape
  rw [loopAxes_tail h, map_getD_take _ _ (by omega)]

theorem loopShape_nil {L : Type*} (a : Arr L) : a.loopShape [] = a.shape := by
  unfold Arr.loopShape
  rw [loopAxes_eq, keptAxes_nil, map_getD_take _ _ le_rfl, List.take_length]

theorem along_range_congr {N : ℕ} {i j : ℕ → ℕ} (h : ∀ p < N, i p = j p) :
    along (List.range N) i = along (List.range N) j := by
  funext p
  by_cases hp : p < N
  · rw [along_range _ hp, along_range _ hp, h p hp]
  · unfold along
    rw [List.getElem?_eq_none (by simpa using hp)]
    rfl

theorem mem_tailAxes {n m p : ℕ} (h : m ≤ n) : p ∈ tailAxes n m ↔ n - m ≤ p ∧ p < n := by
  unfold tailAxes
  rw [List.mem_map]
  constructor
  · rintro ⟨j, hj, rfl⟩
    have := List.mem_range.1 hj
    omega
  · rintro ⟨h1, h2⟩
    exact ⟨p - (n - m), List.mem_range.2 (by omega), by omega⟩

/-- What the gufunc reads of the object. -/
theorem obj_read {core : Core K M} {obj : Arr (Option K)} (hp : obj.Proper)
    (hn : core.nd ≤ obj.shape.length) {i : ℕ → ℕ} (hi : InObject core obj i) (ms : List ℕ) :
    obj.read (tailAxes obj.shape.length core.nd) (valRank core obj)
        (along (List.range (valRank core obj)) i) ms
      = obj.get (fun p => if p < valRank core obj then i p
          else ms.getD (p - valRank core obj) 0) := by
  unfold Arr.read
  have hN : valRank core obj = obj.shape.length - core.nd := rfl
  refine hp _ _ fun p hp' => ?_
  rw [loopAxes_tail hn]
  by_cases h : p < valRank core obj
  · rw [if_neg (by rw [mem_tailAxes hn]; omega), if_pos h]
    split_ifs with h1
    · have := hi p h
      unfold axisSize at this
      omega
    · rw [idxOf_range h, List.length_range]
      rw [along_range _ (by omega)]
      congr 1; omega
  · rw [if_pos ((mem_tailAxes hn).2 ⟨by omega, hp'⟩), if_neg h]
    congr 1
    exact idxOf_shift hn (by omega) hp'

theorem cellAt_eq {core : Core K M} (hc : core.Ok) {obj : Arr (Option K)} (hp : obj.Proper)
    (hn : core.nd ≤ obj.shape.length) {i : ℕ → ℕ} (hi : InObject core obj i) :
    recordOpt core (obj.read (tailAxes obj.shape.length core.nd) (valRank core obj)
      (along (List.range (valRank core obj)) i)) = cellAt core obj i := by
  unfold recordOpt cellAt
  simp only [obj_read hp hn hi]
  split <;> rename_i h <;> rw [h] <;> simp

theorem pushInto_ok {core : Core K M} (hc : core.Ok) {obj : Arr (Option K)} (hp : obj.Proper)
    (hn : core.nd ≤ obj.shape.length) {want : Option (List ℕ)}
    (hw : ∀ s ∈ want, s = momShape core obj) {extra : List (List ℕ)}
    (he : ∀ t ∈ extra, FitsInto t (valShape core obj))
    (f : List ℕ → ℕ → (ℕ → ℕ) → M → Option M) :
    ∃ obj', pushInto core obj want extra f = .ok obj' ∧
      Updated core obj obj' (fun i r => f (momShape core obj) (valRank core obj)
        (along (List.range (valRank core obj)) i) r) := by
  have hN : valRank core obj = obj.shape.length - core.nd := rfl
  have hlen : (valShape core obj).length = valRank core obj := by
    rw [List.length_take]; omega
  have hsz : (tailAxes obj.shape.length core.nd).map (fun a => obj.shape.getD a 0)
      = momShape core obj := map_getD_drop _ _ hn
  have hwant : want.getD (momShape core obj) = momShape core obj := by
    cases want with
    | none => rfl
    | some s => exact hw s rfl
  refine ⟨⟨obj.shape, fun i => ((recordOpt core (obj.read (tailAxes obj.shape.length core.nd)
      (valRank core obj) (along (List.range (valRank core obj)) i))).bind
      (f (momShape core obj) (valRank core obj) (along (List.range (valRank core obj)) i))).map
        (fun r => core.ent r ((tailAxes obj.shape.length core.nd).map i))⟩, ?_, ?_, rfl, ?_, ?_⟩
  · unfold pushInto
    rw [lastAxes_ok hn]
    simp only [Except.bind]
    rw [hsz, if_neg (by simpa using hwant), loopShape_tail _ hn,
      broadcastShapes_cons (s := valShape core obj) he]
    simp only
    rw [if_neg (by simp)]
    simp only [hlen, loopAxes_tail hn]
    rfl
  · intro i j hij
    simp only
    rw [along_range_congr (fun p hp => hij p (by simp only; omega))]
    congr 1
    funext r
    congr 1
    refine List.map_congr_left fun p hp => hij p ?_
    exact ((mem_tailAxes hn).1 hp).2
  · intro i hi
    rw [← cellAt_eq hc hp hn hi]
    conv_lhs => unfold cellAt
    simp only
    have e1 : ∀ ms : List ℕ, along (List.range (valRank core obj)) (fun p => if p < valRank core obj then i p
        else ms.getD (p - valRank core obj) 0) = along (List.range (valRank core obj)) i := by
      intro ms
      refine along_range_congr fun p hp => ?_
      rw [if_pos hp]
    have e2 : ∀ ms : List ℕ, ms.length = core.nd → (tailAxes obj.shape.length core.nd).map
        (fun p => if p < valRank core obj then i p
        else ms.getD (p - valRank core obj) 0) = ms := by
      intro ms hm
      refine List.ext_getElem (by simp [tailAxes, hm]) fun q h1 h2 => ?_
      simp only [tailAxes, List.map_map, List.getElem_map, List.getElem_range, Function.comp]
      rw [if_neg (show ¬ obj.shape.length - core.nd + q < valRank core obj by omega),
        show obj.shape.length - core.nd + q - valRank core obj = q by omega,
        List.getD_eq_getElem _ _ h2]
    simp only [e1]
    cases hX : (recordOpt core (obj.read (tailAxes obj.shape.length core.nd)
      (valRank core obj) (along (List.range (valRank core obj)) i))).bind
      (f (momShape core obj) (valRank core obj) (along (List.range (valRank core obj)) i)) with
    | none => simp
    | some r =>
      simp only [Option.map_some, Option.isSome_some, if_true, Option.getD_some]
      congr 1
      conv_rhs => rw [← hc.recd_ent r]
      exact hc.recd_congr _ _ fun ms hl => by rw [e2 ms hl]
  · intro i hi
    rw [← cellAt_eq hc hp hn hi]
    simp only
    congr 1
    funext r
    congr 1
    unfold tailAxes momCoords
    rw [List.map_map]
    rfl

/-- A push succeeds only when every operand fits. -/
theorem pushInto_inv {core : Core K M} {obj obj' : Arr (Option K)} {want : Option (List ℕ)}
    {extra : List (List ℕ)} {f : List ℕ → ℕ → (ℕ → ℕ) → M → Option M}
    (h : pushInto core obj want extra f = .ok obj') :
    core.nd ≤ obj.shape.length ∧ (∀ s ∈ want, s = momShape core obj) ∧
      ∀ t ∈ extra, FitsInto t (valShape core obj) := by
  unfold pushInto at h
  obtain ⟨ocs, h1, h2⟩ := Except_bind_ok h
  have hn : core.nd ≤ obj.shape.length := by
    by_contra hc
    rw [lastAxes_error (by omega)] at h1
    cases h1
  rw [lastAxes_ok hn] at h1
  cases h1
  have hsz : (tailAxes obj.shape.length core.nd).map (fun a => obj.shape.getD a 0)
      = momShape core obj := map_getD_drop _ _ hn
  simp only [hsz] at h2
  split_ifs at h2 with hw
  obtain ⟨loop, h3, h4⟩ := Except_bind_ok h2
  rw [loopShape_tail _ hn] at h3 h4
  split_ifs at h4 with hl
  have hl' : loop = valShape core obj := by simpa using hl
  subst hl'
  have hB := broadcastShapes_iff.1 h3
  refine ⟨hn, ?_, fun t ht => ⟨hB.rank t (by simp [ht]), hB.fits t (by simp [ht])⟩⟩
  intro s hs
  obtain rfl := Option.mem_def.1 hs
  simpa using hw

/-- The only errors are `ValueError` and the case left open. -/
theorem pushInto_error {core : Core K M} {obj : Arr (Option K)} {want : Option (List ℕ)}
    {extra : List (List ℕ)} {f : List ℕ → ℕ → (ℕ → ℕ) → M → Option M} {e : PyErr}
    (h : pushInto core obj want extra f = .error e) : e = .valueError ∨ e = .undefined := by
  unfold pushInto lastAxes at h
  split_ifs at h with h1
  · simp only [Except.bind] at h
    cases h; exact .inl rfl
  · simp only [Except.bind] at h
    split_ifs at h
    · cases h; exact .inl rfl
    · split at h
      · rename_i e' he
        cases h
        exact .inl (broadcastShapes_error he)
      · split_ifs at h
        cases h
        unfold widenError
        split_ifs
        · exact .inr rfl
        · exact .inl rfl

end Into

section Methods

variable {K V M : Type*} [Field K] [DecidableEq K]

set_option linter.unusedSectionVars false

theorem read_number (a : Arr K) (N : ℕ) (i : ℕ → ℕ) :
    a.read [] N (along (List.range N) i) [] = numberAt a N i := by
  have := read_matched a [] (List.range N) i []
  rwa [List.length_range] at this

theorem pushValNd_ok (val : List K → V) {core : Core K M} (hc : core.Ok)
    (fam : List ℕ → Kernel K V M) {obj : Arr (Option K)} (hp : obj.Proper)
    (hn : core.nd ≤ obj.shape.length) {x w : Arr K} {ys : List (Arr K)}
    (hy : ys.length + 1 = core.nd) (hf : ∀ a ∈ x :: w :: ys, FitsInto a.shape (valShape core obj)) :
    ∃ obj', pushValNd val core fam obj x w ys = .ok obj' ∧
      Updated core obj obj' (fun i r => (fam (momShape core obj)).pushVal
        (val ((x :: ys).map (fun a => numberAt a (valRank core obj) i)))
        (numberAt w (valRank core obj) i) r) := by
  unfold pushValNd
  rw [if_neg (by omega)]
  obtain ⟨obj', h1, h2⟩ := pushInto_ok hc hp hn (want := none) (by simp)
    (extra := (x :: w :: ys).map (fun a => a.loopShape [])) (by
      intro t ht
      obtain ⟨a, ha, rfl⟩ := List.mem_map.1 ht
      rw [loopShape_nil]; exact hf a ha)
    (fun sizes L l r => (fam sizes).pushVal (val ((x :: ys).map (fun a => a.read [] L l [])))
      (w.read [] L l []) r)
  refine ⟨obj', h1, ?_⟩
  simpa only [read_number] using h2

theorem pushValNd_inv {val : List K → V} {core : Core K M} (h1 : 1 ≤ core.nd)
    {fam : List ℕ → Kernel K V M} {obj obj' : Arr (Option K)} {x w : Arr K} {ys : List (Arr K)}
    (h : pushValNd val core fam obj x w ys = .ok obj') :
    core.nd ≤ obj.shape.length ∧ ys.length + 1 = core.nd ∧
      ∀ a ∈ x :: w :: ys, FitsInto a.shape (valShape core obj) := by
  unfold pushValNd at h
  split_ifs at h with hy
  obtain ⟨h2, _, h3⟩ := pushInto_inv h
  refine ⟨h2, by omega, fun a ha => ?_⟩
  have := h3 (a.loopShape []) (List.mem_map.2 ⟨a, ha, rfl⟩)
  rwa [loopShape_nil] at this

/-- The first array is usable with itself. -/
theorem usable_self {x : Arr K} {z : ℤ} (hp : x.Proper) (hz : InRange x.shape.length z) :
    Usable x (fromEnd x z) (sampleCount x z) := by
  obtain ⟨h1, h2, h3⟩ := fromEnd_facts hz
  refine ⟨hp, .inr ?_⟩
  unfold sampleCount
  rw [h3]
  by_cases h : x.shape.length = 1
  · exact .inl ⟨h, by rw [show x.shape.length - fromEnd x z = 0 by omega]⟩
  · exact .inr ⟨by omega, h2, rfl⟩

/-- Preparation with the samples moved to the last axis. -/
def prepLast (d n : ℕ) (a : Arr K) : Arr K := prepOne (decide (d ≠ 1)) d n a

theorem prepLast_op {a : Arr K} {d n : ℕ} (h1 : 1 ≤ d) (hu : Usable a d n) :
    1 ≤ (prepLast d n a).shape.length ∧ sampleOperand (prepLast d n a, -1) = .ok (opOf 1 (prepLast d n a)) ∧
      axisSize (prepLast d n a) (opOf 1 (prepLast d n a)).2 = n := by
  have hs := prepOne_sizes (move := decide (d ≠ 1)) h1 hu
  rw [show prepOne (decide (d ≠ 1)) d n a = prepLast d n a from rfl] at hs
  have hd : (if decide (d ≠ 1) = true then 1 else d) = 1 := by
    split_ifs with h
    · rfl
    · simpa using h
  rw [hd] at hs
  have hl : 1 ≤ (prepLast d n a).shape.length := by rcases hs with ⟨h, _⟩ | ⟨h, _⟩ <;> omega
  refine ⟨hl, ?_, ?_⟩
  · unfold sampleOperand opOf
    simp only
    rw [coreAxes_one (by unfold InRange; omega)]
    have := wrap_neg (n := (prepLast d n a).shape.length) (z := -1) (by unfold InRange; omega)
      (by omega)
    simp only [Except.map, List.headD_cons]
    congr 2
    split_ifs <;> omega
  · unfold opOf
    simp only
    rcases hs with ⟨h, e⟩ | ⟨h, _, e⟩
    · rw [if_pos h]; exact e
    · rw [if_neg (by omega)]; exact e

theorem prepLast_count {a : Arr K} {d n : ℕ} (h1 : 1 ≤ d) (hu : Usable a d n) :
    sizeOf (prepLast d n a) (-1) = n := by
  obtain ⟨e1, _, e3⟩ := prepLast_op h1 hu
  rw [sizeOf_eq _ (by unfold InRange; omega)]
  have := wrap_neg (n := (prepLast d n a).shape.length) (z := -1)
    (by unfold InRange; omega) (by omega)
  refine Eq.trans ?_ e3
  unfold opOf
  simp only
  congr 1
  split_ifs <;> omega

theorem prepLast_proper {a : Arr K} {d n : ℕ} (h1 : 1 ≤ d) (hu : Usable a d n) :
    (prepLast d n a).Proper := by
  unfold prepLast prepOne
  split_ifs with h h' h''
  · intro i j _; rfl
  · exact hu.1
  · rcases hu.2 with e | ⟨e, _⟩ | ⟨_, e, _⟩
    · omega
    · omega
    · exact movedArr_proper hu.1 h1 e
  · exact hu.1

theorem prepLast_loop {a : Arr K} {d n : ℕ} (h1 : 1 ≤ d) (hu : Usable a d n) :
    (opOf 1 (prepLast d n a)).1.loopShape [(opOf 1 (prepLast d n a)).2]
      = if a.shape.length ≤ 1 then [] else freeShape a [a.shape.length - d] := by
  obtain ⟨hl, _, _⟩ := prepLast_op h1 hu
  have hlt : (opOf 1 (prepLast d n a)).2 < (prepLast d n a).shape.length := by
    unfold opOf; simp only; split_ifs <;> omega
  rw [loopShape_single]
  by_cases ha : a.shape.length ≤ 1
  · rw [if_pos ha]
    have : (prepLast d n a).shape.length = 1 := by
      unfold prepLast prepOne
      split_ifs
      · rfl
      · assumption
      · omega
      · omega
    apply List.eq_nil_of_length_eq_zero
    rw [List.length_map]
    show (keptAxes (prepLast d n a).shape.length [(opOf 1 (prepLast d n a)).2]).length = 0
    rw [keptAxes_single_length hlt]
    omega
  · rw [if_neg ha]
    have hd : d ≤ a.shape.length := by rcases hu.2 with e | ⟨e, _⟩ | ⟨_, e, _⟩ <;> omega
    unfold freeShape prepLast prepOne opOf
    simp only
    rw [if_neg (show ¬ a.shape.length = 0 by omega), if_neg (show ¬ a.shape.length = 1 by omega)]
    by_cases hd1 : d = 1
    · subst hd1
      simp only [ne_eq, not_true_eq_false, decide_false, Bool.false_eq_true, if_false]
      rw [if_neg (show ¬ a.shape.length = 1 by omega)]
    · simp only [ne_eq, hd1, not_false_eq_true, decide_true, if_true]
      have hm : (movedArr d a).shape.length = a.shape.length := movedShape_length h1 hd
      rw [if_neg (show ¬ (movedArr d a).shape.length = 1 by omega), hm]
      refine List.ext_getElem (by
        rw [List.length_map, List.length_map, keptAxes_single_length (by omega),
          keptAxes_single_length (by omega)]) fun q hq1 hq2 => ?_
      have hq : q < a.shape.length - 1 := by
        rw [List.length_map, keptAxes_single_length (by omega)] at hq1; exact hq1
      rw [List.getElem_map, List.getElem_map, ← List.getD_eq_getElem _ 0, ← List.getD_eq_getElem _ 0,
        keptAxes_single_getD (by omega) hq, keptAxes_single_getD (by omega) hq]
      rw [if_pos (by omega)]
      show (movedShape d a.shape).getD q 0 = a.shape.getD _ 0
      rw [movedShape_getD h1 hd (by omega), if_neg (by omega)]

/-- What the kernel sees of a value or a weight. -/
theorem prepLast_read {a : Arr K} {d n N : ℕ} (h1 : 1 ≤ d) (hu : Usable a d n)
    (hN : 2 ≤ a.shape.length → a.shape.length ≤ N + 1) (hdN : d ≤ N + 1) (i : ℕ → ℕ) (s : ℕ) :
    (opOf 1 (prepLast d n a)).1.read [(opOf 1 (prepLast d n a)).2] N
        (along (List.range N) i) [s]
      = operandAt a (N + 1) (N + 1 - d) (openIdx (N + 1 - d) i) s := by
  obtain ⟨hl, _, hs⟩ := prepLast_op h1 hu
  have hlen : 2 ≤ a.shape.length → (prepLast d n a).shape.length = a.shape.length := by
    intro h2
    have hd : d ≤ a.shape.length := by rcases hu.2 with e | ⟨e, _⟩ | ⟨_, e, _⟩ <;> omega
    unfold prepLast prepOne
    rw [if_neg (by omega), if_neg (by omega)]
    split_ifs
    · exact movedShape_length h1 hd
    · rfl
  have hlen1 : a.shape.length ≤ 1 → (prepLast d n a).shape.length = 1 := by
    intro h
    unfold prepLast prepOne
    split_ifs
    · rfl
    · assumption
    · omega
    · omega
  have hop : IsOp (opOf 1 (prepLast d n a)) (N + 1) N n := by
    refine ⟨prepLast_proper h1 hu, hs, ?_⟩
    show ((prepLast d n a).shape.length = 1 ∧ _) ∨ _
    by_cases h : a.shape.length ≤ 1
    · exact .inl ⟨hlen1 h, by unfold opOf; simp only; rw [if_pos (hlen1 h)]⟩
    · have e := hlen (by omega)
      have := hN (by omega)
      refine .inr ⟨?_, ?_, ?_, ?_⟩
      · show 2 ≤ (prepLast d n a).shape.length; omega
      · show (prepLast d n a).shape.length ≤ _; omega
      · unfold opOf; simp only; split_ifs <;> omega
      · unfold opOf; simp only; split_ifs <;> omega
  set i' : ℕ → ℕ := fun p => openIdx (N + 1 - d) i ((lastOrder (N + 1) (N + 1 - d)).getD p 0)
    with hi'
  have hk : along (List.range N) i = along (keptAxes (N + 1) [N]) i' := by
    have : keptAxes (N + 1) [N] = List.range N := by
      have := keptAxes_tail (n := N + 1) (m := 1) (by omega)
      simpa using this
    rw [this]
    refine along_range_congr fun p hp => ?_
    rw [hi']
    simp only
    rw [lastOrder_getD (by omega) (by omega), if_neg (by omega)]
    unfold openIdx
    split_ifs
    · rfl
    · omega
    · rfl
  rw [hk]
  have hr := hop.read (by omega) i' s
  rw [show N + 1 - 1 = N from rfl] at hr
  rw [hr]
  show operandAt (prepLast d n a) (N + 1) N i' s = _
  unfold prepLast prepOne
  by_cases ha0 : a.shape.length = 0
  · rw [if_pos ha0]; exact operandAt_scalar ha0 _ _ _ _ _ _ _
  · rw [if_neg ha0]
    by_cases ha1 : a.shape.length = 1
    · rw [if_pos ha1]; exact operandAt_one ha1 _ _ _ _ _ _ _
    · rw [if_neg ha1]
      have hd : d ≤ a.shape.length := by rcases hu.2 with e | ⟨e, _⟩ | ⟨_, e, _⟩ <;> omega
      by_cases hd1 : d = 1
      · subst hd1
        simp only [ne_eq, not_true_eq_false, decide_false, Bool.false_eq_true, if_false]
        rw [show N + 1 - 1 = N from rfl]
        refine operandAt_congr hu.1 (hN (by omega)) (fun p hp => ?_) s
        rw [hi']
        simp only
        rw [show N + 1 - 1 = N from rfl]
        have := lastOrder_last (n := N + 1) (by omega)
        rw [show N + 1 - 1 = N from rfl] at this
        rw [this]
        simp [hp]
      · simp only [ne_eq, hd1, not_false_eq_true, decide_true, if_true]
        exact operandAt_moved hu.1 h1 (by omega) hd (hN (by omega)) (fun p _ => rfl) s

theorem sampleOperands_last {as : List (Arr K)} {d n : ℕ} (h1 : 1 ≤ d)
    (hu : ∀ a ∈ as, Usable a d n) :
    sampleOperands ((as.map (prepLast d n)).map (fun a => (a, (-1 : ℤ)))) n
      = .ok (as.map (fun a => opOf 1 (prepLast d n a))) := by
  unfold sampleOperands
  rw [mapM_ok_of_forall _ (fun o => opOf 1 o.1)]
  · simp only [Except.bind, List.map_map]
    rw [if_pos]
    · rfl
    · rw [List.all_eq_true]
      intro o ho
      obtain ⟨a, ha, rfl⟩ := List.mem_map.1 ho
      exact decide_eq_true (prepLast_op h1 (hu a ha)).2.2
  · intro o ho
    rw [List.map_map] at ho
    obtain ⟨a, ha, rfl⟩ := List.mem_map.1 ho
    exact (prepLast_op h1 (hu a ha)).2.1

theorem prepareValues_last {x : Arr K} {others : List (Arr K)} {z : ℤ}
    (hz : InRange x.shape.length z)
    (hu : ∀ a ∈ others, Usable a (fromEnd x z) (sampleCount x z)) :
    prepareValues x others (others.length + 1) (.int z) true
      = .ok (-1, prepLast (fromEnd x z) (sampleCount x z) x,
          others.map (prepLast (fromEnd x z) (sampleCount x z))) := by
  obtain ⟨h1, h2, h3⟩ := fromEnd_facts hz
  rw [prepareValues_eq hz hu true _ rfl]
  simp only [if_true, Bool.true_and]
  unfold prepLast
  rw [prepOne_x (by omega) (by intro h; have : fromEnd x z ≠ 1 := by simpa using h
                               omega)]

theorem freeShape_single_length {a : Arr K} {c : ℕ} (h : c < a.shape.length) :
    (freeShape a [c]).length = a.shape.length - 1 := by
  unfold freeShape
  rw [List.length_map, keptAxes_single_length h]

theorem fitsInto_nil (s : List ℕ) : FitsInto [] s := ⟨by simp, by simp⟩

theorem pushValsNd_ok (val : List K → V) {core : Core K M} (hc : core.Ok)
    (fam : List ℕ → Kernel K V M) {obj : Arr (Option K)} (hp : obj.Proper)
    (hn : core.nd ≤ obj.shape.length) {x w : Arr K} {ys : List (Arr K)} {z : ℤ}
    (hy : ys.length + 1 = core.nd) (g : GoodPush x (w :: ys) z (valShape core obj)) :
    ∃ obj', pushValsNd val core fam obj x w ys (.int z) = .ok obj' ∧
      Updated core obj obj' (fun i r => (fam (momShape core obj)).reduceVals
        (valsSamples val x w ys z (valRank core obj) i) r) := by
  obtain ⟨h1, h2, h3⟩ := fromEnd_facts g.range
  have hN : valRank core obj = obj.shape.length - core.nd := rfl
  have hlen : (valShape core obj).length = valRank core obj := by
    rw [List.length_take]; omega
  have hux := usable_self g.proper g.range
  have hu : ∀ a ∈ x :: w :: ys, Usable a (fromEnd x z) (sampleCount x z) := by
    intro a ha
    rcases List.mem_cons.1 ha with rfl | ha
    · exact hux
    · exact g.usable a ha
  have hf : ∀ a ∈ x :: w :: ys, 2 ≤ a.shape.length →
      FitsInto (freeShape a [a.shape.length - fromEnd x z]) (valShape core obj) := by
    intro a ha h2
    rcases List.mem_cons.1 ha with rfl | ha
    · rw [← h3]; exact g.fits
    · exact g.fitsOthers a ha h2
  have hrank : ∀ a ∈ x :: w :: ys, 2 ≤ a.shape.length →
      a.shape.length ≤ valRank core obj + 1 := by
    intro a ha h2
    have := (hf a ha h2).1
    rw [freeShape_single_length (by omega)] at this
    omega
  have hdN : fromEnd x z ≤ valRank core obj + 1 := by
    have := g.fits.1
    rw [freeShape_single_length (wrap_lt g.range)] at this
    omega
  unfold pushValsNd
  rw [show core.nd + 1 = (w :: ys).length + 1 by simp [hy], prepareValues_last g.range g.usable]
  simp only [Except.bind]
  have hcount := prepLast_count h1 hux
  rw [hcount, ← List.map_cons, sampleOperands_last h1 hu]
  simp only
  obtain ⟨obj', e1, e2⟩ := pushInto_ok hc hp hn (want := none) (by simp)
    (extra := ((x :: w :: ys).map (fun a => opOf 1 (prepLast (fromEnd x z) (sampleCount x z) a))).map
      (fun o => o.1.loopShape [o.2])) (by
      intro t ht
      rw [List.map_map] at ht
      obtain ⟨a, ha, rfl⟩ := List.mem_map.1 ht
      simp only [Function.comp]
      rw [prepLast_loop h1 (hu a ha)]
      split_ifs with h
      · exact fitsInto_nil _
      · exact hf a ha (by omega))
    (fun sizes L l r => (fam sizes).reduceVals (samplesAt val ((x :: w :: ys).map
      (fun a => opOf 1 (prepLast (fromEnd x z) (sampleCount x z) a))) (sampleCount x z) L l) r)
  refine ⟨obj', e1, ?_⟩
  have hsm : ∀ i, samplesAt val ((x :: w :: ys).map
      (fun a => opOf 1 (prepLast (fromEnd x z) (sampleCount x z) a))) (sampleCount x z)
      (valRank core obj) (along (List.range (valRank core obj)) i)
      = valsSamples val x w ys z (valRank core obj) i := by
    intro i
    unfold valsSamples samplesOver
    simp only [List.map_cons, samplesAt]
    refine List.map_congr_left fun s _ => ?_
    have hr : ∀ a ∈ x :: w :: ys, _ := fun a ha =>
      prepLast_read h1 (hu a ha) (hrank a ha) hdN i s
    rw [hr x (by simp), hr w (by simp)]
    congr 3
    rw [List.map_map]
    refine List.map_congr_left fun a ha => ?_
    exact hr a (by simp [ha])
  simpa only [hsm] using e2

theorem pushValsNd_inv {val : List K → V} {core : Core K M}
    {fam : List ℕ → Kernel K V M} {obj obj' : Arr (Option K)} {x w : Arr K} {ys : List (Arr K)}
    {z : ℤ} (hx : x.Proper) (hp : ∀ a ∈ w :: ys, a.Proper)
    (h : pushValsNd val core fam obj x w ys (.int z) = .ok obj') :
    core.nd ≤ obj.shape.length ∧ ys.length + 1 = core.nd ∧
      GoodPush x (w :: ys) z (valShape core obj) := by
  unfold pushValsNd at h
  obtain ⟨p, e1, e2⟩ := Except_bind_ok h
  obtain ⟨hl, hz, hu⟩ := prepareValues_inv hp e1
  rw [← hl, prepareValues_last hz hu] at e1
  obtain rfl := Except.ok.inj e1
  obtain ⟨h1, h2, h3⟩ := fromEnd_facts hz
  obtain ⟨ops, e3, e4⟩ := Except_bind_ok e2
  have hux := usable_self hx hz
  have hu' : ∀ a ∈ x :: w :: ys, Usable a (fromEnd x z) (sampleCount x z) := by
    intro a ha
    rcases List.mem_cons.1 ha with rfl | ha
    · exact hux
    · exact hu a ha
  have hcount := prepLast_count h1 hux
  simp only at e3
  rw [hcount, ← List.map_cons, sampleOperands_last h1 hu'] at e3
  obtain rfl := Except.ok.inj e3
  obtain ⟨f1, _, f2⟩ := pushInto_inv e4
  have hf : ∀ a ∈ x :: w :: ys, 2 ≤ a.shape.length →
      FitsInto (freeShape a [a.shape.length - fromEnd x z]) (valShape core obj) := by
    intro a ha hl2
    have := f2 _ (List.mem_map.2 ⟨_, List.mem_map.2 ⟨a, ha, rfl⟩, rfl⟩)
    rwa [prepLast_loop h1 (hu' a ha), if_neg (by omega)] at this
  refine ⟨f1, by simpa using hl, hx, hz, hu, ?_, fun a ha => hf a (by simp [ha])⟩
  by_cases hl1 : x.shape.length = 1
  · have : freeShape x [wrap x.shape.length z] = [] := by
      apply List.eq_nil_of_length_eq_zero
      rw [freeShape_single_length (wrap_lt hz), hl1]
    rw [this]; exact fitsInto_nil _
  · rw [h3]; exact hf x (by simp) (by omega)

theorem pushDataNd_ok {core : Core K M} (hc : core.Ok)
    (fam : List ℕ → Kernel K V M) {obj : Arr (Option K)} (hp : obj.Proper)
    (hn : core.nd ≤ obj.shape.length) {d : Arr K} (hd : core.nd ≤ d.shape.length)
    (hm : momShape core d = momShape core obj)
    (hf : FitsInto (valShape core d) (valShape core obj)) :
    ∃ obj', pushDataNd core fam obj d none = .ok obj' ∧
      Updated core obj obj' (fun i r => (fam (momShape core obj)).pushData
        (dataRecord core d (valRank core obj) i) r) := by
  unfold pushDataNd
  rw [lastAxes_ok hd]
  simp only [Except.bind]
  obtain ⟨obj', h1, h2⟩ := pushInto_ok hc hp hn
    (want := some ((tailAxes d.shape.length core.nd).map (fun a => d.shape.getD a 0)))
    (by intro s hs
        obtain rfl := Option.some.inj (Option.mem_def.1 hs)
        rw [map_getD_drop _ _ hd]; exact hm)
    (extra := [d.loopShape (tailAxes d.shape.length core.nd)]) (by
      intro t ht
      rw [List.mem_singleton] at ht
      rw [ht, loopShape_tail _ hd]; exact hf)
    (fun sizes L l r => (fam sizes).pushData
      (core.recd (d.read (tailAxes d.shape.length core.nd) L l)) r)
  refine ⟨obj', h1, ?_⟩
  have hr : ∀ i, d.read (tailAxes d.shape.length core.nd) (valRank core obj)
      (along (List.range (valRank core obj)) i)
      = matched d (tailAxes d.shape.length core.nd) (List.range (valRank core obj)) i := by
    intro i; funext c
    have := read_matched d (tailAxes d.shape.length core.nd) (List.range (valRank core obj)) i c
    rwa [List.length_range] at this
  simpa only [hr] using h2

theorem pushDataNd_scale_ok {core : Core K M} (hc : core.Ok)
    (fam : List ℕ → Kernel K V M) {obj : Arr (Option K)} (hp : obj.Proper)
    (hn : core.nd ≤ obj.shape.length) {d c : Arr K} (hd : core.nd ≤ d.shape.length)
    (hm : momShape core d = momShape core obj)
    (hf : FitsInto (valShape core d) (valShape core obj))
    (hfc : FitsInto c.shape (valShape core obj)) :
    ∃ obj', pushDataNd core fam obj d (some c) = .ok obj' ∧
      Updated core obj obj' (fun i r => (fam (momShape core obj)).pushScale
        (dataRecord core d (valRank core obj) i) (numberAt c (valRank core obj) i) r) := by
  unfold pushDataNd
  rw [lastAxes_ok hd]
  simp only [Except.bind]
  obtain ⟨obj', h1, h2⟩ := pushInto_ok hc hp hn
    (want := some ((tailAxes d.shape.length core.nd).map (fun a => d.shape.getD a 0)))
    (by intro s hs
        obtain rfl := Option.some.inj (Option.mem_def.1 hs)
        rw [map_getD_drop _ _ hd]; exact hm)
    (extra := [d.loopShape (tailAxes d.shape.length core.nd), c.loopShape []]) (by
      intro t ht
      rcases List.mem_cons.1 ht with rfl | ht
      · rw [loopShape_tail _ hd]; exact hf
      · rw [List.mem_singleton] at ht
        rw [ht, loopShape_nil]; exact hfc)
    (fun sizes L l r => (fam sizes).pushScale
      (core.recd (d.read (tailAxes d.shape.length core.nd) L l)) (c.read [] L l []) r)
  refine ⟨obj', h1, ?_⟩
  have hr : ∀ i, d.read (tailAxes d.shape.length core.nd) (valRank core obj)
      (along (List.range (valRank core obj)) i)
      = matched d (tailAxes d.shape.length core.nd) (List.range (valRank core obj)) i := by
    intro i; funext c
    have := read_matched d (tailAxes d.shape.length core.nd) (List.range (valRank core obj)) i c
    rwa [List.length_range] at this
  simpa only [hr, read_number] using h2

theorem pushDataNd_inv {core : Core K M} {fam : List ℕ → Kernel K V M}
    {obj obj' : Arr (Option K)} {d : Arr K} {scale : Option (Arr K)}
    (h : pushDataNd core fam obj d scale = .ok obj') :
    core.nd ≤ obj.shape.length ∧ core.nd ≤ d.shape.length ∧
      momShape core d = momShape core obj ∧ FitsInto (valShape core d) (valShape core obj) ∧
      ∀ c ∈ scale, FitsInto c.shape (valShape core obj) := by
  unfold pushDataNd at h
  obtain ⟨cs, e1, e2⟩ := Except_bind_ok h
  have hd : core.nd ≤ d.shape.length := by
    by_contra hc
    rw [lastAxes_error (by omega)] at e1
    cases e1
  rw [lastAxes_ok hd] at e1
  obtain rfl := Except.ok.inj e1
  cases scale with
  | none =>
    obtain ⟨f1, f2, f3⟩ := pushInto_inv e2
    have := f2 _ rfl
    rw [map_getD_drop _ _ hd] at this
    have h3 := f3 _ (List.mem_singleton.2 rfl)
    rw [loopShape_tail _ hd] at h3
    exact ⟨f1, hd, this, h3, by simp⟩
  | some c =>
    obtain ⟨f1, f2, f3⟩ := pushInto_inv e2
    have := f2 _ rfl
    rw [map_getD_drop _ _ hd] at this
    have h3 := f3 (d.loopShape (tailAxes d.shape.length core.nd)) (by simp)
    have h4 := f3 (c.loopShape []) (by simp)
    rw [loopShape_tail _ hd] at h3
    rw [loopShape_nil] at h4
    refine ⟨f1, hd, this, h3, ?_⟩
    intro c' hc'
    obtain rfl := Option.some.inj (Option.mem_def.1 hc')
    exact h4

theorem idxOf_of_map {l l' : List ℕ} {f : ℕ → ℕ} (h : l.map f = l') (hn : l'.Nodup) {p : ℕ}
    (hp : p ∈ l) : l'.idxOf (f p) = l.idxOf p := by
  have hk : l.idxOf p < l.length := List.idxOf_lt_length_iff.2 hp
  have hk' : l.idxOf p < l'.length := by rw [← h, List.length_map]; exact hk
  have e : l'[l.idxOf p] = f p := by
    subst h
    rw [List.getElem_map, List.getElem_idxOf hk]
  rw [← e]
  exact hn.idxOf_getElem _ hk'

/-- Moving axes of an operand does not change what the kernel sees of it. -/
theorem Prepared.read_eq {d b : Arr K} {zp : ℤ} {momp : List ℤ} {ax : ℕ} {mom lay : List ℕ}
    (hd : d.Proper)
    (h : Prepared b zp momp d.shape.length ax mom lay (axisSize d) d.get)
    (hcs : (ax :: mom).Nodup) (L : ℕ) (l : ℕ → ℕ) (c : List ℕ) :
    b.read (lay.idxOf ax :: mom.map lay.idxOf) L l c = d.read (ax :: mom) L l c := by
  have hlay : lay.Nodup := h.perm.nodup_iff.2 List.nodup_range
  have hll : lay.length = d.shape.length := by rw [h.perm.length_eq, List.length_range]
  have hblen : b.shape.length = d.shape.length := h.len
  have hmem : ∀ a ∈ ax :: mom, a ∈ lay := by
    intro a ha
    refine h.perm.mem_iff.2 (List.mem_range.2 ?_)
    rcases List.mem_cons.1 ha with rfl | ha
    · exact h.axn
    · exact h.momn a ha
  have hbs : b.shape = lay.map (axisSize d) := h.shows.1
  rw [← List.map_cons (f := lay.idxOf)]
  have hcore : ((ax :: mom).map lay.idxOf).map (fun p => lay.getD p 0) = ax :: mom := by
    rw [List.map_map]
    conv_rhs => rw [← List.map_id (ax :: mom)]
    refine List.map_congr_left fun a ha => ?_
    have := List.idxOf_lt_length_iff.2 (hmem a ha)
    simp only [Function.comp, id]
    rw [List.getD_eq_getElem _ _ this, List.getElem_idxOf this]
  have hkept : (keptAxes d.shape.length ((ax :: mom).map lay.idxOf)).map (fun p => lay.getD p 0)
      = keptAxes d.shape.length (ax :: mom) := h.others
  unfold Arr.read
  rw [← h.shows.2]
  refine h.good.proper _ _ fun p hp => ?_
  have hp' : p < lay.length := by omega
  have hpm : p ∈ (ax :: mom).map lay.idxOf ↔ lay[p] ∈ ax :: mom := by
    rw [List.mem_map]
    constructor
    · rintro ⟨a, ha, rfl⟩
      rw [List.getElem_idxOf]; exact ha
    · intro ha
      exact ⟨_, ha, hlay.idxOf_getElem _ hp'⟩
  have hg : lay.getD p 0 = lay[p] := List.getD_eq_getElem _ _ hp'
  rw [along_lt _ hp', hg]
  have hsz : b.shape.getD p 0 = d.shape.getD lay[p] 0 := by
    rw [hbs, List.getD_eq_getElem _ _ (by simpa using hp'), List.getElem_map]
    rfl
  by_cases hm : p ∈ (ax :: mom).map lay.idxOf
  · rw [if_pos hm, if_pos (hpm.1 hm), ← idxOf_of_map hcore hcs hm, hg]
  · rw [if_neg hm, if_neg (fun h => hm (hpm.2 h)), hsz]
    split_ifs
    · rfl
    · rw [loopAxes_eq, loopAxes_eq, hblen]
      have hk : (keptAxes d.shape.length ((ax :: mom).map lay.idxOf)).length
          = (keptAxes d.shape.length (ax :: mom)).length := by rw [← hkept, List.length_map]
      rw [hk, ← idxOf_of_map hkept (List.nodup_range.filter _)
        (mem_keptAxes.2 ⟨by omega, hm⟩), hg]

theorem Prepared.loop_eq {d b : Arr K} {zp : ℤ} {momp : List ℤ} {ax : ℕ} {mom lay : List ℕ}
    (h : Prepared b zp momp d.shape.length ax mom lay (axisSize d) d.get) :
    b.loopShape (lay.idxOf ax :: mom.map lay.idxOf) = freeShape d (ax :: mom) := by
  have hll : lay.length = d.shape.length := by rw [h.perm.length_eq, List.length_range]
  have hblen : b.shape.length = d.shape.length := h.len
  unfold Arr.loopShape freeShape
  rw [loopAxes_eq, hblen, ← h.others, List.map_map]
  refine List.map_congr_left fun p hp => ?_
  have hp' : p < lay.length := by have := (mem_keptAxes.1 hp).1; omega
  rw [h.shows.1, List.getD_eq_getElem _ _ (by simpa using hp'), List.getElem_map, Function.comp,
    List.getD_eq_getElem _ _ hp']

theorem Prepared.size_eq {d b : Arr K} {zp : ℤ} {momp : List ℤ} {ax : ℕ} {mom lay : List ℕ}
    (h : Prepared b zp momp d.shape.length ax mom lay (axisSize d) d.get) {a : ℕ}
    (ha : a < d.shape.length) : b.shape.getD (lay.idxOf a) 0 = axisSize d a := by
  have hk : lay.idxOf a < lay.length :=
    List.idxOf_lt_length_iff.2 (h.perm.mem_iff.2 (List.mem_range.2 ha))
  rw [h.shows.1, List.getD_eq_getElem _ _ (by simpa using hk), List.getElem_map,
    List.getElem_idxOf]

theorem momAxesOf_eq {n nd : ℕ} (h : nd ≤ n) (mom : Option (List ℤ)) :
    (mom.getD (axesLast nd)).map (wrap n) = momAxesOf n nd mom := by
  cases mom with
  | none => exact axesLast_wrap' h
  | some m => rfl

theorem _root_.Cmomy.Spec.GoodDatas.axis {nd : ℕ} {d : Arr K} {z : ℤ} {mom : Option (List ℤ)}
    (g : GoodDatas nd d z mom) : GoodAxis d (mom.getD (axesLast nd)) z := by
  have h := List.nodup_cons.1 g.distinct
  refine ⟨g.proper, ?_, ?_, g.range, ?_⟩
  · cases mom with
    | none => exact axesLast_range' g.room
    | some m => exact g.momRange m rfl
  · rw [momAxesOf_eq g.room]; exact h.2
  · rw [momAxesOf_eq g.room]; exact h.1

theorem prepareData_axes {d : Arr K} {axis : AxisArg} {mom : List ℤ} {nd : ℕ}
    {p : ℤ × List ℤ × Arr K} (h : prepareData d axis mom nd true = .ok p) :
    p.2.1 = axesLast nd := by
  unfold prepareData at h
  obtain ⟨ax, _, h2⟩ := Except_bind_ok h
  simp only [if_true] at h2
  cases hm : d.moveaxisInt ((ax : ℤ) :: mom) (((d.shape.length : ℤ) - (nd + 1)) :: axesLast nd) with
  | error e => rw [hm] at h2; cases h2
  | ok b => rw [hm] at h2; obtain rfl := Except.ok.inj h2; rfl

/-- What is left of `push_datas` after the preparation. -/
theorem pushDatasNd_eq {core : Core K M} (hc : core.Ok) (fam : List ℕ → Kernel K V M)
    (obj : Arr (Option K)) {d : Arr K} {z : ℤ} {mom : Option (List ℤ)}
    (g : GoodDatas core.nd d z mom) :
    pushDatasNd core fam obj d (.int z) mom
      = pushInto core obj (some ((momAxesOf d.shape.length core.nd mom).map (axisSize d)))
          [freeShape d (wrap d.shape.length z :: momAxesOf d.shape.length core.nd mom)]
          (fun sizes L l r => (fam sizes).reduceData ((List.range (sampleCount d z)).map (fun s =>
            core.recd (fun ms => d.read
              (wrap d.shape.length z :: momAxesOf d.shape.length core.nd mom) L l (s :: ms)))) r) := by
  have ga := g.axis
  have hm := momAxesOf_eq (n := d.shape.length) g.room mom
  have hml : (mom.getD (axesLast core.nd)).length = core.nd := by
    have := g.momLength
    rw [← hm, List.length_map] at this
    exact this
  obtain ⟨zp, momp, b, e1, P⟩ := prepareData_ok ga hml true
  have e2 := prepareData_axes e1
  simp only at e2
  subst e2
  rw [hm] at P
  unfold pushDatasNd
  rw [if_neg (by simpa using hml), e1]
  simp only [Except.bind]
  have hcore : coreAxes b.shape.length (zp :: axesLast core.nd)
      = .ok ((axesAfter d.shape.length (wrap d.shape.length z)
          (momAxesOf d.shape.length core.nd mom) true).idxOf (wrap d.shape.length z) ::
        (momAxesOf d.shape.length core.nd mom).map (axesAfter d.shape.length
          (wrap d.shape.length z) (momAxesOf d.shape.length core.nd mom) true).idxOf) := by
    rw [coreAxes_ok, List.map_cons, P.idx, P.idxm]
    · intro y hy
      rcases List.mem_cons.1 hy with rfl | hy
      · exact P.good.range
      · exact P.good.momRange y hy
    · rw [List.map_cons]
      exact List.nodup_cons.2 ⟨P.good.notMom, P.good.momDistinct⟩
  rw [hcore]
  simp only [List.tail_cons]
  rw [P.loop_eq]
  congr 1
  · congr 1
    rw [List.map_map]
    refine List.map_congr_left fun a ha => ?_
    exact P.size_eq (P.momn a ha)
  · funext sizes L l r
    unfold recordsAt
    rw [List.headD_cons, P.size_eq P.axn]
    congr 1
    refine List.map_congr_left fun s _ => ?_
    congr 1
    funext ms
    exact P.read_eq g.proper g.distinct L l _

theorem pushDatasNd_ok {core : Core K M} (hc : core.Ok)
    (fam : List ℕ → Kernel K V M) {obj : Arr (Option K)} (hp : obj.Proper)
    (hn : core.nd ≤ obj.shape.length) {d : Arr K} {z : ℤ} {mom : Option (List ℤ)}
    (g : GoodDatas core.nd d z mom)
    (hm : (momAxesOf d.shape.length core.nd mom).map (axisSize d) = momShape core obj)
    (hf : FitsInto (freeShape d (wrap d.shape.length z :: momAxesOf d.shape.length core.nd mom))
      (valShape core obj)) :
    ∃ obj', pushDatasNd core fam obj d (.int z) mom = .ok obj' ∧
      Updated core obj obj' (fun i r => (fam (momShape core obj)).reduceData
        ((List.range (sampleCount d z)).map (datasRecord core d z mom (valRank core obj) i)) r) := by
  rw [pushDatasNd_eq hc fam obj g]
  obtain ⟨obj', h1, h2⟩ := pushInto_ok hc hp hn
    (want := some ((momAxesOf d.shape.length core.nd mom).map (axisSize d)))
    (by intro s hs
        obtain rfl := Option.some.inj (Option.mem_def.1 hs)
        exact hm)
    (extra := [freeShape d (wrap d.shape.length z :: momAxesOf d.shape.length core.nd mom)])
    (by intro t ht
        rw [List.mem_singleton] at ht
        rw [ht]; exact hf)
    (fun sizes L l r => (fam sizes).reduceData ((List.range (sampleCount d z)).map (fun s =>
            core.recd (fun ms => d.read
              (wrap d.shape.length z :: momAxesOf d.shape.length core.nd mom) L l (s :: ms)))) r)
  refine ⟨obj', h1, ?_⟩
  have hr : ∀ i c, d.read (wrap d.shape.length z :: momAxesOf d.shape.length core.nd mom)
      (valRank core obj) (along (List.range (valRank core obj)) i) c
      = matched d (wrap d.shape.length z :: momAxesOf d.shape.length core.nd mom)
        (List.range (valRank core obj)) i c := by
    intro i c
    have := read_matched d (wrap d.shape.length z :: momAxesOf d.shape.length core.nd mom)
      (List.range (valRank core obj)) i c
    rwa [List.length_range] at this
  simpa only [hr] using h2

theorem pushDatasNd_inv {core : Core K M} (hc : core.Ok) {fam : List ℕ → Kernel K V M}
    {obj obj' : Arr (Option K)} {d : Arr K} (hd : d.Proper) {z : ℤ} {mom : Option (List ℤ)}
    (h : pushDatasNd core fam obj d (.int z) mom = .ok obj') :
    core.nd ≤ obj.shape.length ∧ GoodDatas core.nd d z mom ∧
      (momAxesOf d.shape.length core.nd mom).map (axisSize d) = momShape core obj ∧
      FitsInto (freeShape d (wrap d.shape.length z :: momAxesOf d.shape.length core.nd mom))
        (valShape core obj) := by
  have g : GoodDatas core.nd d z mom := by
    unfold pushDatasNd at h
    split_ifs at h with hl
    have hl' : (mom.getD (axesLast core.nd)).length = core.nd := not_not.1 hl
    obtain ⟨p, e1, -⟩ := Except_bind_ok h
    unfold prepareData at e1
    obtain ⟨ax, e2, e3⟩ := Except_bind_ok e1
    obtain ⟨hz, rfl⟩ := (npNormalize_int _ _ _).1 e2
    simp only [if_true] at e3
    obtain ⟨b, hb⟩ := Except_map_ok e3
    unfold Arr.moveaxisInt moveaxisOrder at hb
    obtain ⟨o, ho⟩ := Except_map_ok hb
    obtain ⟨src, hs, -⟩ := Except_bind_ok ho
    obtain ⟨h1, h2, h3⟩ := (normalizeAxes_int_ok_iff _ _ _ _ _).1 hs
    have hnd := h3.resolve_left (by simp)
    subst h2
    rw [List.map_cons, wrap_natCast (wrap_lt hz)] at hnd
    have hr : ∀ a ∈ mom.getD (axesLast core.nd), InRange d.shape.length a :=
      fun a ha => h1 a (by simp [ha])
    have hroom : core.nd ≤ d.shape.length := by
      cases mom with
      | none =>
        by_contra hc
        have := hr (-(core.nd : ℤ)) (by
          unfold axesLast
          exact List.mem_map.2 ⟨0, List.mem_range.2 (by omega), by simp⟩)
        unfold InRange at this
        omega
      | some m =>
        have h4 := (List.nodup_cons.1 hnd).2
        have h5 : ((some m).getD (axesLast core.nd)).map (wrap d.shape.length)
            ⊆ List.range d.shape.length := by
          intro a ha
          obtain ⟨y, hy, rfl⟩ := List.mem_map.1 ha
          exact List.mem_range.2 (wrap_lt (hr y hy))
        have := (List.subperm_of_subset h4 h5).length_le
        rw [List.length_map, List.length_range] at this
        omega
    rw [momAxesOf_eq hroom] at hnd
    refine ⟨hd, hz, hroom, ?_, ?_, hnd⟩
    · rw [← momAxesOf_eq hroom, List.length_map]; exact hl'
    · intro m hm a ha
      obtain rfl := Option.mem_def.1 hm
      exact hr a ha
  rw [pushDatasNd_eq hc fam obj g] at h
  obtain ⟨f1, f2, f3⟩ := pushInto_inv h
  exact ⟨f1, g, f2 _ rfl, f3 _ (List.mem_singleton.2 rfl)⟩

end Methods

end Cmomy.Nd
