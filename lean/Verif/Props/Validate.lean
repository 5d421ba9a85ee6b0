import Verif.Model.Validate
import Verif.Props.Axes

/-!
# C48: validation of moment parameters
-/

namespace Cmomy

open Spec Axes Nd Validate

/-- Spec: one or two positive integers. -/
def Spec.GoodMom (l : List ℤ) : Prop := (l.length = 1 ∨ l.length = 2) ∧ ∀ m ∈ l, 1 ≤ m

private theorem isMomTuple_iff (l : List ℤ) : isMomTuple l = true ↔ GoodMom l := by
  unfold isMomTuple GoodMom
  simp only [Bool.and_eq_true, Bool.or_eq_true, beq_iff_eq, List.all_eq_true, decide_eq_true_eq]
  constructor
  · rintro ⟨h, h'⟩; exact ⟨h, fun m hm => by have := h' m hm; omega⟩
  · rintro ⟨h, h'⟩; exact ⟨h, fun m hm => by have := h' m hm; omega⟩

/-- **C48.** `validate_mom` accepts exactly one or two positive integers and returns them; anything
else is a `ValueError`. -/
theorem C48_validate_mom (mom : IntArg) (r : List ℤ) :
    (validateMom mom = .ok r ↔ r = mom.tuple ∧ GoodMom r) ∧
    (¬ GoodMom mom.tuple → validateMom mom = .error .valueError) := by
  unfold validateMom
  by_cases h : GoodMom mom.tuple
  · rw [if_pos ((isMomTuple_iff _).2 h)]
    refine ⟨?_, fun h' => absurd h h'⟩
    rw [Except.ok.injEq]
    constructor
    · rintro rfl; exact ⟨rfl, h⟩
    · rintro ⟨rfl, _⟩; rfl
  · rw [if_neg (fun h' => h ((isMomTuple_iff _).1 h'))]
    refine ⟨⟨fun e => (by simp at e), ?_⟩, fun _ => rfl⟩
    rintro ⟨rfl, h'⟩
    exact absurd h' h

example : validateMom (.seq [3, 2]) = .ok [3, 2] ∧ validateMom (.int 0) = .error .valueError := by
  decide

/-- **C48.** Turning moments into a shape and back gives the moments again. -/
theorem C48_mom_shape_mom (mom : IntArg) (s : List ℤ) (h : momToMomShape mom = .ok s) :
    momShapeToMom (.seq s) = validateMom mom := by
  unfold momToMomShape at h
  cases e : validateMom mom with
  | error e' => rw [e] at h; cases h
  | ok r =>
    rw [e] at h
    have h : r.map (· + 1) = s := by simpa [Except.map] using h
    subst h
    obtain ⟨-, h1, h2⟩ := ((C48_validate_mom mom r).1).1 e
    have : validateMom (.seq (r.map (· + 1))) = .ok (r.map (· + 1)) :=
      ((C48_validate_mom _ _).1).2 ⟨rfl, by simpa using h1, fun m hm => by
        obtain ⟨x, hx, rfl⟩ := List.mem_map.1 hm
        have := h2 x hx
        omega⟩
    unfold momShapeToMom
    rw [this]
    simp [Except.map, Function.comp_def]

example : momToMomShape (.seq [3, 2]) = .ok [4, 3] := by decide

/-- **C48.** Turning a shape into moments and back gives the shape again exactly when every extent is
at least two. -/
theorem C48_shape_mom_shape (s : List ℤ) (hl : s.length = 1 ∨ s.length = 2) :
    ((momShapeToMom (.seq s)).bind fun m => momToMomShape (.seq m)) = .ok s ↔ ∀ n ∈ s, 2 ≤ n := by
  constructor
  · intro h
    cases e : momShapeToMom (.seq s) with
    | error e' => rw [e] at h; cases h
    | ok m =>
      rw [e] at h
      have h : momToMomShape (.seq m) = .ok s := h
      unfold momToMomShape at h
      cases e2 : validateMom (.seq m) with
      | error e' => rw [e2] at h; cases h
      | ok r =>
        rw [e2] at h
        have h : r.map (· + 1) = s := by simpa [Except.map] using h
        obtain ⟨-, -, h2⟩ := ((C48_validate_mom _ r).1).1 e2
        subst h
        intro n hn
        obtain ⟨x, hx, rfl⟩ := List.mem_map.1 hn
        have := h2 x hx
        omega
  · intro h
    have e : validateMom (.seq s) = .ok s :=
      ((C48_validate_mom _ _).1).2 ⟨rfl, hl, fun m hm => by have := h m hm; omega⟩
    have e2 : validateMom (.seq (s.map (· - 1))) = .ok (s.map (· - 1)) :=
      ((C48_validate_mom _ _).1).2 ⟨rfl, by simpa using hl, fun m hm => by
        obtain ⟨x, hx, rfl⟩ := List.mem_map.1 hm
        have := h x hx
        omega⟩
    unfold momShapeToMom momToMomShape
    rw [e]
    show Except.map _ (validateMom (.seq (s.map (· - 1)))) = _
    rw [e2]
    simp [Except.map, Function.comp_def]

example : ((momShapeToMom (.seq [4, 2])).bind fun m => momToMomShape (.seq m)) = .ok [4, 2] := by
  decide

/-- **C48, finding.** `mom_shape_to_mom` accepts an extent of one and answers with a moment order of
zero, which `validate_mom` itself refuses. -/
theorem C48_shape_one_gives_order_zero (s : List ℤ) (hg : GoodMom s) (h1 : (1 : ℤ) ∈ s) :
    ∃ m, momShapeToMom (.seq s) = .ok m ∧ (0 : ℤ) ∈ m ∧
      validateMom (.seq m) = .error .valueError := by
  have e : validateMom (.seq s) = .ok s := ((C48_validate_mom _ _).1).2 ⟨rfl, hg⟩
  have h0 : (0 : ℤ) ∈ s.map (· - 1) := List.mem_map.2 ⟨1, h1, by norm_num⟩
  refine ⟨s.map (· - 1), ?_, h0, (C48_validate_mom _ []).2 ?_⟩
  · unfold momShapeToMom; rw [e]; rfl
  · intro h
    have := h.2 0 h0
    omega

example : momShapeToMom (.seq [1]) = .ok [0] := by decide

/-- Spec: consistent parameters. -/
def Spec.GoodParams (p : PArray) : Prop := (p.ndim = 1 ∨ p.ndim = 2) ∧ (p.axes.length : ℤ) = p.ndim

/-- **C48.** `MomParamsArray.from_params` returns only consistent parameters: one or two moment
dimensions and that many axes; given axes are kept, otherwise the last ones are taken. -/
theorem C48_from_params (ndim : Option ℤ) (axes : Option IntArg) (dflt : Option ℤ)
    (hd : ∀ d, dflt = some d → d = 1 ∨ d = 2) (p : PArray) :
    fromParams ndim axes dflt = .ok p ↔
      GoodParams p ∧
      (match axes with
       | some a => p.axes = a.tuple ∧ (ndim = none ∨ ndim = some p.ndim)
       | none => (ndim = some p.ndim ∨ ndim = none ∧ dflt = some p.ndim) ∧
          p.axes = if p.ndim = 1 then [-1] else [-2, -1]) := by
  obtain ⟨n, ax⟩ := p
  cases axes with
  | none =>
    simp only [fromParams]
    have key : ∀ n', validateMomNdim ndim dflt = .ok n' ↔
        (n' = 1 ∨ n' = 2) ∧ (ndim = some n' ∨ ndim = none ∧ dflt = some n') := by
      intro n'
      unfold validateMomNdim
      by_cases h : ndim = some 1 ∨ ndim = some 2
      · rw [if_pos h]
        rcases h with rfl | rfl <;> simp <;> omega
      · rw [if_neg h]
        cases ndim with
        | none =>
          cases dflt with
          | none => simp
          | some d =>
            have := hd d rfl
            simp only [Except.ok.injEq, reduceCtorEq, false_or, true_and, Option.some.injEq]
            constructor
            · rintro rfl; exact ⟨this, rfl⟩
            · exact fun h => h.2
        | some z =>
          simp only [Option.some.injEq, not_or] at h
          simp only [reduceCtorEq, Option.some.injEq, false_and, or_false, false_iff, not_and]
          rintro (rfl | rfl) rfl <;> simp at h
    cases e : validateMomNdim ndim dflt with
    | error e' =>
      constructor
      · intro h; cases h
      · rintro ⟨⟨h1, -⟩, h2, -⟩
        have := (key n).2 ⟨h1, h2⟩
        rw [e] at this; cases this
    | ok n' =>
      obtain ⟨k1, k2⟩ := (key n').1 e
      have huniq : (ndim = some n ∨ ndim = none ∧ dflt = some n) → n = n' := by
        intro h
        rcases h with h | ⟨h, h'⟩ <;> rcases k2 with k | ⟨k, k'⟩
        · rw [h] at k; exact Option.some.inj k
        · rw [h] at k; cases k
        · rw [h] at k; cases k
        · rw [h'] at k'; exact Option.some.inj k'
      show Except.map (fun a => (⟨n', a⟩ : PArray)) (axesLast n') = _ ↔ _
      rcases k1 with rfl | rfl
      · simp only [axesLast, if_true, Except.map, Except.ok.injEq, PArray.mk.injEq]
        constructor
        · rintro ⟨rfl, rfl⟩; exact ⟨⟨.inl rfl, rfl⟩, k2, by simp⟩
        · rintro ⟨-, h, h'⟩
          have := huniq h
          subst this
          exact ⟨rfl, by simpa using h'.symm⟩
      · simp only [axesLast, Except.map, OfNat.ofNat_ne_one, if_false, if_true, Except.ok.injEq,
          PArray.mk.injEq]
        constructor
        · rintro ⟨rfl, rfl⟩; exact ⟨⟨.inr rfl, rfl⟩, k2, by simp⟩
        · rintro ⟨-, h, h'⟩
          have := huniq h
          subst this
          exact ⟨rfl, by simpa using h'.symm⟩
  | some a =>
    simp only [fromParams]
    have key : ∀ l, validateMomAxes a = .ok l ↔ l = a.tuple ∧ (l.length = 1 ∨ l.length = 2) := by
      intro l
      cases a with
      | int z =>
        simp only [validateMomAxes, IntArg.tuple, Except.ok.injEq]
        constructor
        · rintro rfl; exact ⟨rfl, .inl rfl⟩
        · rintro ⟨rfl, _⟩; rfl
      | seq l' =>
        simp only [validateMomAxes, IntArg.tuple]
        by_cases h : l'.length = 1 ∨ l'.length = 2
        · rw [if_pos h, Except.ok.injEq]
          constructor
          · rintro rfl; exact ⟨rfl, h⟩
          · rintro ⟨rfl, _⟩; rfl
        · rw [if_neg h]
          constructor
          · intro h'; cases h'
          · rintro ⟨rfl, h'⟩; exact absurd h' h
    cases e : validateMomAxes a with
    | error e' =>
      constructor
      · intro h; cases h
      · rintro ⟨⟨h1, h2⟩, h3, -⟩
        simp only at h1 h2 h3
        have := (key ax).2 ⟨h3, by omega⟩
        rw [e] at this; cases this
    | ok l =>
      obtain ⟨rfl, k2⟩ := (key l).1 e
      cases ndim with
      | none =>
        show Except.ok (⟨(a.tuple.length : ℤ), a.tuple⟩ : PArray) = _ ↔ _
        simp only [Except.ok.injEq, PArray.mk.injEq, GoodParams, true_or, and_true]
        constructor
        · rintro ⟨rfl, rfl⟩; exact ⟨⟨by omega, rfl⟩, rfl⟩
        · rintro ⟨⟨-, h⟩, rfl⟩; exact ⟨h, rfl⟩
      | some z =>
        show (if (a.tuple.length : ℤ) ≠ z then Except.error PyErr.valueError
          else Except.ok (⟨z, a.tuple⟩ : PArray)) = _ ↔ _
        by_cases hz : (a.tuple.length : ℤ) = z
        · rw [if_neg (by simpa using hz)]
          simp only [Except.ok.injEq, PArray.mk.injEq, GoodParams, reduceCtorEq, Option.some.injEq,
            false_or]
          constructor
          · rintro ⟨rfl, rfl⟩; exact ⟨⟨by omega, hz⟩, rfl, rfl⟩
          · rintro ⟨-, rfl, rfl⟩; exact ⟨rfl, rfl⟩
        · rw [if_pos hz]
          simp only [reduceCtorEq, GoodParams, Option.some.injEq, false_or, false_iff, not_and]
          rintro ⟨-, h⟩ rfl rfl
          exact hz h

example : fromParams (some 2) (some (.seq [0, 1])) (some 1) = .ok ⟨2, [0, 1]⟩ ∧
    fromParams none none (some 1) = .ok ⟨1, [-1]⟩ ∧
    fromParams (some 1) (some (.seq [0, 1])) (some 1) = .error .valueError := by decide

/-- `from_params` fails with `ValueError` only (for a default of 1, 2 or none). -/
theorem C48_from_params_error (ndim : Option ℤ) (axes : Option IntArg) (dflt : Option ℤ)
    (hd : ∀ d, dflt = some d → d = 1 ∨ d = 2) (e : PyErr)
    (h : fromParams ndim axes dflt = .error e) : e = .valueError := by
  cases axes with
  | none =>
    simp only [fromParams, validateMomNdim] at h
    by_cases hn : ndim = some 1 ∨ ndim = some 2
    · rw [if_pos hn] at h
      rcases hn with rfl | rfl <;> simp [Except.bind, axesLast, Except.map] at h
    · rw [if_neg hn] at h
      cases ndim with
      | none =>
        cases dflt with
        | none => simpa [Except.bind] using h.symm
        | some d => rcases hd d rfl with rfl | rfl <;> simp [Except.bind, axesLast, Except.map] at h
      | some z => simpa [Except.bind] using h.symm
  | some a =>
    simp only [fromParams] at h
    cases ea : validateMomAxes a with
    | error e' =>
      rw [ea] at h
      have h : e' = e := by simpa [Except.bind] using h
      subst h
      cases a with
      | int z => simp [validateMomAxes] at ea
      | seq l =>
        simp only [validateMomAxes] at ea
        split_ifs at ea
        simpa using ea.symm
    | ok l =>
      rw [ea] at h
      simp only [Except.bind] at h
      cases ndim with
      | none => cases h
      | some z =>
        simp only at h
        split_ifs at h
        simpa using h.symm

/-- **C48, finding.** Neither repeated moment axes nor axes that no array has are noticed when the
parameters are validated. -/
theorem C48_axes_unchecked (a b : ℤ) : fromParams none (some (.seq [a, b])) none = .ok ⟨2, [a, b]⟩ := by
  simp [fromParams, validateMomAxes, Except.bind]

/-- **C48.** What a function gets after `normalize_axes`: distinct axes of the array, or an error. -/
theorem C48_normalized_axes (p : PArray) (n : ℕ) (r : List ℕ)
    (h : normalizeAxes (p.axes.map .int) n none false = .ok r) :
    r.Nodup ∧ (∀ a ∈ r, a < n) ∧ r.length = p.axes.length := by
  obtain ⟨h1, rfl, h3⟩ := (normalizeAxes_int_ok_iff _ _ _ _ _).1 h
  refine ⟨h3.resolve_left (by decide), ?_, by simp⟩
  intro a ha
  obtain ⟨z, hz, rfl⟩ := List.mem_map.1 ha
  exact wrap_lt (h1 z hz)

example : normalizeAxes ((⟨2, [-1, 0]⟩ : PArray).axes.map .int) 3 none false = .ok [2, 0] := by
  decide

/-- **C48, `factory`.** With a parameter object, `ndim` must agree and `axes` is ignored. With a
mapping, a given `ndim` wins over the mapping, but `axes` is used only if the mapping has no `axes`
key at all. -/
theorem C48_factory {δ : Type} (p : PArray) (ndim : Option ℤ) (axes axes' : Option IntArg)
    (dflt : Option ℤ) (n : Option (Option ℤ)) (a : Option IntArg) (d : Option (Option δ)) :
    (factory (.obj p : Input PArray δ) ndim axes dflt =
      if ndim = none ∨ ndim = some p.ndim then .ok p else .error .assertion) ∧
    factory (.dict n (some a) d) ndim axes dflt = factory (.dict n (some a) d) ndim axes' dflt ∧
    factory (.dict n none d) ndim axes dflt =
      fromParams (if ndim.isSome then ndim else n.getD none) axes dflt := by
  refine ⟨?_, rfl, rfl⟩
  cases ndim with
  | none => simp [factory]
  | some z =>
    simp only [factory, reduceCtorEq, Option.some.injEq, false_or]
    by_cases h : p.ndim = z
    · rw [if_pos h, if_pos h.symm]
    · rw [if_neg h, if_neg (fun h' => h h'.symm)]

/-- **C48, finding.** `mom_params=MomParams(ndim=2)` together with `mom_axes=(0, 1)`: the axes are
silently ignored and the last two are used, because the mapping made of the object has an `axes` key
holding `None`. -/
theorem C48_axes_silently_ignored :
    factory (.dict (some (some 2)) (some none) (some none) : Input PArray ℕ) none
      (some (.seq [0, 1])) none = .ok ⟨2, [-2, -1]⟩ := by decide

/-- Spec: the axes named by `axes` are distinct axes of an array of the given shape. -/
def Spec.AxesOf (shape : List ℕ) (axes : List ℤ) : Prop :=
  (∀ z ∈ axes, InRange shape.length z) ∧ (axes.map (wrap shape.length)).Nodup

private theorem pyGet_iff {α : Type} (l : List α) (z : ℤ) (x : α) :
    pyGet l z = .ok x ↔ InRange l.length z ∧ l[wrap l.length z]? = some x := by
  unfold pyGet InRange
  by_cases h0 : z < 0
  · simp only [h0, if_true]
    by_cases h1 : z + (l.length : ℤ) < 0
    · rw [if_pos h1]
      constructor
      · intro h; cases h
      · rintro ⟨⟨h, _⟩, _⟩; omega
    · rw [if_neg h1]
      have : wrap l.length z = (z + (l.length : ℤ)).toNat := by
        unfold wrap
        rw [← Int.add_emod_right, Int.emod_eq_of_lt (by omega) (by omega)]
      rw [this]
      cases e : l[(z + (l.length : ℤ)).toNat]? with
      | none =>
        simp
      | some y => simp only [Except.ok.injEq, Option.some.injEq]; constructor
                  · exact fun h => ⟨⟨by omega, by omega⟩, h⟩
                  · exact fun h => h.2
  · simp only [h0, if_false]
    by_cases h1 : z < l.length
    · have : wrap l.length z = z.toNat := by
        unfold wrap; rw [Int.emod_eq_of_lt (by omega) h1]
      rw [this]
      have hlt : z.toNat < l.length := by omega
      rw [List.getElem?_eq_getElem hlt]
      simp only [Except.ok.injEq, Option.some.injEq]
      constructor
      · exact fun h => ⟨⟨by omega, h1⟩, h⟩
      · exact fun h => h.2
    · have : l[z.toNat]? = none := List.getElem?_eq_none (by omega)
      rw [this]
      simp only [reduceCtorEq, false_iff, not_and]
      intro h; omega

private theorem getMom_iff (shape : List ℕ) (axes : List ℤ) (hl : axes.length = 1 ∨ axes.length = 2)
    (m : List ℤ) : getMom shape axes = .ok m ↔
      (∀ z ∈ axes, InRange shape.length z ∧ 1 ≤ shape.getD (wrap shape.length z) 0) ∧
      m = axes.map (fun z => (shape.getD (wrap shape.length z) 0 : ℤ) - 1) := by
  unfold getMom
  have key : ∀ l, axes.mapM (fun a => pyGet shape a) = .ok l ↔
      (∀ z ∈ axes, InRange shape.length z) ∧
      l = axes.map (fun z => shape.getD (wrap shape.length z) 0) := by
    intro l
    rw [mapM_ok_iff]
    clear hl
    induction axes generalizing l with
    | nil => cases l <;> simp
    | cons z zs ih =>
      cases l with
      | nil => simp
      | cons x xs =>
        simp only [List.map_cons, List.cons.injEq, ih, pyGet_iff, List.mem_cons, forall_eq_or_imp]
        constructor
        · rintro ⟨⟨h1, h2⟩, h3, h4⟩
          exact ⟨⟨h1, h3⟩, by rw [List.getD_eq_getElem?_getD, h2]; rfl, h4⟩
        · rintro ⟨⟨h1, h3⟩, h2, h4⟩
          refine ⟨⟨h1, ?_⟩, h3, h4⟩
          rw [h2, List.getD_eq_getElem?_getD, List.getElem?_eq_getElem (wrap_lt h1)]
          rfl
  cases e : axes.mapM (fun a => pyGet shape a) with
  | error e' =>
    constructor
    · intro h; cases h
    · rintro ⟨h, -⟩
      have := (key _).2 ⟨fun z hz => (h z hz).1, rfl⟩
      rw [e] at this; cases this
  | ok l =>
    obtain ⟨k1, rfl⟩ := (key l).1 e
    show momShapeToMom _ = .ok m ↔ _
    have hlen : GoodMom ((axes.map (fun z => shape.getD (wrap shape.length z) 0)).map
        (fun n : ℕ => (n : ℤ))) ↔ ∀ z ∈ axes, 1 ≤ shape.getD (wrap shape.length z) 0 := by
      unfold GoodMom
      simp only [List.length_map, hl, true_and, List.mem_map]
      constructor
      · intro h z hz
        have := h _ ⟨_, ⟨z, hz, rfl⟩, rfl⟩
        omega
      · rintro h _ ⟨_, ⟨z, hz, rfl⟩, rfl⟩
        have := h z hz
        omega
    unfold momShapeToMom
    by_cases hg : ∀ z ∈ axes, 1 ≤ shape.getD (wrap shape.length z) 0
    · have := ((C48_validate_mom (.seq _) _).1).2 ⟨rfl, hlen.2 hg⟩
      rw [this]
      simp only [Except.map, IntArg.tuple, Except.ok.injEq, List.map_map, Function.comp_def]
      constructor
      · rintro rfl; exact ⟨fun z hz => ⟨k1 z hz, hg z hz⟩, rfl⟩
      · rintro ⟨-, rfl⟩; rfl
    · have := (C48_validate_mom (.seq ((axes.map (fun z => shape.getD (wrap shape.length z) 0)).map
        (fun n : ℕ => (n : ℤ)))) []).2 (fun h => hg (hlen.1 h))
      rw [this]
      constructor
      · intro h; cases h
      · rintro ⟨h, -⟩; exact absurd (fun z hz => (h z hz).2) hg

private theorem last_spec (nd : ℤ) (h : nd = 1 ∨ nd = 2) :
    ∃ last, axesLast nd = .ok last ∧ (last.length : ℤ) = nd ∧
      ∀ n : ℕ, nd ≤ n → (∀ z ∈ last, InRange n z) ∧ (last.map (wrap n)).Nodup := by
  rcases h with rfl | rfl
  · refine ⟨[-1], rfl, rfl, fun n hn => ⟨?_, by simp⟩⟩
    intro z hz
    rw [List.mem_singleton.1 hz]
    exact ⟨by omega, by omega⟩
  · refine ⟨[-2, -1], rfl, rfl, fun n hn => ⟨?_, ?_⟩⟩
    · intro z hz
      simp only [List.mem_cons, List.not_mem_nil, or_false] at hz
      rcases hz with rfl | rfl <;> exact ⟨by omega, by omega⟩
    · have e1 : wrap n (-2) = n - 2 := by
        unfold wrap
        rw [← Int.add_emod_right, Int.emod_eq_of_lt (by omega) (by omega)]
        omega
      have e2 : wrap n (-1) = n - 1 := by
        unfold wrap
        rw [← Int.add_emod_right, Int.emod_eq_of_lt (by omega) (by omega)]
        omega
      simp only [List.map_cons, List.map_nil, e1, e2]
      simp
      omega

private theorem moved_extents {n : ℕ} {src dst : List ℤ} {o : List ℕ} (hlen : src.length = dst.length)
    (h : IsAxisMove n ((src.map (wrap n)).zip (dst.map (wrap n))) o) (g : ℕ → ℕ) :
    dst.map (fun z => (o.map g).getD (wrap n z) 0) = src.map (fun z => g (wrap n z)) := by
  apply List.ext_getElem
  · simp [hlen]
  · intro k h1 h2
    have k1 : k < dst.length := by simpa using h1
    have k2 : k < src.length := by simpa using h2
    simp only [List.getElem_map]
    have hm : (wrap n src[k], wrap n dst[k]) ∈ (src.map (wrap n)).zip (dst.map (wrap n)) := by
      rw [List.mem_iff_getElem]
      exact ⟨k, by simp [k1, k2], by simp⟩
    have := h.placed _ hm
    rw [List.getD_eq_getElem?_getD, List.getElem?_map]
    simp only at this
    rw [this]
    rfl

/-- **C48.** An object is built around an array exactly when the parameters are valid, the moment
axes are distinct axes of the array and every one of them has at least two entries. The object keeps
the moment axes last, in the order given, and the moment orders the kernels see are at least one. -/
theorem C48_construct {K δ : Type} (obj : Arr K) (mp : Input PArray δ) (ndim : Option ℤ)
    (axes : Option IntArg) (p : PArray) (hp : factory mp ndim axes (some 1) = .ok p)
    (hg : GoodParams p) :
    ((∃ r, construct obj mp ndim axes = .ok r) ↔
      AxesOf obj.shape p.axes ∧ ∀ z ∈ p.axes, 2 ≤ obj.shape.getD (wrap obj.shape.length z) 0) ∧
    (∀ r, construct obj mp ndim axes = .ok r →
      r.2.ndim = p.ndim ∧ axesLast p.ndim = .ok r.2.axes ∧ r.1.shape.Perm obj.shape ∧
      (∃ m, getMom r.1.shape r.2.axes = .ok m ∧ ∀ x ∈ m, 1 ≤ x) ∧
      r.2.axes.map (fun z => r.1.shape.getD (wrap r.1.shape.length z) 0) =
        p.axes.map (fun z => obj.shape.getD (wrap obj.shape.length z) 0)) := by
  obtain ⟨hg1, hg2⟩ := hg
  obtain ⟨last, hl1, hl2, hl3⟩ := last_spec p.ndim hg1
  have hplen : p.axes.length = 1 ∨ p.axes.length = 2 := by omega
  have hllen : last.length = 1 ∨ last.length = 2 := by omega
  have hlen : p.axes.length = last.length := by omega
  -- the final check
  have fin : ∀ r : Arr K × PArray, r.2.axes.length = 1 ∨ r.2.axes.length = 2 →
      ∀ r', ((getMom r.1.shape r.2.axes).bind fun mom =>
        if mom.any (fun m => decide (m ≤ 0)) then Except.error PyErr.valueError else .ok r) = .ok r' ↔
      r' = r ∧ ∀ z ∈ r.2.axes, InRange r.1.shape.length z ∧
        2 ≤ r.1.shape.getD (wrap r.1.shape.length z) 0 := by
    intro r hr r'
    cases e : getMom r.1.shape r.2.axes with
    | error e' =>
      constructor
      · intro h; cases h
      · rintro ⟨-, h⟩
        have := (getMom_iff _ _ hr _).2 ⟨fun z hz => ⟨(h z hz).1, by have := (h z hz).2; omega⟩, rfl⟩
        rw [e] at this; cases this
    | ok m =>
      obtain ⟨k1, rfl⟩ := (getMom_iff _ _ hr _).1 e
      show (if _ then _ else _) = _ ↔ _
      split_ifs with hc
      · rw [List.any_eq_true] at hc
        obtain ⟨x, hx, hx'⟩ := hc
        obtain ⟨z, hz, rfl⟩ := List.mem_map.1 hx
        simp only [false_iff, not_and]
        intro _ h
        have := (h z hz).2
        simp only [decide_eq_true_eq] at hx'
        omega
      · rw [Except.ok.injEq]
        constructor
        · rintro rfl
          refine ⟨rfl, fun z hz => ⟨(k1 z hz).1, ?_⟩⟩
          by_contra hlt
          apply hc
          rw [List.any_eq_true]
          refine ⟨_, List.mem_map.2 ⟨z, hz, rfl⟩, ?_⟩
          simp only [decide_eq_true_eq]
          omega
        · exact fun h => h.1.symm
  have momOk : ∀ r : Arr K × PArray, (r.2.axes.length = 1 ∨ r.2.axes.length = 2) →
      (∀ z ∈ r.2.axes, InRange r.1.shape.length z ∧ 2 ≤ r.1.shape.getD (wrap r.1.shape.length z) 0) →
      ∃ m, getMom r.1.shape r.2.axes = .ok m ∧ ∀ x ∈ m, 1 ≤ x := by
    intro r hr h
    refine ⟨_, (getMom_iff _ _ hr _).2 ⟨fun z hz => ⟨(h z hz).1, by have := (h z hz).2; omega⟩, rfl⟩, ?_⟩
    intro x hx
    obtain ⟨z, hz, rfl⟩ := List.mem_map.1 hx
    have := (h z hz).2
    omega
  -- number of axes
  have hnd : (p.axes.map (wrap obj.shape.length)).Nodup → (∀ z ∈ p.axes, InRange obj.shape.length z) →
      p.ndim ≤ obj.shape.length := by
    intro h1 h2
    have hss : (p.axes.map (wrap obj.shape.length)).Subperm (List.range obj.shape.length) := by
      refine List.subperm_of_subset h1 ?_
      intro a ha
      obtain ⟨z, hz, rfl⟩ := List.mem_map.1 ha
      exact List.mem_range.2 (wrap_lt (h2 z hz))
    have := hss.length_le
    simp only [List.length_map, List.length_range] at this
    omega
  -- characterisation
  have key : ∀ r, construct obj mp ndim axes = .ok r ↔
      AxesOf obj.shape p.axes ∧ (∀ z ∈ p.axes, 2 ≤ obj.shape.getD (wrap obj.shape.length z) 0) ∧
      (if p.axes = last then r = (obj, p) else ∃ o, moveaxisOrder obj.shape.length (p.axes.map .int)
        (last.map .int) = .ok o ∧ r = (obj.transpose o, ⟨p.ndim, last⟩)) := by
    intro r
    unfold construct
    rw [hp]
    show (match getMom obj.shape p.axes with
      | .error _ => Except.error PyErr.valueError
      | .ok _ => _) = _ ↔ _
    cases eg : getMom obj.shape p.axes with
    | error e' =>
      constructor
      · intro h; cases h
      · rintro ⟨h1, h2, -⟩
        have := (getMom_iff _ _ hplen _).2 ⟨fun z hz => ⟨h1.1 z hz, by have := h2 z hz; omega⟩, rfl⟩
        rw [eg] at this; cases this
    | ok m =>
      obtain ⟨k1, -⟩ := (getMom_iff _ _ hplen _).1 eg
      simp only [hl1]
      show Except.bind (if p.axes ≠ last then _ else _) _ = _ ↔ _
      by_cases hpl : p.axes = last
      · rw [if_neg (by simpa using hpl), if_pos hpl]
        show Except.bind (getMom obj.shape p.axes) _ = _ ↔ _
        rw [fin (obj, p) hplen r]
        constructor
        · rintro ⟨rfl, h⟩
          have hn : p.ndim ≤ obj.shape.length := by
            have := (h (-p.ndim) (by
              rw [hpl]
              rcases hg1 with h1 | h1 <;> rw [h1] at hl1 ⊢ <;> simp [axesLast] at hl1 <;>
                simp [← hl1])).1
            unfold InRange at this
            simp only at this
            omega
          exact ⟨⟨fun z hz => (h z hz).1, by rw [hpl]; exact (hl3 _ hn).2⟩, fun z hz => (h z hz).2, rfl⟩
        · rintro ⟨h1, h2, rfl⟩
          exact ⟨rfl, fun z hz => ⟨h1.1 z hz, h2 z hz⟩⟩
      · rw [if_pos hpl, if_neg hpl]
        cases em : moveaxisOrder obj.shape.length (p.axes.map .int) (last.map .int) with
        | error e' =>
          constructor
          · intro h; cases h
          · rintro ⟨-, -, o, h, -⟩; cases h
        | ok o =>
          obtain ⟨-, c2, c3, c4, c5, c6⟩ := (C37_moveaxis_order _ _ _ _).1 em
          show Except.bind (getMom (obj.transpose o).shape last) _ = _ ↔ _
          have hol : (obj.transpose o).shape.length = obj.shape.length := by
            simp [Arr.transpose, c6.perm.length_eq]
          have hext := moved_extents hlen c6 (fun ax => obj.shape.getD ax 0)
          rw [fin (obj.transpose o, ⟨p.ndim, last⟩) hllen r]
          simp only [hol]
          have hiff : (∀ z ∈ last, 2 ≤ (obj.transpose o).shape.getD (wrap obj.shape.length z) 0) ↔
              ∀ z ∈ p.axes, 2 ≤ obj.shape.getD (wrap obj.shape.length z) 0 := by
            have a1 : (∀ z ∈ last, 2 ≤ (obj.transpose o).shape.getD (wrap obj.shape.length z) 0) ↔
                ∀ x ∈ last.map (fun z => (o.map (fun ax => obj.shape.getD ax 0)).getD
                  (wrap obj.shape.length z) 0), 2 ≤ x := by
              rw [List.forall_mem_map]; rfl
            have a2 : (∀ z ∈ p.axes, 2 ≤ obj.shape.getD (wrap obj.shape.length z) 0) ↔
                ∀ x ∈ p.axes.map (fun z => obj.shape.getD (wrap obj.shape.length z) 0), 2 ≤ x := by
              rw [List.forall_mem_map]
            rw [a1, a2, hext]
          constructor
          · rintro ⟨rfl, h⟩
            exact ⟨⟨c2, c4⟩, hiff.1 (fun z hz => (h z hz).2), o, rfl, rfl⟩
          · rintro ⟨-, h2, o', ho', rfl⟩
            simp only [Except.ok.injEq] at ho'
            subst ho'
            exact ⟨rfl, fun z hz => ⟨c3 z hz, hiff.2 h2 z hz⟩⟩
  refine ⟨⟨?_, ?_⟩, ?_⟩
  · rintro ⟨r, hr⟩
    obtain ⟨h1, h2, -⟩ := (key r).1 hr
    exact ⟨h1, h2⟩
  · rintro ⟨h1, h2⟩
    by_cases hpl : p.axes = last
    · exact ⟨(obj, p), (key _).2 ⟨h1, h2, by rw [if_pos hpl]⟩⟩
    · have hn := hnd h1.2 h1.1
      obtain ⟨o, ho⟩ := C37_defined obj.shape.length p.axes last hlen h1.1 (hl3 _ hn).1 h1.2 (hl3 _ hn).2
      exact ⟨_, (key _).2 ⟨h1, h2, by rw [if_neg hpl]; exact ⟨o, ho, rfl⟩⟩⟩
  · intro r hr
    obtain ⟨h1, h2, h3⟩ := (key r).1 hr
    by_cases hpl : p.axes = last
    · rw [if_pos hpl] at h3
      subst h3
      exact ⟨rfl, by rw [hl1, hpl], List.Perm.refl _,
        momOk (obj, p) hplen (fun z hz => ⟨h1.1 z hz, h2 z hz⟩), rfl⟩
    · rw [if_neg hpl] at h3
      obtain ⟨o, ho, rfl⟩ := h3
      obtain ⟨-, c2, c3, c4, c5, c6⟩ := (C37_moveaxis_order _ _ _ _).1 ho
      have hol : (obj.transpose o).shape.length = obj.shape.length := by
        simp [Arr.transpose, c6.perm.length_eq]
      have hext := moved_extents hlen c6 (fun ax => obj.shape.getD ax 0)
      refine ⟨rfl, hl1, ?_, ?_, ?_⟩
      · have := c6.perm.map (fun ax => obj.shape.getD ax 0)
        refine this.trans ?_
        rw [show (List.range obj.shape.length).map (fun ax => obj.shape.getD ax 0) = obj.shape from ?_]
        apply List.ext_getElem
        · simp
        · intro k a b
          simp [List.getD_eq_getElem?_getD, List.getElem?_eq_getElem b]
      · refine momOk (obj.transpose o, ⟨p.ndim, last⟩) hllen ?_
        intro z hz
        simp only [hol]
        refine ⟨c3 z hz, ?_⟩
        have hm : (obj.transpose o).shape.getD (wrap obj.shape.length z) 0 ∈
            last.map (fun z => (o.map (fun ax => obj.shape.getD ax 0)).getD
                  (wrap obj.shape.length z) 0) := List.mem_map.2 ⟨z, hz, rfl⟩
        rw [hext] at hm
        obtain ⟨z', hz', e'⟩ := List.mem_map.1 hm
        rw [← e']
        exact h2 z' hz'
      · simp only [hol]
        exact hext

example : factory (.absent : Input PArray ℕ) (some 2) (some (.seq [0, 1])) (some 1) =
      .ok ⟨2, [0, 1]⟩ ∧ GoodParams ⟨2, [0, 1]⟩ ∧
    (construct (⟨[3, 2, 7], fun i => i 0⟩ : Arr ℕ) (.absent : Input PArray ℕ) (some 2)
      (some (.seq [0, 1]))).map (fun r => (r.1.shape, r.2)) = .ok ([7, 3, 2], ⟨2, [-2, -1]⟩) ∧
    (construct (⟨[3, 1, 7], fun i => i 0⟩ : Arr ℕ) (.absent : Input PArray ℕ) (some 2)
      (some (.seq [0, 1]))).map (fun r => (r.1.shape, r.2)) = .error .valueError :=
  ⟨by decide, ⟨.inr rfl, rfl⟩, by decide +kernel, by decide +kernel⟩

/-- **C48.** Built without a ready-made parameter object, the hypothesis of `C48_construct` holds, so
nothing but good parameters gets through. -/
theorem C48_factory_good {δ : Type} (ndim : Option ℤ) (axes : Option IntArg)
    (n : Option (Option ℤ)) (a : Option (Option IntArg)) (d : Option (Option δ)) (p : PArray)
    (h : factory (.absent : Input PArray δ) ndim axes (some 1) = .ok p ∨
      factory (.dict n a d) ndim axes (some 1) = .ok p) : GoodParams p := by
  have hd : ∀ d : ℤ, (some 1 : Option ℤ) = some d → d = 1 ∨ d = 2 := by
    intro d h; left; exact (Option.some.inj h).symm
  rcases h with h | h
  · exact ((C48_from_params _ _ _ hd p).1 h).1
  · exact ((C48_from_params _ _ _ hd p).1 h).1

/-- **C48, finding.** The functional interface does not make this check: an array whose moment axis
has a single entry passes validation and normalisation, and the kernel of order zero then touches
entry one, outside the array. -/
theorem C48_order_zero_reaches_kernel {K : Type} [Field K] [DecidableEq K] [CharZero K] :
    fromParams none none (some 1) = .ok ⟨1, [-1]⟩ ∧
    (∀ n : ℕ, 1 ≤ n → normalizeAxes ([(-1 : ℤ)].map .int) n none false = .ok [n - 1]) ∧
    (∀ pre : List ℕ, getMom (pre ++ [1]) [-1] = .ok [0]) ∧
    ∃ data out r : Mom K, pushData 0 data out = some r ∧ r 1 ≠ out 1 := by
  refine ⟨by decide, ?_, ?_, ?_⟩
  · intro n hn
    have hw : wrap n (-1) = n - 1 := by
      unfold wrap
      rw [← Int.add_emod_right, Int.emod_eq_of_lt (by omega) (by omega)]
      omega
    refine (normalizeAxes_int_ok_iff _ _ _ _ _).2 ⟨?_, by simp [hw], .inr (by simp)⟩
    intro z hz
    rw [List.mem_singleton.1 hz]
    exact ⟨by omega, by omega⟩
  · intro pre
    have hw : wrap (pre ++ [1]).length (-1) = pre.length := by
      unfold wrap
      rw [← Int.add_emod_right, Int.emod_eq_of_lt (by simp) (by simp)]
      simp
    refine (getMom_iff _ _ (.inl rfl) _).2 ⟨?_, by rw [List.map_singleton, hw]; simp⟩
    intro z hz
    rw [List.mem_singleton.1 hz, hw]
    refine ⟨⟨by simp, by simp; omega⟩, by simp⟩
  · simp only [pushData, pushDataBody]
    refine ⟨fun _ => 1, fun _ => 0, _, by simp; rfl, ?_⟩
    simp [Function.update, rangeDown]

/-- **C48, labelled arrays.** Accepted names are one or two, as many as moment dimensions; a given
number of dimensions and given names are kept, and the number of given axes must agree. -/
theorem C48_mom_dims {δ : Type} (mom0 mom1 : δ) (dims : Option (DimsArg δ)) (ndim : Option ℤ)
    (out : OutDims δ) (dflt : Option ℤ) (axes : Option IntArg) (ds : List δ) (n : ℤ)
    (h : validateMomDimsAndMomNdim mom0 mom1 dims ndim out dflt axes = .ok (ds, n)) :
    (n = 1 ∨ n = 2) ∧ (ds.length : ℤ) = n ∧ (∀ k, ndim = some k → n = k) ∧
    (∀ a, axes = some a → (a.tuple.length : ℤ) = n) ∧
    (∀ l, dims = some (.seq l) → ds = l) ∧ (∀ d, dims = some (.str d) → ds = [d]) := by
  have mapM_len : ∀ (l : List δ) (ax : List ℤ) (r : List δ),
      ax.mapM (fun a => pyGet l a) = .ok r → r.length = ax.length := by
    intro l ax r h
    have := congrArg List.length ((mapM_ok_iff _ _ _).1 h)
    simpa using this.symm
  have vdims : ∀ (dims : Option (DimsArg δ)) (n : ℤ) (ax : List ℤ) (ds : List δ),
      (n = 1 ∨ n = 2) → (ax.length : ℤ) = n →
      validateMomDims mom0 mom1 dims n out (some ax) = .ok ds →
      (ds.length : ℤ) = n ∧ (∀ l, dims = some (.seq l) → ds = l) ∧
        (∀ d, dims = some (.str d) → ds = [d]) := by
    intro dims n ax ds hn hax h
    unfold validateMomDims at h
    match dims with
    | none =>
      cases out with
      | none =>
        simp only [Except.ok.injEq] at h
        refine ⟨?_, by simp, by simp⟩
        rcases hn with rfl | rfl <;> simp [← h]
      | some l =>
        simp only [Option.getD_some] at h
        exact ⟨by rw [mapM_len _ _ _ h]; exact hax, by simp, by simp⟩
    | some (.str d) =>
      simp only at h
      split_ifs at h with hc
      simp only [Except.ok.injEq] at h
      subst h
      refine ⟨by simpa using hc, by simp, ?_⟩
      intro d' h'
      simp only [Option.some.injEq, DimsArg.str.injEq] at h'
      rw [h']
    | some (.seq l) =>
      simp only at h
      split_ifs at h with hc
      simp only [Except.ok.injEq] at h
      subst h
      refine ⟨by simpa using hc, ?_, by simp⟩
      intro d' h'
      simp only [Option.some.injEq, DimsArg.seq.injEq] at h'
      exact h'
    | some (.other _) => cases h
  have na : ∀ (ndim : Option ℤ) (axes : Option IntArg) (n : ℤ) (ax : List ℤ),
      validateMomNdimAndMomAxes ndim axes none = .ok (n, ax) →
      (n = 1 ∨ n = 2) ∧ (ax.length : ℤ) = n ∧ (∀ k, ndim = some k → n = k) ∧
      (∀ a, axes = some a → (a.tuple.length : ℤ) = n) := by
    intro ndim axes n ax h
    unfold validateMomNdimAndMomAxes at h
    cases axes with
    | none =>
      simp only [validateMomNdim] at h
      by_cases hn : ndim = some 1 ∨ ndim = some 2
      · rw [if_pos hn] at h
        rcases hn with rfl | rfl <;>
        · simp only [Except.map, Option.getD_some, Except.ok.injEq, Prod.mk.injEq] at h
          obtain ⟨rfl, rfl⟩ := h
          refine ⟨by simp, by simp, ?_, by simp⟩
          intro k hk
          exact Option.some.inj hk
      · rw [if_neg hn] at h
        cases ndim <;> cases h
    | some a =>
      simp only at h
      cases ea : validateMomAxes a with
      | error e' => rw [ea] at h; cases h
      | ok l =>
        rw [ea] at h
        simp only [Except.bind] at h
        have hl : l = a.tuple ∧ (l.length = 1 ∨ l.length = 2) := by
          cases a with
          | int z =>
            simp only [validateMomAxes, Except.ok.injEq] at ea
            subst ea
            exact ⟨rfl, .inl rfl⟩
          | seq l' =>
            simp only [validateMomAxes] at ea
            split_ifs at ea with hc
            simp only [Except.ok.injEq] at ea
            subst ea
            exact ⟨rfl, hc⟩
        obtain ⟨rfl, hl⟩ := hl
        cases ndim with
        | none =>
          simp only [Except.ok.injEq, Prod.mk.injEq] at h
          obtain ⟨rfl, rfl⟩ := h
          refine ⟨by omega, rfl, by simp, ?_⟩
          intro a' ha'
          rw [← Option.some.inj ha']
        | some k =>
          simp only at h
          split_ifs at h with hc
          simp only [Except.ok.injEq, Prod.mk.injEq] at h
          obtain ⟨rfl, rfl⟩ := h
          simp only [ne_eq, not_not] at hc
          refine ⟨by omega, hc, ?_, ?_⟩
          · intro k' hk'
            exact Option.some.inj hk'
          · intro a' ha'
            rw [← Option.some.inj ha']
            exact hc
  have vnd : ∀ (k m : ℤ), validateMomNdim (some k) none = .ok m → (m = 1 ∨ m = 2) ∧ m = k := by
    intro k m h
    unfold validateMomNdim at h
    by_cases hn : some k = some (1 : ℤ) ∨ some k = some (2 : ℤ)
    · rw [if_pos hn] at h
      simp only [Option.getD_some, Except.ok.injEq] at h
      subst h
      simp only [Option.some.injEq] at hn
      exact ⟨hn, rfl⟩
    · rw [if_neg hn] at h; cases h
  unfold validateMomDimsAndMomNdim at h
  split_ifs at h with hc
  · cases ena : validateMomNdimAndMomAxes ndim axes none with
    | error e' => rw [ena] at h; cases h
    | ok r =>
      obtain ⟨n', ax⟩ := r
      rw [ena] at h
      simp only [Except.bind] at h
      cases evd : validateMomDims mom0 mom1 dims n' out (some ax) with
      | error e' => rw [evd] at h; cases h
      | ok ds' =>
        rw [evd] at h
        simp only [Except.map, Except.ok.injEq, Prod.mk.injEq] at h
        obtain ⟨rfl, rfl⟩ := h
        obtain ⟨a1, a2, a3, a4⟩ := na _ _ _ _ ena
        obtain ⟨b1, b2, b3⟩ := vdims _ _ _ _ a1 a2 evd
        exact ⟨a1, b1, a3, a4, b2, b3⟩
  · simp only [not_or, Option.not_isSome_iff_eq_none] at hc
    obtain ⟨rfl, rfl⟩ := hc
    cases dims with
    | some d =>
      simp only at h
      refine ⟨?_, ?_, by simp, by simp, ?_, ?_⟩
      all_goals
        unfold dimsAlone at h
        match d with
        | .str d =>
          simp only [Except.ok.injEq, Prod.mk.injEq] at h
          obtain ⟨rfl, rfl⟩ := h
          simp
        | .seq l =>
          simp only at h
          cases e : validateMomNdim (some (l.length : ℤ)) none with
          | error e' => rw [e] at h; cases h
          | ok m =>
            rw [e] at h
            simp only [Except.map, Except.ok.injEq, Prod.mk.injEq] at h
            obtain ⟨rfl, rfl⟩ := h
            have := vnd _ _ e
            first
            | exact this.1
            | simp [this]
        | .other (some l) =>
          simp only at h
          cases e : validateMomNdim (some (l.length : ℤ)) none with
          | error e' => rw [e] at h; cases h
          | ok m =>
            rw [e] at h
            simp only [Except.map, Except.ok.injEq, Prod.mk.injEq] at h
            obtain ⟨rfl, rfl⟩ := h
            have := vnd _ _ e
            first
            | exact this.1
            | simp [this]
        | .other none => cases h
    | none =>
      cases dflt with
      | none => cases h
      | some k =>
        simp only at h
        cases ena : validateMomNdimAndMomAxes (some k) none none with
        | error e' => rw [ena] at h; cases h
        | ok r =>
          obtain ⟨n', ax⟩ := r
          rw [ena] at h
          simp only [Except.bind] at h
          cases evd : validateMomDims mom0 mom1 none n' out (some ax) with
          | error e' => rw [evd] at h; cases h
          | ok ds' =>
            rw [evd] at h
            simp only [Except.map, Except.ok.injEq, Prod.mk.injEq] at h
            obtain ⟨rfl, rfl⟩ := h
            obtain ⟨a1, a2, -, -⟩ := na _ _ _ _ ena
            obtain ⟨b1, -, -⟩ := vdims _ _ _ _ a1 a2 evd
            exact ⟨a1, b1, by simp, by simp, by simp, by simp⟩

example : validateMomDimsAndMomNdim "mom_0" "mom_1" none none (some ["x", "u", "v"]) (some 1)
      (some (.seq [1, 2])) = .ok (["u", "v"], 2) ∧
    validateMomDimsAndMomNdim "mom_0" "mom_1" none none none (some 1) none = .ok (["mom_0"], 1) := by
  decide

/-- **C48, labelled arrays.** Without given names: without an array they are `mom_0` (and `mom_1`, in
this order); with an array they are the names it has on the moment axes, by default its last
ones. -/
theorem C48_default_dims {δ : Type} (mom0 mom1 : δ) (ndim : Option ℤ) (out : OutDims δ)
    (dflt : Option ℤ) (axes : Option IntArg) (ds : List δ) (n : ℤ)
    (h : validateMomDimsAndMomNdim mom0 mom1 none ndim out dflt axes = .ok (ds, n)) :
    (out = none → ds = [mom0, mom1].take n.toNat) ∧
    (∀ l a, out = some l → axes = some a →
      ds.map some = a.tuple.map (fun z => l[wrap l.length z]?)) ∧
    (∀ l, out = some l → axes = none → ds = l.drop (l.length - n.toNat) ∧ n ≤ l.length) := by
  have hn := (C48_mom_dims mom0 mom1 none ndim out dflt axes ds n h).1
  have hget : ∀ (l : List δ) (z : ℤ) (x : δ), pyGet l z = .ok x →
      InRange l.length z ∧ l[wrap l.length z]? = some x := by
    intro l z x hx
    unfold pyGet at hx
    simp only at hx
    split_ifs at hx with h1 h2 h3
    · cases e : l[(z + (l.length : ℤ)).toNat]? with
      | none => rw [e] at hx; cases hx
      | some y =>
        rw [e] at hx
        cases hx
        have hlt := (List.getElem?_eq_some_iff.1 e).1
        have : wrap l.length z = (z + (l.length : ℤ)).toNat := by
          unfold wrap
          rw [← Int.add_emod_right, Int.emod_eq_of_lt (by omega) (by omega)]
        exact ⟨by unfold InRange; omega, by rw [this]; exact e⟩
    · cases e : l[z.toNat]? with
      | none => rw [e] at hx; cases hx
      | some y =>
        rw [e] at hx
        cases hx
        have hlt := (List.getElem?_eq_some_iff.1 e).1
        have : wrap l.length z = z.toNat := by
          unfold wrap
          rw [Int.emod_eq_of_lt (by omega) (by omega)]
        exact ⟨by unfold InRange; omega, by rw [this]; exact e⟩
  obtain ⟨m, ax, e1, e2⟩ : ∃ m ax, validateMomNdimAndMomAxes m axes none = .ok (n, ax) ∧
      validateMomDims mom0 mom1 none n out (some ax) = .ok ds := by
    have key : ∀ m, (validateMomNdimAndMomAxes m axes none).bind (fun na =>
        (validateMomDims mom0 mom1 none na.1 out (some na.2)).map fun ds => (ds, na.1))
        = .ok (ds, n) → ∃ m ax, validateMomNdimAndMomAxes m axes none = .ok (n, ax) ∧
      validateMomDims mom0 mom1 none n out (some ax) = .ok ds := by
      intro m h
      cases ena : validateMomNdimAndMomAxes m axes none with
      | error e' => rw [ena] at h; cases h
      | ok r =>
        obtain ⟨n', ax⟩ := r
        rw [ena] at h
        simp only [Except.bind] at h
        cases evd : validateMomDims mom0 mom1 none n' out (some ax) with
        | error e' => rw [evd] at h; cases h
        | ok ds' =>
          rw [evd] at h
          simp only [Except.map, Except.ok.injEq, Prod.mk.injEq] at h
          obtain ⟨rfl, rfl⟩ := h
          exact ⟨m, ax, ena, evd⟩
    unfold validateMomDimsAndMomNdim at h
    split_ifs at h with hc
    · exact key _ h
    · simp only [not_or, Option.not_isSome_iff_eq_none] at hc
      obtain ⟨rfl, rfl⟩ := hc
      cases dflt with
      | none => cases h
      | some k => exact key _ h
  refine ⟨?_, ?_, ?_⟩
  · rintro rfl
    simp only [validateMomDims, Except.ok.injEq] at e2
    subst e2
    rcases hn with rfl | rfl <;> rfl
  · rintro l a rfl rfl
    have hax : ax = a.tuple := by
      unfold validateMomNdimAndMomAxes at e1
      cases a with
      | int z =>
        simp only [validateMomAxes, Except.bind] at e1
        cases m with
        | none => cases e1; rfl
        | some k =>
          simp only at e1
          split_ifs at e1
          cases e1; rfl
      | seq l' =>
        simp only [validateMomAxes] at e1
        split_ifs at e1
        · simp only [Except.bind] at e1
          cases m with
          | none => cases e1; rfl
          | some k =>
            simp only at e1
            split_ifs at e1
            cases e1; rfl
        · cases e1
    subst hax
    simp only [validateMomDims, Option.getD_some] at e2
    have e3 := (mapM_ok_iff _ _ _).1 e2
    refine List.ext_getElem (by simpa using (congrArg List.length e3).symm) fun p h1 h2 => ?_
    simp only [List.length_map] at h1 h2
    have := List.getElem_of_eq e3 (by simpa using h2 : p < _)
    rw [List.getElem_map, List.getElem_map] at this
    rw [List.getElem_map, List.getElem_map]
    exact (hget _ _ _ this).2.symm
  · rintro l rfl rfl
    simp only [validateMomNdimAndMomAxes] at e1
    cases e : validateMomNdim m none with
    | error e' => rw [e] at e1; cases e1
    | ok k =>
      rw [e] at e1
      simp only [Except.map, Except.ok.injEq, Prod.mk.injEq] at e1
      obtain ⟨rfl, rfl⟩ := e1
      simp only [validateMomDims, Option.getD_some] at e2
      have e3 := (mapM_ok_iff _ _ _).1 e2
      have hlen := congrArg List.length e3
      simp only [List.length_map, List.length_range] at hlen
      have hx : ∀ p, (hp : p < k.toNat) → InRange l.length (-k + p) ∧
          l[wrap l.length (-k + p)]? = ds[p]? := by
        intro p hp
        have := List.getElem_of_eq e3 (by simpa using hp : p < _)
        simp only [List.getElem_map, List.getElem_range] at this
        have hg := hget _ _ _ this
        rw [List.getElem?_eq_getElem (by omega : p < ds.length)]
        exact hg
      have hk : k ≤ l.length := by
        have := (hx 0 (by omega)).1
        unfold InRange at this
        simp only [Nat.cast_zero, add_zero] at this
        omega
      refine ⟨?_, hk⟩
      refine List.ext_getElem? fun p => ?_
      rw [List.getElem?_drop]
      by_cases hp : p < k.toNat
      · rw [← (hx p hp).2]
        congr 1
        unfold wrap
        rw [← Int.add_emod_right, Int.emod_eq_of_lt (by omega) (by omega)]
        omega
      · rw [List.getElem?_eq_none (by omega), List.getElem?_eq_none (by omega)]

example := C48_default_dims "mom_0" "mom_1" (some 2) none none none ["mom_0", "mom_1"] 2 (by decide)
example := C48_default_dims "mom_0" "mom_1" none (some ["x", "u", "v"]) (some 2) none ["u", "v"] 2
  (by decide)

/-- **C48, finding.** Repeated names and names the array does not have are not noticed. -/
theorem C48_dims_unchecked {δ : Type} (mom0 mom1 a b : δ) (out : OutDims δ) (dflt : Option ℤ) :
    validateMomDimsAndMomNdim mom0 mom1 (some (.seq [a, b])) none out dflt none = .ok ([a, b], 2) := by
  simp [validateMomDimsAndMomNdim, dimsAlone, validateMomNdim, Except.map]

end Cmomy
