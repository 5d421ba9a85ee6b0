import Verif.Lemmas.SelectAlong

/-!
# C85: operations along one dimension leave the others apart

Selecting along some dimensions before an operation along another one gives the same as selecting from its result.
-/

namespace Cmomy

open Labelled Spec ExDim
open Nd (core1 core1_ok)

variable {δ : Type} [DecidableEq δ] {moms : List δ} {d : δ} {sel : List (δ × Sel)} {pos : δ → List ℕ}

section

variable {K V M : Type} [Field K] [DecidableEq K] {core : Nd.Core K M} {obj : DataArray δ K}

omit [Field K] [DecidableEq K] in
theorem shows_same {α : Type} {x : DataArray δ α} {dims : List δ} {w : DataArray δ (Option K)}
    {F : (δ → ℕ) → Option K} (h : ShowsNamed w dims x.size F) :
    ShowsNamed w (renamed dims d d) (sizesWith x d (x.size d)) F := by
  have e : sizesWith x d (x.size d) = x.size := funext fun e => by
    unfold sizesWith
    split_ifs with h
    · rw [h]
    · rfl
  have e' : renamed dims d d = dims := by
    unfold renamed
    conv_rhs => rw [← List.map_id dims]
    refine List.map_congr_left fun e _ => ?_
    split_ifs with h
    · rw [h]
      rfl
    · rfl
  rw [e', e]
  exact h

/-- **C85** `cumulative` -/
theorem C85_cumulative (hc : core.Ok) (k : Kernel K V M) (inverse : Bool) (g : GoodNamed obj moms d)
    (hm : moms.length = core.nd) (h2 : ∀ e ∈ moms, 2 ≤ obj.size e) (gs : SelectsAside obj moms d sel pos)
    (axesToEnd : Bool) :
    ∃ y z w v, iselX moms obj sel = .ok y ∧
      cumulativeX core k inverse y moms none (some (some d)) axesToEnd = .ok z ∧
      cumulativeX core k inverse obj moms none (some (some d)) axesToEnd = .ok w ∧ iselX moms w sel = .ok v ∧
      z.dims = v.dims ∧ AgreeNamed z v :=
  isel_along (op := fun x => cumulativeX core k inverse x moms none (some (some d)) axesToEnd) g hm h2 gs (.inl rfl)
    (n := obj.size d) (axesToEnd := axesToEnd)
    (R := fun rs p ms => (((if inverse then k.cumulativeInverse else k.cumulative) rs).bind (fun rows => rows[p]?)).map
      (fun r => core.ent r ms))
    fun x gx hs _ _ => by
      obtain ⟨w, e, h⟩ := C57_cumulative hc k inverse gx hm (axis := none) (.inl ⟨rfl, rfl⟩) axesToEnd
      exact ⟨w, e, hs ▸ shows_same h⟩

/-- **C85** `resample_data` with given counts. -/
theorem C85_resample (hc : core.Ok) (k : Kernel K V M) (freq : List (List K)) (g : GoodNamed obj moms d)
    (hm : moms.length = core.nd) (h2 : ∀ e ∈ moms, 2 ≤ obj.size e) (gs : SelectsAside obj moms d sel pos) {rep : δ}
    (hrep : rep ∉ obj.dims) (axesToEnd : Bool) :
    ∃ y z w v, iselX moms obj sel = .ok y ∧
      resampleX core k freq (obj.size d) y moms none (some (some d)) rep axesToEnd = .ok z ∧
      resampleX core k freq (obj.size d) obj moms none (some (some d)) rep axesToEnd = .ok w ∧ iselX moms w sel = .ok v ∧
      z.dims = v.dims ∧ AgreeNamed z v :=
  isel_along (op := fun x => resampleX core k freq (obj.size d) x moms none (some (some d)) rep axesToEnd) g hm h2 gs
    (.inr hrep) (n := freq.length) (axesToEnd := axesToEnd)
    (R := fun rs p ms => ((k.resampleData freq rs)[p]?).join.map (fun r => core.ent r ms))
    fun _ gx hs hx _ =>
      (C57_resample_data hc k freq (obj.size d) gx (fun h => hrep (hx _ h)) hm (axis := none) (.inl ⟨rfl, rfl⟩) axesToEnd).2 hs.symm

/-- **C85** `jackknife_data` -/
theorem C85_jackknife (hc : core.Ok) (k : Kernel K V M) (g : GoodNamed obj moms d)
    (hm : moms.length = core.nd) (h2 : ∀ e ∈ moms, 2 ≤ obj.size e) (gs : SelectsAside obj moms d sel pos)
    (hne : ∀ e ∈ obj.dims, e ≠ d → obj.size e ≠ 0) (hpos : ∀ p ∈ sel, pos p.1 ≠ []) {rep : Option δ}
    (hrep : ∀ n, rep = some n → n = d ∨ n ∉ obj.dims) (axesToEnd : Bool) :
    ∃ y z w v, iselX moms obj sel = .ok y ∧
      jackknifeX core k y moms none (some (some d)) rep axesToEnd = .ok z ∧
      jackknifeX core k obj moms none (some (some d)) rep axesToEnd = .ok w ∧ iselX moms w sel = .ok v ∧
      z.dims = v.dims ∧ AgreeNamed z v :=
  isel_along (op := fun x => jackknifeX core k x moms none (some (some d)) rep axesToEnd) g hm h2 gs (rep := rep.getD d)
    (by cases rep with
      | none => exact .inl rfl
      | some n => exact hrep n rfl) (n := obj.size d) (axesToEnd := axesToEnd)
    (R := fun rs p ms => ((k.jackknifeData rs).bind (fun rows => (rows[p]?).join)).map (fun r => core.ent r ms))
    fun x gx hs hx hz => by
      rw [← hs]
      refine C57_jackknife_data hc k gx (fun e he hd => ?_) hm (axis := none) (.inl ⟨rfl, rfl⟩) rep
        (fun n hn => (hrep n hn).imp id fun h h' => h (hx _ h')) axesToEnd
      rcases hz with rfl | hz
      · exact hne e he hd
      · rw [hz e he]
        split_ifs with h
        · obtain ⟨p, hp, rfl⟩ := List.mem_map.1 h
          simpa using hpos p hp
        · exact hne e (hx e he) hd

/-- **C85** `reduce_data_grouped` -/
theorem C85_grouped (hc : core.Ok) (k : Kernel K V M) {by_ : List ℤ} {m : ℤ} (hl : by_.length = obj.size d)
    (hmax : by_.max? = some m) (hlow : -1 ≤ m) (g : GoodNamed obj moms d) (hm : moms.length = core.nd)
    (h2 : ∀ e ∈ moms, 2 ≤ obj.size e) (gs : SelectsAside obj moms d sel pos) {group : Option δ}
    (hgr : ∀ n, group = some n → n = d ∨ n ∉ obj.dims) (axesToEnd : Bool) :
    ∃ y z w v, iselX moms obj sel = .ok y ∧
      groupedX core k by_ y moms none (some (some d)) group axesToEnd = .ok z ∧
      groupedX core k by_ obj moms none (some (some d)) group axesToEnd = .ok w ∧ iselX moms w sel = .ok v ∧
      z.dims = v.dims ∧ AgreeNamed z v :=
  isel_along (op := fun x => groupedX core k by_ x moms none (some (some d)) group axesToEnd) g hm h2 gs
    (rep := group.getD d)
    (by cases group with
      | none => exact .inl rfl
      | some n => exact hgr n rfl) (n := (m + 1).toNat) (axesToEnd := axesToEnd)
    (R := fun rs p ms => (match k.reduceDataGrouped rs by_ none with
            | .ok rows => (rows[p]?).join
            | .error _ => none).map (fun r => core.ent r ms))
    fun _ gx hs hx _ => (C57_grouped hc k by_ gx hm (axis := none) (.inl ⟨rfl, rfl⟩) group
        (fun n hn => (hgr n hn).imp id fun h h' => h (hx _ h')) axesToEnd).2 m (hl.trans hs.symm) hmax hlow

/-- **C85** `reduce_data_indexed` -/
theorem C85_indexed (hc : core.Ok) (k : Kernel K V M) {index start stop : List ℤ} {scale : Option (List K)}
    (hv : Indexed.validateIndex (obj.size d) index start stop = .ok ())
    (hsc : ∀ sc, scale = some sc → sc.length = index.length) (g : GoodNamed obj moms d) (hm : moms.length = core.nd)
    (h2 : ∀ e ∈ moms, 2 ≤ obj.size e) (gs : SelectsAside obj moms d sel pos) {group : Option δ}
    (hgr : ∀ n, group = some n → n = d ∨ n ∉ obj.dims) (axesToEnd : Bool) :
    ∃ y z w v, iselX moms obj sel = .ok y ∧
      indexedX core k index start stop scale y moms none (some (some d)) group axesToEnd = .ok z ∧
      indexedX core k index start stop scale obj moms none (some (some d)) group axesToEnd = .ok w ∧
      iselX moms w sel = .ok v ∧ z.dims = v.dims ∧ AgreeNamed z v :=
  isel_along (op := fun x => indexedX core k index start stop scale x moms none (some (some d)) group axesToEnd) g hm h2 gs
    (rep := group.getD d)
    (by cases group with
      | none => exact .inl rfl
      | some n => exact hgr n rfl) (n := start.length) (axesToEnd := axesToEnd)
    (R := fun rs p ms => (match Indexed.reduceDataIndexed k rs index start stop scale with
            | .ok rows => (rows[p]?).join
            | .error _ => none).map (fun r => core.ent r ms))
    fun _ gx hs hx _ => (C57_indexed hc k index start stop scale gx hm (axis := none) (.inl ⟨rfl, rfl⟩) group
        (fun n hn => (hgr n hn).imp id fun h h' => h (hx _ h')) axesToEnd).2 (hs ▸ hv) hsc

end

section Ordered

variable {K V M : Type} [Field K] [LinearOrder K] [IsStrictOrderedRing K] {core : Nd.Core K M} {obj : DataArray δ K}

/-- **C85** `rolling_data` -/
theorem C85_rolling (hc : core.Ok) (k : Kernel K V M) (hz : core.recd (fun _ => 0) = k.zero) (window : ℕ)
    (minPeriods : Option ℤ) (center zeroMissing : Bool) (g : GoodNamed obj moms d) (hm : moms.length = core.nd)
    (h2 : ∀ e ∈ moms, 2 ≤ obj.size e) (gs : SelectsAside obj moms d sel pos) (axesToEnd : Bool) :
    ∃ y z w v, iselX moms obj sel = .ok y ∧
      rollingX core k window minPeriods center zeroMissing y moms none (some (some d)) axesToEnd = .ok z ∧
      rollingX core k window minPeriods center zeroMissing obj moms none (some (some d)) axesToEnd = .ok w ∧
      iselX moms w sel = .ok v ∧ z.dims = v.dims ∧ AgreeNamed z v :=
  isel_along (op := fun x => rollingX core k window minPeriods center zeroMissing x moms none (some (some d)) axesToEnd)
    g hm h2 gs (.inl rfl) (n := obj.size d) (axesToEnd := axesToEnd)
    (R := fun rs p ms =>
      let row := ((k.rollingData window minPeriods center rs).bind (fun rows => (rows[p]?).join)).map (fun r => core.ent r ms)
      if zeroMissing = true ∧ (∀ v ∈ ms, v = 0) ∧ row = none then some 0 else row)
    fun x gx hs _ _ => by
      obtain ⟨w, e, h⟩ := C57_rolling_data hc k hz window minPeriods center zeroMissing gx hm (axis := none)
        (.inl ⟨rfl, rfl⟩) axesToEnd
      exact ⟨w, e, hs ▸ shows_same h⟩

/-- **C85** `rolling_exp_data` where `alpha` is a number or one number for each position. -/
theorem C85_rolling_exp (hc : core.Ok) (k : Kernel K V M) {alpha : K ⊕ List K}
    (ha : ∀ l, alpha = .inr l → l.length = obj.size d) (adjust : Bool) (minPeriods : Option ℤ) (zeroMissing : Bool)
    (g : GoodNamed obj moms d) (hm : moms.length = core.nd) (h2 : ∀ e ∈ moms, 2 ≤ obj.size e)
    (gs : SelectsAside obj moms d sel pos) (axesToEnd : Bool) :
    ∃ y z w v, iselX moms obj sel = .ok y ∧
      rollingExpPlainX core k alpha adjust minPeriods zeroMissing y moms none (some (some d)) axesToEnd = .ok z ∧
      rollingExpPlainX core k alpha adjust minPeriods zeroMissing obj moms none (some (some d)) axesToEnd = .ok w ∧
      iselX moms w sel = .ok v ∧ z.dims = v.dims ∧ AgreeNamed z v :=
  isel_along
    (op := fun x => rollingExpPlainX core k alpha adjust minPeriods zeroMissing x moms none (some (some d)) axesToEnd)
    g hm h2 gs (.inl rfl) (n := obj.size d) (axesToEnd := axesToEnd)
    (R := fun rs p ms =>
      let row := ((k.rollingExpData adjust minPeriods (alpha.elim (fun a => List.replicate (obj.size d) a) id) rs).bind
        (fun rows => (rows[p]?).join)).map (fun r => core.ent r ms)
      if zeroMissing = true ∧ (∀ v ∈ ms, v = 0) ∧ row = none then some 0 else row)
    fun x gx hs _ _ => by
      obtain ⟨w, e, h⟩ := (C57_rolling_exp_plain hc k alpha adjust minPeriods zeroMissing gx hm (axis := none)
        (.inl ⟨rfl, rfl⟩) axesToEnd).2 (fun l hl => (ha l hl).trans hs.symm)
      rw [← hs]
      exact ⟨w, e, shows_same h⟩

end Ordered

/-! ### Concrete cases -/

theorem exNamedObj_along : GoodNamed exNamedObj [m] t := ⟨by decide, by decide, by decide, by decide, by decide⟩

/-- The last place along `p`. -/
theorem exNamedObj_aside : SelectsAside exNamedObj [m] t [(p, .int (-1))] (fun _ => [1]) :=
  ⟨⟨by decide, by decide, fun q hq => by
    rw [List.mem_singleton.1 hq]
    exact ⟨by unfold InRange; decide, by decide⟩⟩, by decide, by decide⟩

example : dimEntries ((iselX [m] exNamedObj [(p, .int (-1))]).bind fun y =>
    cumulativeX core1 (kernel1 2) false y [m] none (some (some t)) false) [[(t, 1), (m, 0)], [(t, 2), (m, 1)]]
    = some ([t, m], [3, 3], [some 120, some (5663 / 33)]) := by decide +kernel
example : dimEntries ((cumulativeX core1 (kernel1 2) false exNamedObj [m] none (some (some t)) false).bind fun w =>
    iselX [m] w [(p, .int (-1))]) [[(t, 1), (m, 0)], [(t, 2), (m, 1)]]
    = some ([t, m], [3, 3], [some 120, some (5663 / 33)]) := by decide +kernel
example := C85_cumulative core1_ok (kernel1 2) false exNamedObj_along rfl exNamedObj_sizes exNamedObj_aside true
example := C85_resample core1_ok (kernel1 2) [[2, 0, 1], [1, 1, 1]] exNamedObj_along rfl exNamedObj_sizes exNamedObj_aside
  (rep := b) (by decide) true
example := C85_jackknife core1_ok (kernel1 2) exNamedObj_along rfl exNamedObj_sizes exNamedObj_aside (by decide) (by decide)
  (rep := some b) (by decide) false
example := C85_grouped core1_ok (kernel1 2) (obj := exNamedObj) (d := t) (by_ := [1, 0, 1]) (m := 1) (by decide) (by decide)
  (by decide) exNamedObj_along rfl exNamedObj_sizes exNamedObj_aside (group := none) (by decide) false
example := C85_indexed core1_ok (kernel1 2) (obj := exNamedObj) (d := t) (index := [2, 0, 1]) (start := [0, 2])
  (stop := [2, 3]) (scale := none) (by decide) (by decide) exNamedObj_along rfl exNamedObj_sizes exNamedObj_aside
  (group := some b) (by decide) false
example := C85_rolling core1_ok (kernel1 2) rfl 2 none false true exNamedObj_along rfl exNamedObj_sizes exNamedObj_aside true
example := C85_rolling_exp core1_ok (kernel1 2) (obj := exNamedObj) (d := t) (alpha := .inl (1 / 2)) (by simp) true none true
  exNamedObj_along rfl exNamedObj_sizes exNamedObj_aside false

end Cmomy
