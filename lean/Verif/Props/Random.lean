import Verif.Lemmas.Random

/-!
# C42: history of the shared random generator
-/

namespace Cmomy

open Spec Random

/-- `default_rng(None)` returns the generator made by the last seeded call, with everything drawn
from it since and nothing else: the sequence goes on where it was. The call itself makes nothing. -/
theorem C42_seeded (before after : List Event) (z : ℤ) (hz : 0 ≤ z)
    (h : ∀ e ∈ after, ¬ Chooses e) :
    let w := run initial before
    let g := w.gens.length
    let w' := run (step w (.default (.seed z))) after
    (defaultRng (.seed z) w).1 = .ok g ∧
    defaultRng .none w' = (.ok g, w') ∧
    w'.gens[g]? = some (some z.toNat, after.count (.draw g)) := by
  intro w g w'
  have hz' : ¬ z < 0 := by omega
  have e : defaultRng (.seed z) w
      = (.ok g, ⟨w.gens ++ [(some z.toNat, 0)], some g⟩) := by
    simp [defaultRng, npDefaultRng, hz', setFrom, setInternalRng, getInternalRng, g]
  have e' : step w (.default (.seed z)) = ⟨w.gens ++ [(some z.toNat, 0)], some g⟩ := by
    simp [step, e]
  refine ⟨by rw [e], default_none_some (run_keeps (by rw [e']) h), ?_⟩
  have : (step w (.default (.seed z))).gens[g]? = some (some z.toNat, 0) := by
    rw [e']; simp [g]
  simpa using run_gen this after

example := C42_seeded [.default .none, .draw 0]
  [.draw 1, .validate (.seed 3), .draw 2, .default (.gen 0), .default (.seed (-1)), .draw 1] 7
  (by decide) (by simp [Chooses])

/-- `default_rng(None)` keeps returning the same generator until another one is chosen, and makes
a generator only if there is none. -/
theorem C42_none_is_stable (before between : List Event) (h : ∀ e ∈ between, ¬ Chooses e) :
    let w := run initial before
    let w' := run (defaultRng .none w).2 between
    ∃ g, (defaultRng .none w).1 = .ok g ∧ defaultRng .none w' = (.ok g, w') ∧
      (w.shared = none → (defaultRng .none w).2.gens = w.gens ++ [(none, 0)]) ∧
      (w.shared ≠ none → (defaultRng .none w).2 = w) := by
  intro w w'
  cases hs : w.shared with
  | none =>
    have e : defaultRng .none w = (.ok w.gens.length, ⟨w.gens ++ [(none, 0)], some w.gens.length⟩) := by
      simp [defaultRng, npDefaultRng, setFrom, setInternalRng, getInternalRng, missingInternalRng, hs]
    refine ⟨w.gens.length, by rw [e], default_none_some (run_keeps (by rw [e]) h), fun _ => by rw [e],
      fun h => (h rfl).elim⟩
  | some g =>
    have e := default_none_some hs
    exact ⟨g, by rw [e], default_none_some (run_keeps (by rw [e]; exact hs) h),
      fun h => (by cases h), fun _ => by rw [e]⟩

example := C42_none_is_stable [] [.validate (.seed 2), .draw 0, .validate .none] (by simp [Chooses])

/-- A generator passed in is returned as it is, and nothing else changes. -/
theorem C42_generator_untouched (w : World) (g : ℕ) :
    defaultRng (.gen g) w = (.ok g, w) ∧ validateRng (.gen g) w = (.ok g, w) :=
  ⟨rfl, rfl⟩

example := C42_generator_untouched (run initial [.default (.seed 1), .np .none]) 1

/-- A seed always makes a new generator; `default_rng` shares it, `validate_rng` does not. A bad seed
changes nothing. -/
theorem C42_seed_replaces (w : World) (z : ℤ) :
    (0 ≤ z →
      (defaultRng (.seed z) w).1 = .ok w.gens.length ∧
      getInternalRng (defaultRng (.seed z) w).2 = .ok w.gens.length ∧
      (validateRng (.seed z) w).1 = .ok w.gens.length ∧
      (validateRng (.seed z) w).2.shared = w.shared) ∧
    (z < 0 → defaultRng (.seed z) w = (.error .valueError, w) ∧
      validateRng (.seed z) w = (.error .valueError, w)) := by
  constructor
  · intro hz
    have hz' : ¬ z < 0 := by omega
    simp [defaultRng, validateRng, npDefaultRng, hz', setFrom, setInternalRng, getInternalRng]
  · intro hz
    simp [defaultRng, validateRng, npDefaultRng, hz, setFrom]

example := (C42_seed_replaces (run initial [.default (.seed 1), .np .none]) 0).1 (by decide)

example := (C42_seed_replaces (run initial [.default (.seed 1), .np .none]) (-3)).2 (by decide)

/-- `set_internal_rng` is honoured by every later `default_rng(None)` until another is chosen. -/
theorem C42_set (before after : List Event) (g : ℕ) (h : ∀ e ∈ after, ¬ Chooses e) :
    let w' := run (step (run initial before) (.set g)) after
    defaultRng .none w' = (.ok g, w') ∧ validateRng .none w' = (.ok g, w') := by
  intro w'
  have := default_none_some (run_keeps (w := step (run initial before) (.set g)) (g := g) rfl h)
  exact ⟨this, this⟩

example := C42_set [.np (.seed 4), .default .none] [.default .none, .draw 0] 0 (by simp [Chooses])

/-- `get_internal_rng()` fails exactly as long as nothing has provided a shared generator. -/
theorem C42_get (h : List Event) :
    getInternalRng (run initial h) = .error .valueError ↔ ∀ e ∈ h, ¬ Provides e := by
  have key : ∀ (l : List Event) (w : World), (run w l).shared = none ↔
      w.shared = none ∧ ∀ e ∈ l, ¬ Provides e := by
    intro l
    induction l with
    | nil => intro w; simp [run]
    | cons e l ih =>
      intro w
      show (run (step w e) l).shared = none ↔ _
      rw [ih]
      have : (step w e).shared = none ↔ w.shared = none ∧ ¬ Provides e := by
        cases e with
        | set g => simp [step, setInternalRng, Provides]
        | default a =>
          cases a with
          | none =>
            cases hs : w.shared with
            | none => simp [step, defaultRng, missingInternalRng, hs, npDefaultRng, setFrom,
                setInternalRng, Provides]
            | some g => simp [step, default_none_some hs, hs]
          | gen g => simp [step, defaultRng, Provides]
          | seed z =>
            by_cases hz : z < 0
            · simp [step, defaultRng, npDefaultRng, hz, setFrom, Provides]
            · simp [step, defaultRng, npDefaultRng, hz, setFrom, setInternalRng, Provides]
        | validate a =>
          cases a with
          | none =>
            cases hs : w.shared with
            | none => simp [step, validateRng, defaultRng, missingInternalRng, hs, npDefaultRng,
                setFrom, setInternalRng, Provides]
            | some g => simp [step, validateRng, default_none_some hs, hs]
          | gen g => simp [step, validateRng, npDefaultRng, Provides]
          | seed z => by_cases hz : z < 0 <;> simp [step, validateRng, npDefaultRng, hz, Provides]
        | np a =>
          cases a with
          | none => simp [step, npDefaultRng, Provides]
          | gen g => simp [step, npDefaultRng, Provides]
          | seed z => by_cases hz : z < 0 <;> simp [step, npDefaultRng, hz, Provides]
        | draw g => simp [step, Provides]
      rw [this, List.forall_mem_cons, and_assoc]
  have hg : ∀ w : World, getInternalRng w = .error .valueError ↔ w.shared = none := by
    intro w
    unfold getInternalRng
    cases w.shared <;> simp
  rw [hg, key]
  simp [initial]

example : getInternalRng (run initial [.validate (.seed 1), .default (.gen 0), .draw 0])
    = .error .valueError := by decide

end Cmomy
