import Verif.Spec.Random
import Mathlib.Data.List.Count
import Mathlib.Tactic.Push

namespace Cmomy

namespace Random

open Spec

theorem default_none_some {w : World} {g : ℕ} (h : w.shared = some g) :
    defaultRng .none w = (.ok g, w) := by
  simp [defaultRng, missingInternalRng, getInternalRng, h]

theorem step_keeps {w : World} {g : ℕ} (h : w.shared = some g) {e : Event} (he : ¬ Chooses e) :
    (step w e).shared = some g := by
  cases e with
  | set g' => exact (he trivial).elim
  | default a =>
    cases a with
    | none => simp [step, default_none_some h, h]
    | gen g' => simpa [step, defaultRng] using h
    | seed z =>
      have hz : z < 0 := by simpa [Chooses] using he
      simp [step, defaultRng, npDefaultRng, hz, setFrom, h]
  | validate a =>
    cases a with
    | none => simp [step, validateRng, default_none_some h, h]
    | gen g' => simpa [step, validateRng, npDefaultRng] using h
    | seed z =>
      by_cases hz : z < 0 <;> simp [step, validateRng, npDefaultRng, hz, h]
  | np a =>
    cases a with
    | none => simp [step, npDefaultRng, h]
    | gen g' => simpa [step, npDefaultRng] using h
    | seed z => by_cases hz : z < 0 <;> simp [step, npDefaultRng, hz, h]
  | draw g' => simpa [step] using h

theorem run_keeps {w : World} {g : ℕ} (h : w.shared = some g) {l : List Event}
    (hl : ∀ e ∈ l, ¬ Chooses e) : (run w l).shared = some g := by
  induction l generalizing w with
  | nil => exact h
  | cons e l ih =>
    exact ih (step_keeps h (hl e (by simp))) fun e he => hl e (by simp [he])

/-- What was drawn from an existing generator. -/
theorem step_gen {w : World} {g : ℕ} {s : Option ℕ} {n : ℕ} (h : w.gens[g]? = some (s, n))
    (e : Event) : (step w e).gens[g]? = some (s, n + if e = .draw g then 1 else 0) := by
  have hlt : g < w.gens.length := (List.getElem?_eq_some_iff.1 h).1
  have app : ∀ x, (w.gens ++ [x])[g]? = some (s, n) := fun x => by
    rw [List.getElem?_append_left hlt, h]
  have hnp : ∀ a, (npDefaultRng a w).2.gens[g]? = some (s, n) := by
    intro a
    cases a with
    | none => exact app _
    | gen g' => exact h
    | seed z =>
      by_cases hz : z < 0
      · simp [npDefaultRng, hz, h]
      · simp only [npDefaultRng, hz, if_false]; exact app _
  have hsf : ∀ r : Py ℕ × World, (setFrom r).2.gens = r.2.gens := by
    rintro ⟨r | g, w⟩ <;> rfl
  have hdef : ∀ a, (defaultRng a w).2.gens[g]? = some (s, n) := by
    intro a
    cases a with
    | none =>
      unfold defaultRng
      by_cases hm : missingInternalRng w = true
      · simp only [hm, if_true, hsf]; exact hnp _
      · simp only [hm]; exact h
    | gen g' => exact h
    | seed z => unfold defaultRng; rw [hsf]; exact hnp _
  cases e with
  | set g' => simpa [step, setInternalRng] using h
  | default a => simpa [step] using hdef a
  | validate a =>
    cases a with
    | none => simpa [step, validateRng] using hdef .none
    | gen g' => simpa [step, validateRng] using hnp (.gen g')
    | seed z => simpa [step, validateRng] using hnp (.seed z)
  | np a => simpa [step] using hnp a
  | draw g' =>
    simp only [step, Event.draw.injEq]
    by_cases hg : g' = g
    · subst hg; simp [h]
    · simp [h, hg]

theorem run_gen {w : World} {g : ℕ} {s : Option ℕ} {n : ℕ} (h : w.gens[g]? = some (s, n))
    (l : List Event) : (run w l).gens[g]? = some (s, n + l.count (.draw g)) := by
  induction l generalizing n w with
  | nil => simpa [run] using h
  | cons e l ih =>
    show (run (step w e) l).gens[g]? = _
    rw [ih (step_gen h e), List.count_cons]
    by_cases he : e = .draw g
    · subst he; simp; omega
    · simp [he]

end Random

end Cmomy
