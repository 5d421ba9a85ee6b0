import Verif.Lemmas.Factory

/-!
# C43: turning the parallel option off is honoured
-/

namespace Cmomy

open Spec Factory

/-- While the option is off, every operation of the library runs a serial kernel, whatever was
called, requested or memoised before, and whatever is requested now. -/
theorem C43_off (b : Bool) (h : List Event) (hoff : (run (initial b) h).parallel = false)
    (t : Bool) (f : Name) (d : ℕ) (request : Option Bool) (size : Option ℕ) (cutoff : ℕ) :
    (operation t f d request size cutoff (run (initial b) h)).1 = body f d false ∧
    Serial (operation t f d request size cutoff (run (initial b) h)).1 := by
  have e : (operation t f d request size cutoff (run (initial b) h)).1 = body f d false := by
    rw [operation_eq, heuristic_off t request size cutoff _ hoff]
    exact factory_serial (heuristic_ok (run_ok (initial_ok b) h) t request size cutoff) t f d
  exact ⟨e, e ▸ body_serial f d⟩

example := C43_off true [.operation false .reduceData 1 (some true) none 10000,
    .factory false .reduceData 1 true, .setParallel false] rfl false .reduceData 1 (some true)
  (some 50000) 10000

/-- A serial kernel asked for is a serial kernel, whatever the history. -/
theorem C43_serial_request (b : Bool) (h : List Event) (t : Bool) (f : Name) (d : ℕ)
    (size : Option ℕ) (cutoff : ℕ) :
    Serial (operation t f d (some false) size cutoff (run (initial b) h)).1 ∧
    Serial (factory t f d false (run (initial b) h)).1 := by
  have hk := run_ok (initial_ok b) h
  constructor
  · show Serial (factory t f d false (run (initial b) h)).1
    rw [factory_serial hk]; exact body_serial f d
  · rw [factory_serial hk]; exact body_serial f d

example := C43_serial_request true [.factory false .rollingVals 2 true] false .rollingVals 2 none 5

/-- If factories are only reached through operations of the library, and all threads are safe, the
memos cannot be noticed: at any time the kernel is the one the present option, the request and the
size call for. -/
theorem C43_memo_invisible (b : Bool) (h : List Event) (hl : LibraryOnly h) (hs : SafeThreads h)
    (f : Name) (d : ℕ) (request : Option Bool) (size : Option ℕ) (cutoff : ℕ) :
    (operation false f d request size cutoff (run (initial b) h)).1
      = body f d (wanted (run (initial b) h).parallel request size cutoff) :=
  (operation_fresh (run_fresh (initial_fresh b) hl hs) f d request size
    cutoff).1

example := C43_memo_invisible true [.operation false .reduceData 1 (some true) none 10000,
    .setParallel false, .operation false .reduceData 1 (some true) none 10000, .setParallel true]
  (by simp [LibraryOnly]) (by simp [SafeThreads]) .reduceData 1 none (some 10001) 10000

/-- The parallel and the serial kernel of a factory have the same names and come from twin modules. -/
theorem C43_twins (f : Name) (d : ℕ) (hd : d = 1 ∨ d = 2) :
    Serial (body f d false) ∧ (body f d true).names = (body f d false).names ∧
    (body f d true).module = (body f d false).module ++ "_parallel" :=
  ⟨body_serial f d, body_twin f d hd⟩

example := C43_twins (.cumulative true) 2 (by decide)

/-- Disagreement: a factory called directly returns what it returned first. Turning the option off
does not reach it. -/
theorem C43_factory_stale_parallel :
    ∃ h f, (run (initial true) h).parallel = false ∧
      ¬ Serial (factory false f 1 true (run (initial true) h)).1 :=
  ⟨[.operation false .reduceData 1 (some true) none 10000, .setParallel false], .reduceData, by decide,
    by unfold Serial; decide⟩

/-- Disagreement: a direct call made while the option is off keeps later operations serial after it
is turned on again, although a parallel kernel is requested. -/
theorem C43_factory_stale_serial :
    ∃ h f, (run (initial false) h).parallel = true ∧ SafeThreads h ∧
      Serial (operation false f 1 (some true) none 10000 (run (initial false) h)).1 :=
  ⟨[.factory false .reduceData 1 true, .setParallel true], .reduceData, by decide,
    by simp [SafeThreads], by unfold Serial; decide⟩

/-- Disagreement: the check for an unsafe thread is made once. After one call from a safe thread, a
call from an unsafe thread gets a parallel kernel; after one call from an unsafe thread, no thread
gets one any more. -/
theorem C43_thread_check_once :
    (∃ h f, ¬ Serial (operation true f 1 (some true) none 10000 (run (initial true) h)).1) ∧
    (∃ h f, (run (initial true) h).parallel = true ∧
      Serial (operation false f 1 (some true) none 10000 (run (initial true) h)).1) :=
  ⟨⟨[.operation false .reduceVals 1 (some true) none 10000], .reduceData,
      by unfold Serial; decide⟩,
    ⟨[.operation true .reduceVals 1 (some true) none 10000], .reduceData, by decide,
      by unfold Serial; decide⟩⟩

end Cmomy
