import Verif.Spec.Factory

namespace Cmomy.Factory

open Spec

theorem body_serial (f : Name) (d : ℕ) : Serial (body f d false) := by
  unfold Serial
  by_cases hd : d = 1
  · cases f <;> simp [body, pick, hd, serialModules]
  · cases f <;> simp [body, pick, hd, serialModules]

theorem body_twin (f : Name) (d : ℕ) (hd : d = 1 ∨ d = 2) :
    (body f d true).names = (body f d false).names ∧
    (body f d true).module = (body f d false).module ++ "_parallel" := by
  rcases hd with rfl | rfl <;> cases f <;> simp [body, pick]

theorem supports_cache (t : Bool) (s : State) :
    (supportsParallel t s).2.cache = s.cache ∧ (supportsParallel t s).2.parallel = s.parallel := by
  unfold supportsParallel safeThreadpool
  split
  · split <;> exact ⟨rfl, rfl⟩
  · exact ⟨rfl, rfl⟩

theorem heuristic_cache (t : Bool) (p : Option Bool) (n : Option ℕ) (c : ℕ) (s : State) :
    (parallelHeuristic t p n c s).2.cache = s.cache ∧
    (parallelHeuristic t p n c s).2.parallel = s.parallel := by
  have h := supports_cache t s
  unfold parallelHeuristic
  cases p with
  | some p =>
    cases p
    · exact ⟨rfl, rfl⟩
    · exact h
  | none =>
    cases n with
    | none => exact ⟨rfl, rfl⟩
    | some n =>
      rcases h' : supportsParallel t s with ⟨_ | _, s'⟩
      · rw [h'] at h; exact h
      · rw [h'] at h; exact h

theorem heuristic_off (t : Bool) (p : Option Bool) (n : Option ℕ) (c : ℕ) (s : State)
    (h : s.parallel = false) : (parallelHeuristic t p n c s).1 = false := by
  have h' : supportsParallel t s = (false, s) := by simp [supportsParallel, h]
  unfold parallelHeuristic
  cases p with
  | some p => cases p <;> simp [h']
  | none => cases n <;> simp [h']

theorem lookup_mem {l : List (Key × Kernel)} {k : Key} {v : Kernel} (h : l.lookup k = some v) :
    (k, v) ∈ l := by
  induction l with
  | nil => simp at h
  | cons p l ih =>
    obtain ⟨a, b⟩ := p
    by_cases hk : k = a
    · subst hk; simp at h; simp [h]
    · rw [List.lookup_cons, beq_eq_false_iff_ne.2 hk] at h
      exact List.mem_cons_of_mem _ (ih h)

/-- Entries asked for with `parallel=False` are serial. -/
def CacheOk (s : State) : Prop := ∀ e ∈ s.cache, e.1.2.2 = false → e.2 = body e.1.1 e.1.2.1 false

theorem factory_ok {s : State} (hs : CacheOk s) (t : Bool) (f : Name) (d : ℕ) (p : Bool) :
    CacheOk (factory t f d p s).2 := by
  unfold factory
  cases h : s.cache.lookup (f, d, p) with
  | some k => exact hs
  | none =>
    cases p with
    | false =>
      intro e he
      rcases List.mem_cons.1 he with rfl | he
      · intro _; rfl
      · exact hs e he
    | true =>
      simp only [if_true]
      intro e he
      rcases List.mem_cons.1 he with rfl | he
      · intro h; cases h
      · rw [(supports_cache t s).1] at he; exact hs e he

theorem heuristic_ok {s : State} (hs : CacheOk s) (t : Bool) (p : Option Bool) (n : Option ℕ)
    (c : ℕ) : CacheOk (parallelHeuristic t p n c s).2 := by
  unfold CacheOk
  rw [(heuristic_cache t p n c s).1]; exact hs

theorem step_ok {s : State} (hs : CacheOk s) (e : Event) : CacheOk (step s e) := by
  cases e with
  | setParallel b => exact hs
  | factory t f d p => exact factory_ok hs t f d p
  | operation t f d p n c => exact factory_ok (heuristic_ok hs t p n c) t f d _
  | evict k => exact fun e he => hs e (List.mem_filter.1 he).1

theorem run_ok {s : State} (hs : CacheOk s) (h : List Event) : CacheOk (run s h) := by
  induction h generalizing s with
  | nil => exact hs
  | cons e h ih => exact ih (step_ok hs e)

theorem initial_ok (b : Bool) : CacheOk (initial b) := by intro e he; cases he

theorem factory_serial {s : State} (hs : CacheOk s) (t : Bool) (f : Name) (d : ℕ) :
    (factory t f d false s).1 = body f d false := by
  unfold factory
  cases h : s.cache.lookup (f, d, false) with
  | some k => exact hs _ (lookup_mem h) rfl
  | none => rfl

/-- With library calls only, the memo holds what would be chosen afresh. -/
def Fresh (s : State) : Prop :=
  (∀ e ∈ s.cache, e.2 = body e.1.1 e.1.2.1 e.1.2.2) ∧ s.safe ≠ some false

theorem initial_fresh (b : Bool) : Fresh (initial b) :=
  ⟨fun e he => (by cases he), by simp [initial]⟩

theorem supports_safe {s : State} (h : s.safe ≠ some false) :
    (supportsParallel false s).1 = s.parallel ∧ (supportsParallel false s).2.safe ≠ some false := by
  unfold supportsParallel safeThreadpool
  cases hp : s.parallel
  · simp [h]
  · cases hs : s.safe with
    | none => simp
    | some b =>
      cases b
      · exact (h hs).elim
      · simp [hs]

theorem heuristic_safe {s : State} (h : s.safe ≠ some false) (p : Option Bool) (n : Option ℕ)
    (c : ℕ) : (parallelHeuristic false p n c s).1 = wanted s.parallel p n c ∧
      (parallelHeuristic false p n c s).2.safe ≠ some false := by
  obtain ⟨h1, h2⟩ := supports_safe h
  unfold parallelHeuristic wanted
  cases p with
  | some p =>
    cases p
    · simp [h]
    · simp [h1, h2]
  | none =>
    cases n with
    | none => simp [h]
    | some n =>
      rcases h' : supportsParallel false s with ⟨_ | _, s'⟩
      · rw [h'] at h1 h2; simp only at h1 h2; simp [← h1, h2]
      · rw [h'] at h1 h2; simp only at h1 h2; simp [← h1, h2]

theorem factory_fresh {s : State} (hs : Fresh s) (f : Name) (d : ℕ) (p : Bool)
    (hp : p = true → s.parallel = true) :
    (factory false f d p s).1 = body f d p ∧ Fresh (factory false f d p s).2 := by
  unfold factory
  cases h : s.cache.lookup (f, d, p) with
  | some k => exact ⟨hs.1 _ (lookup_mem h), hs⟩
  | none =>
    cases p with
    | false =>
      refine ⟨rfl, fun e he => ?_, hs.2⟩
      rcases List.mem_cons.1 he with rfl | he
      · rfl
      · exact hs.1 e he
    | true =>
      obtain ⟨h1, h2⟩ := supports_safe hs.2
      rw [hp rfl] at h1
      simp only [if_true, h1]
      refine ⟨trivial, fun e he => ?_, h2⟩
      rcases List.mem_cons.1 he with rfl | he
      · rfl
      · rw [(supports_cache false s).1] at he; exact hs.1 e he

theorem operation_eq (t : Bool) (f : Name) (d : ℕ) (p : Option Bool) (n : Option ℕ) (c : ℕ)
    (s : State) : operation t f d p n c s
      = factory t f d (parallelHeuristic t p n c s).1 (parallelHeuristic t p n c s).2 := rfl

theorem operation_fresh {s : State} (hs : Fresh s) (f : Name) (d : ℕ) (p : Option Bool)
    (n : Option ℕ) (c : ℕ) :
    (operation false f d p n c s).1 = body f d (wanted s.parallel p n c) ∧
    Fresh (operation false f d p n c s).2 := by
  obtain ⟨h1, h2⟩ := heuristic_safe hs.2 p n c
  have hf : Fresh (parallelHeuristic false p n c s).2 :=
    ⟨by rw [(heuristic_cache false p n c s).1]; exact hs.1, h2⟩
  have := factory_fresh hf f d (parallelHeuristic false p n c s).1 (by
    rw [h1, (heuristic_cache false p n c s).2]
    unfold wanted; intro h
    exact (Bool.and_eq_true_iff.1 h).1)
  rw [operation_eq, h1]
  rw [h1] at this
  exact this

theorem run_fresh {s : State} (hs : Fresh s) {h : List Event} (hl : LibraryOnly h)
    (hsafe : SafeThreads h) : Fresh (run s h) := by
  induction h generalizing s with
  | nil => exact hs
  | cons e h ih =>
    refine ih (s := step s e) ?_ (fun e he => hl e (by simp [he])) fun e he => hsafe e (by simp [he])
    cases e with
    | setParallel b => exact hs
    | factory t f d p => exact (hl _ List.mem_cons_self t f d p rfl).elim
    | operation t f d p n c =>
      cases t
      · exact (operation_fresh hs f d p n c).2
      · exact ((hsafe _ List.mem_cons_self).2 f d p n c rfl).elim
    | evict k => exact ⟨fun e he => hs.1 e (List.mem_filter.1 he).1, hs.2⟩

end Cmomy.Factory
