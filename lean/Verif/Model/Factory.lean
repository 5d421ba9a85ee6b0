import Verif.Model.Errors
import Mathlib.Data.List.Basic

/-!
# Choosing serial or parallel kernels

`factory.py:199-578`, `_lib/decorators.py:20-29`.
-/

namespace Cmomy.Factory

/-- The functions handed out: the module below `cmomy._lib` and the names taken from it. -/
structure Kernel where
  module : String
  names : List String
deriving DecidableEq

/-- The memoised factories with a `parallel` argument. -/
inductive Name
  | pusher | freqToIndices | indicesToFreq | resampleVals | resampleData | jackknifeVals
  | jackknifeData | reduceVals | reduceData | reduceDataGrouped | reduceDataIndexed
  | cumulative (inverse : Bool) | rollingVals | rollingData | rollingExpVals | rollingExpData
deriving DecidableEq

/-- `mom_ndim == 1` first, then `parallel`, as in most factories. -/
def pick (momNdim : ℕ) (parallel : Bool) (base : String) (names : List String) : Kernel :=
  if momNdim = 1 then
    if parallel then ⟨base ++ "_parallel", names⟩ else ⟨base, names⟩
  else if parallel then ⟨base ++ "_cov_parallel", names⟩ else ⟨base ++ "_cov", names⟩

/-- The bodies of the factories after `parallel = parallel and supports_parallel()`:
`factory.py:244-268` (`pusher`), `272-289` (`freq_to_indices`, `indices_to_freq`), `292-327`
(`resample_*`), `332-368` (`jackknife_*`), `373-447` (`reduce_*`), `470-497` (`cumulative`), `500-579`
(`rolling_*`). -/
def body (f : Name) (momNdim : ℕ) (parallel : Bool) : Kernel :=
  match f with
  | .pusher =>
    let m := if momNdim = 1 ∧ parallel then "push_parallel"
      else if momNdim = 1 then "push"
      else if momNdim = 2 ∧ parallel then "push_cov_parallel"
      else "push_cov"
    ⟨m, ["push_val", "reduce_vals", "push_data", "push_data_scale", "reduce_data"]⟩
  | .freqToIndices => ⟨if parallel then "resample_parallel" else "resample", ["freq_to_indices"]⟩
  | .indicesToFreq => ⟨if parallel then "resample_parallel" else "resample", ["indices_to_freq"]⟩
  | .resampleVals => pick momNdim parallel "resample" ["resample_vals"]
  | .resampleData => pick momNdim parallel "resample" ["resample_data_fromzero"]
  | .jackknifeVals => pick momNdim parallel "resample" ["jackknife_vals_fromzero"]
  | .jackknifeData => pick momNdim parallel "resample" ["jackknife_data_fromzero"]
  | .reduceVals => pick momNdim parallel "push" ["reduce_vals"]
  | .reduceData => pick momNdim parallel "push" ["reduce_data_fromzero"]
  | .reduceDataGrouped => pick momNdim parallel "indexed" ["reduce_data_grouped"]
  | .reduceDataIndexed => pick momNdim parallel "indexed" ["reduce_data_indexed_fromzero"]
  | .cumulative inverse =>
    pick momNdim parallel "push" [if inverse then "cumulative_inverse" else "cumulative"]
  | .rollingVals => pick momNdim parallel "rolling" ["rolling_vals"]
  | .rollingData => pick momNdim parallel "rolling" ["rolling_data"]
  | .rollingExpVals => pick momNdim parallel "rolling" ["rolling_exp_vals"]
  | .rollingExpData => pick momNdim parallel "rolling" ["rolling_exp_data"]

/-- The arguments a factory is memoised by. -/
abbrev Key := Name × ℕ × Bool

/-- `OPTIONS["parallel"]`, the memo of `_safe_threadpool` (`factory.py:199-203`) and the memos of the
factories (`functools.lru_cache`). -/
structure State where
  parallel : Bool
  safe : Option Bool
  cache : List (Key × Kernel)
deriving DecidableEq

/-- `factory.py:199-203` `_safe_threadpool()`: evaluated at most once. `unsafe` is the answer of
`is_in_unsafe_thread_pool()` in the calling thread. -/
def safeThreadpool (unsafeThread : Bool) (s : State) : Bool × State :=
  match s.safe with
  | some b => (b, s)
  | none => (!unsafeThread, { s with safe := some (!unsafeThread) })

/-- `factory.py:206-217` `supports_parallel()` -/
def supportsParallel (unsafeThread : Bool) (s : State) : Bool × State :=
  if s.parallel then safeThreadpool unsafeThread s else (false, s)

/-- `factory.py:221-231` `parallel_heuristic(parallel, size, cutoff)` -/
def parallelHeuristic (unsafeThread : Bool) (parallel : Option Bool) (size : Option ℕ) (cutoff : ℕ)
    (s : State) : Bool × State :=
  match parallel with
  | some p => if p then supportsParallel unsafeThread s else (false, s)
  | none =>
    match size with
    | none => (false, s)
    | some size =>
      match supportsParallel unsafeThread s with
      | (false, s) => (false, s)
      | (true, s) => (decide (cutoff < size), s)

/-- A call of a memoised factory. -/
def factory (unsafeThread : Bool) (f : Name) (momNdim : ℕ) (parallel : Bool) (s : State) :
    Kernel × State :=
  match s.cache.lookup (f, momNdim, parallel) with
  | some k => (k, s)
  | none =>
    let (p, s) := if parallel then supportsParallel unsafeThread s else (false, s)
    (body f momNdim p, { s with cache := ((f, momNdim, parallel), body f momNdim p) :: s.cache })

/-- How every operation of the library picks its kernel, for example `reduction.py:619-622`:
`factory_…(mom_ndim=…, parallel=parallel_heuristic(parallel, size=data.size))`. -/
def operation (unsafeThread : Bool) (f : Name) (momNdim : ℕ) (parallel : Option Bool)
    (size : Option ℕ) (cutoff : ℕ) (s : State) : Kernel × State :=
  let (p, s) := parallelHeuristic unsafeThread parallel size cutoff s
  factory unsafeThread f momNdim p s

/-- What can happen: the option is set or restored, a client calls a factory, an operation runs, an
entry drops out of a memo (they are bounded). -/
inductive Event
  | setParallel (b : Bool)
  | factory (unsafeThread : Bool) (f : Name) (momNdim : ℕ) (parallel : Bool)
  | operation (unsafeThread : Bool) (f : Name) (momNdim : ℕ) (parallel : Option Bool)
      (size : Option ℕ) (cutoff : ℕ)
  | evict (k : Key)
deriving DecidableEq

/-- The effect of one event. -/
def step (s : State) : Event → State
  | .setParallel b => { s with parallel := b }
  | .factory t f d p => (factory t f d p s).2
  | .operation t f d p n c => (operation t f d p n c s).2
  | .evict k => { s with cache := s.cache.filter (fun e => e.1 ≠ k) }

/-- The effect of a history. -/
def run (s : State) (h : List Event) : State := h.foldl step s

/-- After import. -/
def initial (parallel : Bool) : State := ⟨parallel, none, []⟩

end Cmomy.Factory
