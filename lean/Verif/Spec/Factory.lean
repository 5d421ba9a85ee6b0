import Verif.Model.Factory

/-!
# Serial kernels and library histories
-/

namespace Cmomy.Spec

open Factory

/-- The modules compiled for one thread. -/
def serialModules : List String :=
  ["push", "push_cov", "resample", "resample_cov", "indexed", "indexed_cov", "rolling", "rolling_cov"]

/-- The kernel runs in one thread. -/
def Serial (k : Kernel) : Prop := k.module ∈ serialModules

/-- No client calls a factory directly. -/
def LibraryOnly (h : List Event) : Prop :=
  ∀ e ∈ h, ∀ t f d p, e ≠ .factory t f d p

/-- No call comes from an unsafe thread. -/
def SafeThreads (h : List Event) : Prop :=
  ∀ e ∈ h, (∀ f d p, e ≠ .factory true f d p) ∧ ∀ f d p n c, e ≠ .operation true f d p n c

/-- The decision intended: the option must be on; then an explicit request decides, and without one
the size. -/
def wanted (option : Bool) (request : Option Bool) (size : Option ℕ) (cutoff : ℕ) : Bool :=
  option && match request, size with
    | some r, _ => r
    | none, none => false
    | none, some n => decide (cutoff < n)

end Cmomy.Spec
