import Verif.Model.Errors
import Mathlib.Data.List.Basic
import Mathlib.Data.Int.Notation

/-!
# The shared random generator

`random.py:23-109`.
-/

namespace Cmomy.Random

/-- All generator objects made so far, by position: the seed each was made with (`none`: entropy of
the operating system) and how many numbers were drawn from it. `shared` is `_DATA["rng"]`
(`random.py:23`), the position of an object. -/
structure World where
  gens : List (Option ℕ × ℕ)
  shared : Option ℕ
deriving DecidableEq

/-- What may be passed as `seed` or `rng`: `None`, a generator object, or an integer. Simplification:
of the seeds numpy takes, integers only. -/
inductive RngArg
  | none
  | gen (g : ℕ)
  | seed (z : ℤ)
deriving DecidableEq

/-- Contract of `np.random.default_rng(x)`: a generator is passed through, a negative seed is a
`ValueError`, otherwise a new object is made. -/
def npDefaultRng (a : RngArg) (w : World) : Py ℕ × World :=
  match a with
  | .gen g => (.ok g, w)
  | .none => (.ok w.gens.length, { w with gens := w.gens ++ [(Option.none, 0)] })
  | .seed z =>
    if z < 0 then (.error .valueError, w)
    else (.ok w.gens.length, { w with gens := w.gens ++ [(some z.toNat, 0)] })

/-- `random.py:26-34` `set_internal_rng(rng)` -/
def setInternalRng (g : ℕ) (w : World) : World := { w with shared := some g }

/-- `random.py:37-42` `get_internal_rng()` -/
def getInternalRng (w : World) : Py ℕ :=
  match w.shared with
  | none => .error .valueError
  | some g => .ok g

/-- `random.py:45-46` `_missing_internal_rng()` -/
def missingInternalRng (w : World) : Bool := w.shared.isNone

/-- `set_internal_rng(np.random.default_rng(...))`, then `get_internal_rng()`. -/
def setFrom (r : Py ℕ × World) : Py ℕ × World :=
  match r with
  | (.error e, w) => (.error e, w)
  | (.ok g, w) => (getInternalRng (setInternalRng g w), setInternalRng g w)

/-- `random.py:49-88` `default_rng(seed)` -/
def defaultRng (a : RngArg) (w : World) : Py ℕ × World :=
  match a with
  | .gen g => (.ok g, w)
  | .none =>
    if missingInternalRng w then setFrom (npDefaultRng .none w) else (getInternalRng w, w)
  | .seed z => setFrom (npDefaultRng (.seed z) w)

/-- `random.py:91-109` `validate_rng(rng)` -/
def validateRng (a : RngArg) (w : World) : Py ℕ × World :=
  match a with
  | .none => defaultRng .none w
  | a => npDefaultRng a w

/-- What a client can do. -/
inductive Event
  | set (g : ℕ)
  | default (a : RngArg)
  | validate (a : RngArg)
  | np (a : RngArg)
  | draw (g : ℕ)
deriving DecidableEq

/-- The effect of one call. Drawing a number advances that generator only. -/
def step (w : World) : Event → World
  | .set g => setInternalRng g w
  | .default a => (defaultRng a w).2
  | .validate a => (validateRng a w).2
  | .np a => (npDefaultRng a w).2
  | .draw g => { w with gens := w.gens.modify g (fun p => (p.1, p.2 + 1)) }

/-- The effect of a history of calls. -/
def run (w : World) (h : List Event) : World := h.foldl step w

/-- The state after importing the module. -/
def initial : World := ⟨[], none⟩

end Cmomy.Random
