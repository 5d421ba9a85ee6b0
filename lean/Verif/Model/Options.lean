import Verif.Model.Errors
import Mathlib.Data.List.Basic
import Mathlib.Data.Int.Notation

/-!
# Options in a controlled context

`options.py:32-87`.
-/

namespace Cmomy.Options

/-- A value given to an option: a `bool`, an `int`, or anything else. -/
inductive OptVal
  | bool (b : Bool)
  | int (z : ℤ)
  | other
deriving DecidableEq

/-- A Python dictionary, in insertion order. -/
abbrev Dict := List (String × OptVal)

/-- `d[k]`, `none` if `k not in d` -/
def get (d : Dict) (k : String) : Option OptVal := d.lookup k

/-- `d[k] = v`: replace in place, or append. -/
def put : Dict → String → OptVal → Dict
  | [], k, v => [(k, v)]
  | (k', v') :: d, k, v => if k' = k then (k, v) :: d else (k', v') :: put d k v

/-- `d.update(e)` -/
def update (d e : Dict) : Dict := e.foldl (fun d p => put d p.1 p.2) d

/-- `options.py:34-46` `_isbool`, `_isint`, `_VALIDATORS`; `isinstance(True, int)` holds. -/
def validator (k : String) (v : OptVal) : Bool :=
  if k = "nmax" then match v with
    | .int _ => true
    | .bool _ => true
    | .other => false
  else if k = "parallel" ∨ k = "cache" ∨ k = "fastmath" then match v with
    | .bool _ => true
    | _ => false
  else true

/-- `options.py:66-74`: the loop of `set_options.__init__`, `old` being `self.old`. -/
def check (opts : Dict) : Dict → Dict → Py Dict
  | [], old => .ok old
  | (k, v) :: kwargs, old =>
    match get opts k with
    | none => .error .valueError
    | some x => if validator k v then check opts kwargs (put old k x) else .error .valueError

/-- `options.py:77-81` `_apply_update`; `_SETTERS` is empty. -/
def applyUpdate (opts d : Dict) : Dict := update opts d

/-- `options.py:65-75` `set_options(**kwargs)`: `self.old` and the options afterwards. -/
def init (opts kwargs : Dict) : Py (Dict × Dict) :=
  (check opts kwargs []).map fun old => (old, applyUpdate opts kwargs)

/-- `options.py:86-87` `__exit__`; it returns `None`, so an exception goes on. -/
def exit (opts old : Dict) : Dict := applyUpdate opts old

/-- `options.py:24-29` the options when no environment variable is set. -/
def defaults : Dict :=
  [("nmax", .int 20), ("cache", .bool true), ("parallel", .bool true), ("fastmath", .bool true)]

/-- Client programs: any control flow around calls of `set_options` and `with set_options(...)`. -/
inductive Prog
  | pass
  | raise (e : PyErr)
  | seq (p q : Prog)
  | ite (c : Dict → Bool) (p q : Prog)
  | setOptions (kwargs : Dict)
  | withOptions (kwargs : Dict) (body : Prog)
  | tryExcept (body handler : Prog)

/-- The options after running a program, and the exception it ends with, if any.
`with set_options(**kwargs): body` calls `__init__`, then the body, then `__exit__` in any case. -/
def exec : Prog → Dict → Dict × Option PyErr
  | .pass, o => (o, none)
  | .raise e, o => (o, some e)
  | .seq p q, o =>
    match exec p o with
    | (o', none) => exec q o'
    | (o', some e) => (o', some e)
  | .ite c p q, o => if c o then exec p o else exec q o
  | .setOptions kwargs, o =>
    match init o kwargs with
    | .error e => (o, some e)
    | .ok (_, o') => (o', none)
  | .withOptions kwargs body, o =>
    match init o kwargs with
    | .error e => (o, some e)
    | .ok (old, o') =>
      match exec body o' with
      | (o'', r) => (exit o'' old, r)
  | .tryExcept body handler, o =>
    match exec body o with
    | (o', none) => (o', none)
    | (o', some _) => exec handler o'

end Cmomy.Options
