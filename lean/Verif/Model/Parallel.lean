import Verif.Model.PushCov

/-!
# Parallel execution of the vectorised kernels

`_lib/decorators.py:60-97, 132-142`: with `parallel=True` the same kernel text
(`_lib/push_parallel.py` … are generated from `_lib/push.py` …, only `_PARALLEL` differs) is compiled
for `target="parallel"`, which hands the outer (value) positions of a generalised ufunc to a pool of
threads over one shared memory.

A kernel call on one position is a program `Prog` of single loads and stores. A thread runs the
positions it was given one after the other; the threads' loads and stores interleave arbitrarily.
Values are arbitrary (`Arith`): floating point numbers qualify.

Simplification: loads and stores are atomic and sequentially consistent. (The theorems only concern
threads that never touch a cell another thread writes, for which weaker memory models coincide.)
-/

namespace Cmomy.Par

/-- A program over cells `A` holding values `V`, returning a local result. -/
inductive Prog (A V α : Type) : Type
  | ret (x : α)
  | load (a : A) (k : V → Prog A V α)
  | store (a : A) (v : V) (k : Prog A V α)

variable {A V α β : Type}

/-- Sequential composition. -/
def Prog.bind : Prog A V α → (α → Prog A V β) → Prog A V β
  | .ret x, f => f x
  | .load a k, f => .load a fun v => (k v).bind f
  | .store a v k, f => .store a v (k.bind f)

instance : Monad (Prog A V) where
  pure := .ret
  bind := .bind

/-- `cell[a]` -/
def get (a : A) : Prog A V V := .load a .ret

/-- `cell[a] = v` -/
def put (a : A) (v : V) : Prog A V Unit := .store a v (.ret ())

section run

variable [DecidableEq A]

/-- Running a program alone: its result and the new memory. -/
def Prog.run : Prog A V α → (A → V) → α × (A → V)
  | .ret x, m => (x, m)
  | .load a k, m => (k (m a)).run m
  | .store a v k, m => k.run (Function.update m a v)

/-- What the threads still have to do, and the shared memory. -/
structure Config (T A V : Type) where
  todo : T → Prog A V Unit
  mem : A → V

/-- One load or store of one thread. -/
inductive Step {T : Type} [DecidableEq T] : Config T A V → Config T A V → Prop
  | load {c : Config T A V} (t : T) (a : A) (k : V → Prog A V Unit) (h : c.todo t = .load a k) :
      Step c ⟨Function.update c.todo t (k (c.mem a)), c.mem⟩
  | store {c : Config T A V} (t : T) (a : A) (v : V) (k : Prog A V Unit)
      (h : c.todo t = .store a v k) :
      Step c ⟨Function.update c.todo t k, Function.update c.mem a v⟩

/-- Every thread has finished. -/
def Config.Done {T : Type} (c : Config T A V) : Prop := ∀ t, c.todo t = .ret ()

end run

/-- Run the positions of a list one after the other. -/
def inOrder {P : Type} (prog : P → Prog A V Unit) : List P → Prog A V Unit
  | [] => .ret ()
  | p :: ps => (prog p).bind fun _ => inOrder prog ps

/-- The start of a parallel call: thread `t` has been given the positions `assign t`. -/
def start {P T : Type} (prog : P → Prog A V Unit) (assign : T → List P) (m : A → V) :
    Config T A V :=
  ⟨fun t => inOrder prog (assign t), m⟩

/-! ### The kernels, cell by cell -/

/-- The arithmetic the kernels use, and the binomial factors. No law is assumed. -/
class Arith (V : Type) extends Zero V, One V, Add V, Sub V, Mul V, Div V, Neg V where
  isZero : V → Bool
  bin : ℕ → ℕ → V

/-- Exact arithmetic. -/
@[reducible] def exact (K : Type) [Field K] [DecidableEq K] : Arith K where
  isZero w := decide (w = 0)
  bin := binom

section kernels

variable [Arith V]

/-- `_push.py:28-68` `push_val(x, w, out)`, see `pushVal`; `out i` is the cell of `out[i]`. -/
def pushValP (order : ℕ) (x w : V) (out : ℕ → A) : Prog A V Unit :=
  if Arith.isZero w then pure ()
  else do
    put (out 0) ((← get (out 0)) + w)
    let alpha := w / (← get (out 0))
    let one_alpha := 1 - alpha
    let delta := x - (← get (out 1))
    let incr := delta * alpha
    put (out 1) ((← get (out 1)) + incr)
    if order = 1 then pure ()
    else do
      (rangeDown order 2).foldlM (fun _ a => do
        let s ← (List.range (a - 1)).foldlM (fun (s : PAcc V) b => do
          let c := a - b
          let o ← get (out c)
          pure { tmp := s.tmp + Arith.bin a b * s.delta_b * (s.minus_b * s.alpha_b * one_alpha * o)
                 delta_b := s.delta_b * delta
                 alpha_b := s.alpha_b * alpha
                 one_alpha_b := s.one_alpha_b * one_alpha
                 minus_b := s.minus_b * (-1) }) ⟨0, 1, 1, 1, 1⟩
        put (out a) (s.tmp +
          delta * alpha * one_alpha * s.delta_b * (-s.minus_b * s.alpha_b + s.one_alpha_b))) ()
      put (out 2) (one_alpha * ((← get (out 2)) + delta * incr))

/-- `_push.py:85-126`, `140-181` `push_data(data, out)`, `push_data_scale(data, scale, out)`, see
`pushDataBody`. -/
def pushDataBodyP (order : ℕ) (w : V) (data out : ℕ → A) : Prog A V Unit :=
  if Arith.isZero w then pure ()
  else do
    put (out 0) ((← get (out 0)) + w)
    let alpha := w / (← get (out 0))
    let one_alpha := 1 - alpha
    let delta := (← get (data 1)) - (← get (out 1))
    let incr := delta * alpha
    put (out 1) ((← get (out 1)) + incr)
    if order = 1 then pure ()
    else do
      (rangeDown order 2).foldlM (fun _ a => do
        let s ← (List.range (a - 1)).foldlM (fun (s : PAcc V) b => do
          let c := a - b
          let o ← get (out c)
          let d ← get (data c)
          pure { tmp := s.tmp + Arith.bin a b * s.delta_b *
                   (s.minus_b * s.alpha_b * one_alpha * o + s.one_alpha_b * alpha * d)
                 delta_b := s.delta_b * delta
                 alpha_b := s.alpha_b * alpha
                 one_alpha_b := s.one_alpha_b * one_alpha
                 minus_b := s.minus_b * (-1) }) ⟨0, 1, 1, 1, 1⟩
        put (out a) (s.tmp +
          delta * alpha * one_alpha * s.delta_b * (-s.minus_b * s.alpha_b + s.one_alpha_b))) ()
      put (out 2) ((← get (data 2)) * alpha + one_alpha * ((← get (out 2)) + delta * incr))

/-- `_push.py:79-126` -/
def pushDataP (order : ℕ) (data out : ℕ → A) : Prog A V Unit := do
  let w ← get (data 0)
  pushDataBodyP order w data out

/-- `_push.py:136-181` -/
def pushDataScaleP (order : ℕ) (data : ℕ → A) (scale : V) (out : ℕ → A) : Prog A V Unit := do
  let w := (← get (data 0)) * scale
  pushDataBodyP order w data out

/-! ### Two variables -/

/-- `_push_cov.py:56-96`: the value stored in `out[a0, a1]` by `push_val`. -/
def pushValCovTmpP (a0 a1 : ℕ) (delta0 delta1 alpha one_alpha : V) (out : ℕ → ℕ → A) :
    Prog A V V := do
  let r ← (List.range (a0 + 1)).foldlM (fun (s : CAcc0 V) b0 => do
    let c0 := a0 - b0
    let f0 : V := Arith.bin a0 b0
    let t ← (List.range (a1 + 1)).foldlM (fun (t : CAcc1 V) b1 => do
      let c1 := a1 - b1
      let cs := c0 + c1
      let o ← if cs ≠ 0 ∧ cs ≠ 1 then get (out c0 c1) else pure 0
      let tmp :=
        if cs = 0 then
          t.tmp + s.delta0_b0 * t.delta1_b1 *
            (t.minus_bb * t.alpha_bb * one_alpha + t.one_alpha_bb * alpha)
        else if cs ≠ 1 then
          t.tmp + f0 * Arith.bin a1 b1 * s.delta0_b0 * t.delta1_b1 *
            (t.minus_bb * t.alpha_bb * one_alpha * o)
        else t.tmp
      pure { tmp := tmp
             delta1_b1 := t.delta1_b1 * delta1
             alpha_bb := t.alpha_bb * alpha
             one_alpha_bb := t.one_alpha_bb * one_alpha
             minus_bb := t.minus_bb * (-1) }) ⟨s.tmp, 1, s.alpha_b0, s.minus_b0, s.one_alpha_b0⟩
    pure { tmp := t.tmp
           delta0_b0 := s.delta0_b0 * delta0
           alpha_b0 := s.alpha_b0 * alpha
           minus_b0 := s.minus_b0 * (-1)
           one_alpha_b0 := s.one_alpha_b0 * one_alpha }) ⟨0, 1, 1, 1, 1⟩
  pure r.tmp

/-- `_push_cov.py:27-96` `push_val(x0, x1, w, out)`, see `pushValCov`. -/
def pushValCovP (order0 order1 : ℕ) (x0 x1 w : V) (out : ℕ → ℕ → A) : Prog A V Unit :=
  if Arith.isZero w then pure ()
  else do
    put (out 0 0) ((← get (out 0 0)) + w)
    let alpha := w / (← get (out 0 0))
    let one_alpha := 1 - alpha
    let delta0 := x0 - (← get (out 1 0))
    let delta1 := x1 - (← get (out 0 1))
    let incr0 := delta0 * alpha
    let incr1 := delta1 * alpha
    put (out 1 0) ((← get (out 1 0)) + incr0)
    put (out 0 1) ((← get (out 0 1)) + incr1)
    (rangeDownTo order0 (max 0 (2 - order1))).foldlM (fun _ a0 =>
      (rangeDownTo order1 (max 0 (2 - a0))).foldlM (fun _ a1 => do
        let v ← pushValCovTmpP a0 a1 delta0 delta1 alpha one_alpha out
        put (out a0 a1) v) ()) ()

/-- `_push_cov.py:132-175`, `213-256`: the value stored in `out[a0, a1]` by `push_data`. -/
def pushDataCovTmpP (a0 a1 : ℕ) (delta0 delta1 alpha one_alpha : V) (data out : ℕ → ℕ → A) :
    Prog A V V := do
  let r ← (List.range (a0 + 1)).foldlM (fun (s : CAcc0 V) b0 => do
    let c0 := a0 - b0
    let f0 : V := Arith.bin a0 b0
    let t ← (List.range (a1 + 1)).foldlM (fun (t : CAcc1 V) b1 => do
      let c1 := a1 - b1
      let cs := c0 + c1
      let o ← if cs ≠ 0 ∧ cs ≠ 1 then get (out c0 c1) else pure 0
      let d ← if cs ≠ 0 ∧ cs ≠ 1 then get (data c0 c1) else pure 0
      let tmp :=
        if cs = 0 then
          t.tmp + s.delta0_b0 * t.delta1_b1 *
            (t.minus_bb * t.alpha_bb * one_alpha + t.one_alpha_bb * alpha)
        else if cs ≠ 1 then
          t.tmp + f0 * Arith.bin a1 b1 * s.delta0_b0 * t.delta1_b1 *
            (t.minus_bb * t.alpha_bb * one_alpha * o + t.one_alpha_bb * alpha * d)
        else t.tmp
      pure { tmp := tmp
             delta1_b1 := t.delta1_b1 * delta1
             alpha_bb := t.alpha_bb * alpha
             one_alpha_bb := t.one_alpha_bb * one_alpha
             minus_bb := t.minus_bb * (-1) }) ⟨s.tmp, 1, s.alpha_b0, s.minus_b0, s.one_alpha_b0⟩
    pure { tmp := t.tmp
           delta0_b0 := s.delta0_b0 * delta0
           alpha_b0 := s.alpha_b0 * alpha
           minus_b0 := s.minus_b0 * (-1)
           one_alpha_b0 := s.one_alpha_b0 * one_alpha }) ⟨0, 1, 1, 1, 1⟩
  pure r.tmp

/-- `_push_cov.py:108-175`, `189-256`, see `pushDataCovBody`. -/
def pushDataCovBodyP (order0 order1 : ℕ) (w : V) (data out : ℕ → ℕ → A) : Prog A V Unit :=
  if Arith.isZero w then pure ()
  else do
    put (out 0 0) ((← get (out 0 0)) + w)
    let alpha := w / (← get (out 0 0))
    let one_alpha := 1 - alpha
    let delta0 := (← get (data 1 0)) - (← get (out 1 0))
    let delta1 := (← get (data 0 1)) - (← get (out 0 1))
    let incr0 := delta0 * alpha
    let incr1 := delta1 * alpha
    put (out 1 0) ((← get (out 1 0)) + incr0)
    put (out 0 1) ((← get (out 0 1)) + incr1)
    (rangeDownTo order0 (max 0 (2 - order1))).foldlM (fun _ a0 =>
      (rangeDownTo order1 (max 0 (2 - a0))).foldlM (fun _ a1 => do
        let v ← pushDataCovTmpP a0 a1 delta0 delta1 alpha one_alpha data out
        put (out a0 a1) v) ()) ()

/-- `_push_cov.py:106-175` -/
def pushDataCovP (order0 order1 : ℕ) (data out : ℕ → ℕ → A) : Prog A V Unit := do
  let w ← get (data 0 0)
  pushDataCovBodyP order0 order1 w data out

/-- `_push_cov.py:187-256` -/
def pushDataScaleCovP (order0 order1 : ℕ) (data : ℕ → ℕ → A) (scale : V) (out : ℕ → ℕ → A) :
    Prog A V Unit := do
  let w := (← get (data 0 0)) * scale
  pushDataCovBodyP order0 order1 w data out

end kernels

end Cmomy.Par
