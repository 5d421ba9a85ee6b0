import Verif.Lemmas.ParLoops
import Verif.Lemmas.Indexed
import Verif.Spec.Moments
import Mathlib.Order.OrderIsoNat
import Mathlib.Data.Rat.Defs
import Mathlib.Algebra.Field.Rat

set_option linter.unusedSectionVars false

/-!
# C50: parallel kernels

Specification vocabulary: positions `P`, threads `T`; an assignment gives every position to exactly
one thread, in any order; an execution is any interleaving of the threads' loads and stores.
The first theorems hold for any kernel and any arithmetic (rounding included, provided both builds
of a kernel round each operation alike: the compiler's `fastmath` reordering is outside the model);
the later ones are about the kernels of the library.
-/

namespace Cmomy

open Spec Par

variable {A V P T : Type} [DecidableEq A] [DecidableEq T]

/-- Spec: every position is given to exactly one thread, once. -/
structure Spec.Assigns (assign : T → List P) (ps : List P) : Prop where
  nodup : ∀ t, (assign t).Nodup
  once : ∀ t u p, p ∈ assign t → p ∈ assign u → t = u
  all : ∀ p, p ∈ ps ↔ ∃ t, p ∈ assign t

/-- Spec: what one position writes, no other position reads or writes. -/
def Spec.Independent (R W : P → Set A) : Prop := ∀ p q, p ≠ q → Disjoint (W p) (R q ∪ W q)

/-- Spec: `c` occurs in some interleaving. -/
def Spec.Reaches (c c' : Config T A V) : Prop := Relation.ReflTransGen Step c c'

private theorem threads_apart {R W : P → Set A} (hi : Independent R W) {assign : T → List P}
    {ps : List P} (ha : Assigns assign ps) :
    Apart (fun t => ⋃ p ∈ assign t, R p) (fun t => ⋃ p ∈ assign t, W p) := by
  intro t u htu
  rw [Set.disjoint_left]
  intro a hW hRW
  simp only [Set.mem_iUnion, exists_prop, Set.mem_union] at hW hRW
  obtain ⟨p, hp, hWp⟩ := hW
  have key : ∀ q ∈ assign u, a ∈ R q ∪ W q → False := by
    intro q hq hRq
    have hpq : p ≠ q := by
      rintro rfl
      exact htu (ha.once t u p hp hq)
    exact Set.disjoint_left.1 (hi p q hpq) hWp hRq
  rcases hRW with ⟨q, hq, h⟩ | ⟨q, hq, h⟩
  · exact key q hq (Or.inl h)
  · exact key q hq (Or.inr h)

private theorem run_perm {R W : P → Set A} (hi : Independent R W) {prog : P → Prog A V Unit}
    (hw : ∀ p, (prog p).Within (R p) (W p)) {ps qs : List P} (h : ps.Perm qs) (m : A → V) :
    ((inOrder prog ps).run m).2 = ((inOrder prog qs).run m).2 := by
  classical
  rw [run_inOrder, run_inOrder]
  refine h.foldl_eq' ?_ m
  intro p _ q _ z
  by_cases hpq : p = q
  · subst hpq; rfl
  · exact (run_comm (hw p) (hw q) (hi p q hpq) (hi q p (fun e => hpq e.symm)) z).symm

private theorem foldl_flatMap {β : Type} (f : β → P → β) (g : T → List P) (l : List T) (b : β) :
    l.foldl (fun b t => (g t).foldl f b) b = (l.flatMap g).foldl f b := by
  induction l generalizing b with
  | nil => rfl
  | cons t l ih => rw [List.foldl_cons, ih, List.flatMap_cons, List.foldl_append]

private theorem reach_fin [Fintype T] {R W : P → Set A} (hi : Independent R W)
    {prog : P → Prog A V Unit} (hw : ∀ p, (prog p).Within (R p) (W p)) {assign : T → List P}
    {ps : List P} (ha : Assigns assign ps) (hps : ps.Nodup) (m : A → V) {c : Config T A V}
    (hr : Reaches (start prog assign m) c) :
    fin c.todo (Finset.univ.toList : List T) c.mem = ((inOrder prog ps).run m).2 := by
  rw [(steps_fin (threads_apart hi ha) (fun t => within_inOrder hw (assign t))
    (Finset.nodup_toList _) (fun t => by simp) hr).1]
  unfold fin start
  have e : (fun (m : A → V) (t : T) => ((inOrder prog (assign t)).run m).2) =
      fun m t => (assign t).foldl (fun m p => ((prog p).run m).2) m := by
    funext m t
    rw [run_inOrder]
  rw [e, foldl_flatMap, ← run_inOrder]
  refine run_perm hi hw ?_ m
  rw [List.perm_ext_iff_of_nodup ?_ hps]
  · intro p
    rw [ha.all]
    simp
  · rw [List.nodup_flatMap]
    refine ⟨fun t _ => ha.nodup t, (Finset.nodup_toList _).imp ?_⟩
    intro t u htu
    rw [Function.onFun, List.disjoint_left]
    exact fun p hp hq => htu (ha.once t u p hp hq)

/-- **C50.** Whatever the assignment of positions to threads and whatever the interleaving, once all
threads have finished the memory is the one the serial loop over the positions leaves. -/
theorem C50_schedule [Fintype T] {R W : P → Set A} (hi : Independent R W)
    {prog : P → Prog A V Unit} (hw : ∀ p, (prog p).Within (R p) (W p)) {assign : T → List P}
    {ps : List P} (ha : Assigns assign ps) (hps : ps.Nodup) (m : A → V) {c : Config T A V}
    (hr : Reaches (start prog assign m) c) (hd : c.Done) :
    c.mem = ((inOrder prog ps).run m).2 := by
  rw [← reach_fin hi hw ha hps m hr, fin_done hd]

/-- **C50.** The serial loop itself may visit the positions in any order. -/
theorem C50_serial_order {R W : P → Set A} (hi : Independent R W)
    {prog : P → Prog A V Unit} (hw : ∀ p, (prog p).Within (R p) (W p)) {ps qs : List P}
    (h : ps.Perm qs) (m : A → V) :
    ((inOrder prog ps).run m).2 = ((inOrder prog qs).run m).2 := run_perm hi hw h m

/-- **C50.** Unfinished threads can always take a step: no deadlock (whatever the threads do). -/
theorem C50_progress (c : Config T A V) (h : ¬ c.Done) : ∃ c', Step c c' := by
  unfold Config.Done at h
  push Not at h
  obtain ⟨t, ht⟩ := h
  cases e : c.todo t with
  | ret x => exact absurd e ht
  | load a k => exact ⟨_, .load t a k e⟩
  | store a v k => exact ⟨_, .store t a v k e⟩

/-- **C50.** No execution goes on forever. -/
theorem C50_terminates [Fintype T] (f : ℕ → Config T A V) : ¬ ∀ n, Step (f n) (f (n + 1)) := by
  intro h
  have hacc := acc_config (f 0)
  have : ∀ c, Acc (fun c' c : Config T A V => Step c c') c → ∀ n, f n = c → False := by
    intro c hc
    induction hc with
    | intro c _ ih =>
      rintro n rfl
      exact ih (f (n + 1)) (h n) (n + 1) rfl
  exact this _ hacc 0 rfl

/-- **C50.** From any point of any execution the call can be completed, and however it is completed
the result is the serial one. -/
theorem C50_completes [Fintype T] {R W : P → Set A} (hi : Independent R W)
    {prog : P → Prog A V Unit} (hw : ∀ p, (prog p).Within (R p) (W p)) {assign : T → List P}
    {ps : List P} (ha : Assigns assign ps) (hps : ps.Nodup) (m : A → V) {c : Config T A V}
    (hr : Reaches (start prog assign m) c) :
    (∃ c', Reaches c c' ∧ c'.Done) ∧
    ∀ c', Reaches c c' → c'.Done → c'.mem = ((inOrder prog ps).run m).2 := by
  constructor
  · clear hr
    have hacc := acc_config c
    induction hacc with
    | intro c _ ih =>
      by_cases h : c.Done
      · exact ⟨c, .refl, h⟩
      · obtain ⟨c1, h1⟩ := C50_progress c h
        obtain ⟨c2, h2, hd⟩ := ih c1 h1
        exact ⟨c2, h2.head h1, hd⟩
  · exact fun c' h hd => C50_schedule hi hw ha hps m (hr.trans h) hd

/-- **C50.** At every moment of every execution, cells that belong to no position's output hold their
initial value. -/
theorem C50_outside [Fintype T] {R W : P → Set A} {prog : P → Prog A V Unit}
    (hw : ∀ p, (prog p).Within (R p) (W p)) {assign : T → List P} (m : A → V)
    {c : Config T A V} (hr : Reaches (start prog assign m) c) {a : A} (h : ∀ p, a ∉ W p) :
    c.mem a = m a := by
  have key : (∀ t, (c.todo t).Within (⋃ p, R p) (⋃ p, W p)) ∧ c.mem a = m a := by
    induction hr with
    | refl =>
      refine ⟨fun t => (within_inOrder hw (assign t)).mono ?_ ?_, rfl⟩ <;>
      · intro a ha
        simp only [Set.mem_iUnion, exists_prop] at ha ⊢
        obtain ⟨p, _, h⟩ := ha
        exact ⟨p, h⟩
    | tail _ hs ih =>
      refine ⟨step_within (R := fun _ => ⋃ p, R p) (W := fun _ => ⋃ p, W p) ih.1 hs, ?_⟩
      cases hs with
      | load t b k e => exact ih.2
      | store t b v k e =>
        have hb := ih.1 t
        rw [e] at hb
        have hb := hb.1
        rw [← ih.2]
        refine Function.update_of_ne ?_ _ _
        rintro rfl
        simp only [Set.mem_iUnion] at hb
        obtain ⟨p, hp⟩ := hb
        exact h p hp
  exact key.2

/-- **C50.** Each position's output is what the kernel computes for that position alone from the
initial memory. -/
theorem C50_alone [Fintype T] {R W : P → Set A} (hi : Independent R W)
    {prog : P → Prog A V Unit} (hw : ∀ p, (prog p).Within (R p) (W p)) {assign : T → List P}
    {ps : List P} (ha : Assigns assign ps) (hps : ps.Nodup) (m : A → V) {c : Config T A V}
    (hr : Reaches (start prog assign m) c) (hd : c.Done) {p : P} (hp : p ∈ ps) {a : A}
    (hap : a ∈ W p) : c.mem a = ((prog p).run m).2 a := by
  classical
  rw [C50_schedule hi hw ha hps m hr hd, run_perm hi hw (List.perm_cons_erase hp), run_inOrder,
    List.foldl_cons]
  have : ∀ l : List P, p ∉ l → ∀ m' : A → V,
      l.foldl (fun m p => ((prog p).run m).2) m' a = m' a := by
    intro l
    induction l with
    | nil => intro _ _; rfl
    | cons q l ih =>
      intro hl m'
      rw [List.mem_cons, not_or] at hl
      rw [List.foldl_cons, ih hl.2]
      exact run_unwritten (hw q)
        (fun h => Set.disjoint_left.1 (hi p q hl.1) hap (Or.inr h)) m'
  exact this _ (fun h => ((List.Nodup.mem_erase_iff hps).1 h).1 rfl) _

/-! ### The library's kernels

`P` positions, each with `n` output arrays (rows); `idx` the entries of a moment array. -/

section kernels

variable {X XA I M K : Type} [Field K] [DecidableEq K] [Fintype T]

/-- Spec: no two entries, rows or positions of the outputs share a cell, and no input cell of a
position lies in an output. -/
structure Spec.Layout (idx : List I) (n : ℕ) (out : P → ℕ → I → A) (inputs : P → Set A) : Prop where
  distinct : ∀ p, ∀ r < n, ∀ r' < n, ∀ i ∈ idx, ∀ j ∈ idx, out p r i = out p r' j → r = r' ∧ i = j
  disjoint : ∀ p q, p ≠ q → ∀ r < n, ∀ r' < n, ∀ i ∈ idx, ∀ j ∈ idx, out p r i ≠ out q r' j
  inputs_kept : ∀ p q, ∀ r < n, ∀ i ∈ idx, out p r i ∉ inputs q

/-- Spec: the cells hold the entries of the array `s`. -/
def Spec.Stored (idx : List I) (entry : M → I → K) (at_ : I → A) (m : A → K) (s : M) : Prop :=
  ∀ i ∈ idx, m (at_ i) = entry s i

variable {ck : CellKernel A K X XA I} {k : Kernel K X M} {entry : M → I → K}
  {val : XA → (A → K) → X} {vc : XA → Set A}

private theorem layout_independent {n : ℕ} {out : P → ℕ → I → A} {inputs : P → Set A}
    (h : Layout ck.idx n out inputs) :
    Independent (fun p => inputs p ∪ rowsC ck n (out p)) (fun p => rowsC ck n (out p)) := by
  intro p q hpq
  rw [Set.disjoint_left]
  rintro _ ⟨r, hr, i, hi, rfl⟩ hq
  have key : out p r i ∉ rowsC ck n (out q) := by
    rintro ⟨r', hr', j, hj, e⟩
    exact h.disjoint p q hpq r hr r' hr' i hi j hj e.symm
  rcases hq with (hq | hq) | hq
  · exact h.inputs_kept p q r hr i hi hq
  · exact key hq
  · exact key hq

private theorem layout_inputs {n : ℕ} {out : P → ℕ → I → A} {inputs : P → Set A}
    (h : Layout ck.idx n out inputs) (p : P) : Disjoint (inputs p) (rowsC ck n (out p)) := by
  rw [Set.disjoint_right]
  rintro _ ⟨r, hr, i, hi, rfl⟩
  exact h.inputs_kept p p r hr i hi

private theorem par_stored {n : ℕ} {out : P → ℕ → I → A} {inputs : P → Set A}
    (hl : Layout ck.idx n out inputs) {prog : P → Prog A K Unit}
    (hw : ∀ p, (prog p).Within (inputs p ∪ rowsC ck n (out p)) (rowsC ck n (out p)))
    {assign : T → List P} {ps : List P} (ha : Assigns assign ps) (hps : ps.Nodup) (m : A → K)
    {c : Config T A K} (hr : Reaches (start prog assign m) c) (hd : c.Done) {p : P} (hp : p ∈ ps)
    {r : ℕ} (hrn : r < n) {s : M} (h : ShowsC ck entry (out p r) ((prog p).run m).2 s) :
    Stored ck.idx entry (out p r) c.mem s := by
  intro i hi
  rw [C50_alone (layout_independent hl) hw ha hps m hr hd hp ⟨r, hrn, i, hi, rfl⟩]
  exact h i hi

private theorem rows_one (out : I → A) : rowsC ck 1 (fun _ => out) = winC ck out := by
  ext a
  constructor
  · rintro ⟨_, _, i, hi, e⟩
    exact ⟨i, hi, e⟩
  · rintro ⟨i, hi, e⟩
    exact ⟨0, by omega, i, hi, e⟩

/-- **C50.** The one-variable kernels refine the array kernels: loads and stores give exactly what
`push_val`, `push_data`, `push_data_scale` compute, and touch only their own arrays. -/
theorem C50_one_variable {order : ℕ} (ho : 1 ≤ order) :
    Refines (@cell1 A K (exact K) order) (kernel1 order) (fun s i => s i) (fun x m => m x)
      (fun x => {x}) := refines1 ho

/-- **C50.** So do the two-variable kernels. -/
theorem C50_two_variables {o0 o1 : ℕ} (h0 : 1 ≤ o0) (h1 : 1 ≤ o1) :
    Refines (@cell2 A K (exact K) o0 o1) (kernel2 o0 o1) (fun s i => s i.1 i.2)
      (fun x m => (m x.1, m x.2)) (fun x => {x.1, x.2}) := refines2 h0 h1

section calls

variable (R : Refines ck k entry val vc) {assign : T → List P} {ps : List P}
  (ha : Assigns assign ps) (hps : ps.Nodup) (m : A → K) {c : Config T A K}

include R ha hps

/-- **C50.** Parallel `push_val` over any number of positions: every interleaving leaves in each
output what `push_val` gives for that position, provided the exact computation does not divide by
zero there. (`x p`, `w p`: the cells of the inputs, which may be shared between positions.) -/
theorem C50_push_val {x : P → XA} {w : P → A} {out : P → I → A}
    (hl : Layout ck.idx 1 (fun p _ => out p) (fun p => vc (x p) ∪ {w p}))
    (hr : Reaches (start (fun p => ck.gPushVal (x p) (w p) (out p)) assign m) c) (hd : c.Done)
    {p : P} (hp : p ∈ ps) {s r : M} (hs : Stored ck.idx entry (out p) m s)
    (h : k.pushVal (val (x p) m) (m (w p)) s = some r) :
    Stored ck.idx entry (out p) c.mem r := by
  refine par_stored (out := fun p _ => out p) hl (fun p => ?_) ha hps m hr hd hp (r := 0) (by omega)
    (gPushVal_shows R (RowsDistinct.row (hl.distinct p) (by omega : 0 < 1)) hs h)
  rw [rows_one]
  exact gPushVal_within R.foot _ _ _

/-- **C50.** Parallel `push_data`. -/
theorem C50_push_data {data out : P → I → A}
    (hl : Layout ck.idx 1 (fun p _ => out p) (fun p => winC ck (data p)))
    (hr : Reaches (start (fun p => ck.gPushData (data p) (out p)) assign m) c) (hd : c.Done)
    {p : P} (hp : p ∈ ps) {d s r : M} (hdat : Stored ck.idx entry (data p) m d)
    (hs : Stored ck.idx entry (out p) m s) (h : k.pushData d s = some r) :
    Stored ck.idx entry (out p) c.mem r := by
  have hin := layout_inputs hl p
  rw [rows_one] at hin
  refine par_stored (out := fun p _ => out p) hl (fun p => ?_) ha hps m hr hd hp (r := 0) (by omega)
    (R.pushData (RowsDistinct.row (hl.distinct p) (by omega : 0 < 1)) hin hdat hs h)
  rw [rows_one]
  exact gPushData_within R.foot _ _

/-- **C50.** Parallel `push_data_scale`. -/
theorem C50_push_data_scale {data out : P → I → A} {f : P → A}
    (hl : Layout ck.idx 1 (fun p _ => out p) (fun p => {f p} ∪ winC ck (data p)))
    (hr : Reaches (start (fun p => ck.gPushScale (data p) (f p) (out p)) assign m) c)
    (hd : c.Done) {p : P} (hp : p ∈ ps) {d s r : M} (hdat : Stored ck.idx entry (data p) m d)
    (hs : Stored ck.idx entry (out p) m s) (h : k.pushScale d (m (f p)) s = some r) :
    Stored ck.idx entry (out p) c.mem r := by
  have hin := layout_inputs hl p
  rw [rows_one] at hin
  refine par_stored (out := fun p _ => out p) hl (fun p => ?_) ha hps m hr hd hp (r := 0) (by omega)
    (gPushScale_shows R (RowsDistinct.row (hl.distinct p) (by omega : 0 < 1))
      (Set.disjoint_union_left.1 hin).2 hdat hs h)
  rw [rows_one]
  exact gPushScale_within R.foot _ _ _

/-- **C50.** Parallel `reduce_vals`. -/
theorem C50_reduce_vals (n : ℕ) {x : P → ℕ → XA} {w : P → ℕ → A} {out : P → I → A}
    (hl : Layout ck.idx 1 (fun p _ => out p) (fun p => vcells vc n (x p) ∪ cells n (w p)))
    (hr : Reaches (start (fun p => ck.gReduceVals n (x p) (w p) (out p)) assign m) c)
    (hd : c.Done) {p : P} (hp : p ∈ ps) {s r : M} (hs : Stored ck.idx entry (out p) m s)
    (h : k.reduceVals ((List.range n).map fun i => (val (x p i) m, m (w p i))) s = some r) :
    Stored ck.idx entry (out p) c.mem r := by
  have hin := layout_inputs hl p
  rw [rows_one] at hin
  refine par_stored (out := fun p _ => out p) hl (fun p => ?_) ha hps m hr hd hp (r := 0) (by omega)
    (gReduceVals_shows R n (RowsDistinct.row (hl.distinct p) (by omega : 0 < 1)) hin hs h)
  rw [rows_one]
  exact gReduceVals_within R.foot _ _ _ _

/-- **C50.** Parallel `reduce_data` into existing outputs. -/
theorem C50_reduce_data (n : ℕ) {data : P → ℕ → I → A} {out : P → I → A}
    (hl : Layout ck.idx 1 (fun p _ => out p) (fun p => rowsC ck n (data p)))
    (hr : Reaches (start (fun p => ck.gReduceData n (data p) (out p)) assign m) c)
    (hd : c.Done) {p : P} (hp : p ∈ ps) {d : ℕ → M} {s r : M}
    (hdat : ∀ i < n, Stored ck.idx entry (data p i) m (d i))
    (hs : Stored ck.idx entry (out p) m s)
    (h : k.reduceData ((List.range n).map d) s = some r) :
    Stored ck.idx entry (out p) c.mem r := by
  have hin := layout_inputs hl p
  rw [rows_one] at hin
  refine par_stored (out := fun p _ => out p) hl (fun p => ?_) ha hps m hr hd hp (r := 0) (by omega)
    (gReduceData_shows R n (RowsDistinct.row (hl.distinct p) (by omega : 0 < 1)) hin hdat hs h)
  rw [rows_one]
  exact gReduceData_within R.foot _ _ _

/-- **C50.** Parallel `reduce_data_fromzero`: also the previous contents of the outputs, which are
uninitialised memory, have no influence. -/
theorem C50_reduce_data_fromzero (n : ℕ) {data : P → ℕ → I → A} {out : P → I → A}
    (hl : Layout ck.idx 1 (fun p _ => out p) (fun p => rowsC ck n (data p)))
    (hr : Reaches (start (fun p =>
      @CellKernel.gReduceDataFromzero A K X XA I (exact K) ck n (data p) (out p)) assign m) c)
    (hd : c.Done) {p : P} (hp : p ∈ ps) {d : ℕ → M} {r : M}
    (hdat : ∀ i < n, Stored ck.idx entry (data p i) m (d i))
    (h : k.reduceDataFromZero ((List.range n).map d) = some r) :
    Stored ck.idx entry (out p) c.mem r := by
  have hin := layout_inputs hl p
  rw [rows_one] at hin
  refine par_stored (out := fun p _ => out p) hl (fun p => ?_) ha hps m hr hd hp (r := 0) (by omega)
    (gReduceDataFromzero_shows R n (RowsDistinct.row (hl.distinct p) (by omega : 0 < 1)) hin hdat h)
  rw [rows_one]
  exact @gReduceDataFromzero_within A K X XA I ck vc (exact K) R.foot _ _ _

/-- **C50.** Parallel `cumulative`: row `i` of each output is entry `i` of the serial result. -/
theorem C50_cumulative (n : ℕ) {data out : P → ℕ → I → A}
    (hl : Layout ck.idx n out (fun p => rowsC ck n (data p)))
    (hr : Reaches (start (fun p => ck.gCumulative n (data p) (out p)) assign m) c) (hd : c.Done)
    {p : P} (hp : p ∈ ps) {d : ℕ → M} {rs : List M}
    (hdat : ∀ i < n, Stored ck.idx entry (data p i) m (d i))
    (h : k.cumulative ((List.range n).map d) = some rs) :
    rs.length = n ∧ ∀ i (hi : i < rs.length), Stored ck.idx entry (out p i) c.mem rs[i] := by
  have hlen := (cumulative_spec h).1
  refine ⟨hlen, fun i hi => ?_⟩
  exact par_stored hl (fun _ => @gCumulative_within A K X XA I ck vc (exact K) R.foot _ _ _) ha hps m hr hd hp
    (by omega) (gCumulative_shows R n (hl.distinct p) (layout_inputs hl p) hdat h hi)

private theorem inverseGo_get (k : Kernel K X M) {prev : M} {l rs : List M}
    (h : k.cumulativeInverseGo prev l = some rs) :
    rs.length = l.length ∧ ∀ i (hi : i < l.length) (hi' : i < rs.length),
      k.pushScale ((prev :: l)[i]'(by simp; omega)) (-1) l[i] = some rs[i] := by
  clear R ha hps
  induction l generalizing prev rs with
  | nil => cases h; exact ⟨rfl, fun i hi => by simp at hi⟩
  | cons d ds ih =>
    unfold Kernel.cumulativeInverseGo at h
    obtain ⟨r, hr, h⟩ := Option.bind_eq_some_iff.1 h
    obtain ⟨rs', hrs, h⟩ := Option.bind_eq_some_iff.1 h
    cases h
    obtain ⟨hlen, hs⟩ := ih hrs
    refine ⟨by simp [hlen], fun i hi hi' => ?_⟩
    cases i with
    | zero => exact hr
    | succ i => exact hs i (by simpa using hi) (by simpa using hi')

/-- **C50.** Parallel `cumulative_inverse` (`cumulative(inverse=True)`). -/
theorem C50_cumulative_inverse (n : ℕ) {data out : P → ℕ → I → A}
    (hl : Layout ck.idx n out (fun p => rowsC ck n (data p)))
    (hr : Reaches (start (fun p =>
      @CellKernel.gCumulativeInverse A K X XA I (exact K) ck n (data p) (out p)) assign m) c)
    (hd : c.Done) {p : P} (hp : p ∈ ps) {d : ℕ → M} {rs : List M}
    (hdat : ∀ i < n, Stored ck.idx entry (data p i) m (d i))
    (h : k.cumulativeInverse ((List.range n).map d) = some rs) :
    rs.length = n ∧ ∀ i (hi : i < rs.length), Stored ck.idx entry (out p i) c.mem rs[i] := by
  have key : rs.length = n ∧ ∀ i (hi : i < rs.length),
      (if i = 0 then some (d 0) else k.pushScale (d (i - 1)) (-1) (d i)) = some rs[i] := by
    cases n with
    | zero => cases h; exact ⟨rfl, fun i hi => by simp at hi⟩
    | succ n =>
      rw [List.range_succ_eq_map, List.map_cons] at h
      unfold Kernel.cumulativeInverse at h
      obtain ⟨rs', hrs, h⟩ := Option.bind_eq_some_iff.1 h
      cases h
      obtain ⟨hlen, hs⟩ := inverseGo_get R ha hps k hrs
      simp only [List.length_map, List.length_range] at hlen
      refine ⟨by simp [hlen], fun i hi => ?_⟩
      cases i with
      | zero => rfl
      | succ i =>
        simp only [List.length_cons] at hi
        have := hs i (by simp; omega) (by omega)
        rw [if_neg (by omega), List.getElem_cons_succ, ← this]
        cases i with
        | zero => simp
        | succ i => simp
  refine ⟨key.1, fun i hi => ?_⟩
  exact par_stored hl
    (fun _ => @gCumulativeInverse_within A K X XA I ck vc (exact K) R.foot _ _ _) ha hps m hr hd hp
    (by omega) (gCumulativeInverse_shows R n (hl.distinct p) (layout_inputs hl p) hdat (by omega)
      (key.2 i hi))

/-- **C50.** Parallel `reduce_data_grouped`: each group's row gets the samples labelled with it, in
order, and negative labels are skipped. -/
theorem C50_grouped {group : List ℤ} {ngroup : ℕ} (hg : ∀ g ∈ group, g < ngroup)
    {data out : P → ℕ → I → A}
    (hl : Layout ck.idx ngroup out (fun p => rowsC ck group.length (data p)))
    (hr : Reaches (start (fun p => ck.gReduceGrouped group (data p) (out p)) assign m) c)
    (hd : c.Done) {p : P} (hp : p ∈ ps) {d : ℕ → M} {g : ℕ} (hlt : g < ngroup) {s r : M}
    (hdat : ∀ i < group.length, Stored ck.idx entry (data p i) m (d i))
    (hs : Stored ck.idx entry (out p g) m s)
    (h : k.reduceData (((List.range group.length).filter fun i =>
      decide (group.getD i (-1) = (g : ℤ))).map d) s = some r) :
    Stored ck.idx entry (out p g) c.mem r :=
  par_stored hl
    (fun _ => @gReduceGrouped_within A K X XA I ck vc (exact K) R.foot group ngroup hg _ _)
    ha hps m hr hd hp hlt
    (gReduceGrouped_shows R hg (hl.distinct p) (layout_inputs hl p) hdat hlt hs h)

/-- **C50.** Parallel `reduce_data_indexed_fromzero`, for index arrays the validation accepts. -/
theorem C50_indexed {index start_ stop : List ℤ} {ndat : ℕ}
    (hv : Indexed.validateIndex ndat index start_ stop = .ok ()) {scale : P → ℕ → A}
    {data out : P → ℕ → I → A}
    (hl : Layout ck.idx start_.length out
      (fun p => cells index.length (scale p) ∪ rowsC ck ndat (data p)))
    (hr : Reaches (start (fun p => @CellKernel.gReduceIndexed A K X XA I (exact K) ck index start_
      stop (scale p) (data p) (out p)) assign m) c)
    (hd : c.Done) {p : P} (hp : p ∈ ps) {d : ℕ → M} {g : ℕ} (hg : g < start_.length) {r : M}
    (hdat : ∀ i < ndat, Stored ck.idx entry (data p i) m (d i))
    (h : Indexed.row k ((List.range ndat).map d) index
      ((List.range index.length).map fun i => m (scale p i)) (start_.getD g 0) (stop.getD g 0) =
      .ok (some r)) :
    Stored ck.idx entry (out p g) c.mem r := by
  have hin : InRange ndat index start_ stop := by
    obtain ⟨hlen, hle, h⟩ := (Indexed.validateIndex_iff ndat index start_ stop).1 hv
    have ms : ∀ g < start_.length, start_.getD g 0 ∈ start_ := fun g hg => by
      rw [List.getD_eq_getElem _ _ hg]; exact List.getElem_mem hg
    have mt : ∀ g < start_.length, stop.getD g 0 ∈ stop := fun g hg => by
      rw [List.getD_eq_getElem _ _ (hlen ▸ hg)]; exact List.getElem_mem _
    rcases h with ⟨rfl, h1, h2⟩ | ⟨-, -, -, h1, h2, h3⟩
    · exact ⟨hlen, by simp, fun g hg => (h1 _ (ms g hg)).ge, fun g hg => by
        rw [h2 _ (mt g hg)]; simp⟩
    · exact ⟨hlen, h1, fun g hg => (h2 _ (ms g hg)).1, fun g hg => by
        have := (h3 _ (mt g hg)).2; omega⟩
  exact par_stored hl
    (fun _ => @gReduceIndexed_within A K X XA I ck vc (exact K) R.foot _ _ _ _ hin _ _ _) ha hps m hr
    hd hp hg (gReduceIndexed_shows R hin (hl.distinct p) (layout_inputs hl p) hdat hg h)

/-- **C50.** Parallel `resample_data_fromzero`. -/
theorem C50_resample_data {nrep nsamp : ℕ} {freq : P → ℕ → ℕ → A} {data out : P → ℕ → I → A}
    (hl : Layout ck.idx nrep out (fun p => table nrep nsamp (freq p) ∪ rowsC ck nsamp (data p)))
    (hr : Reaches (start (fun p => @CellKernel.gResampleData A K X XA I (exact K) ck nrep nsamp
      (freq p) (data p) (out p)) assign m) c)
    (hd : c.Done) {p : P} (hp : p ∈ ps) {d : ℕ → M} {q : ℕ} (hq : q < nrep) {r : M}
    (hdat : ∀ i < nsamp, Stored ck.idx entry (data p i) m (d i))
    (h : k.resampleDataRow ((List.range nsamp).map fun i => (m (freq p q i), d i)) = some r) :
    Stored ck.idx entry (out p q) c.mem r :=
  par_stored hl (fun _ => @gResampleData_within A K X XA I ck vc (exact K) R.foot _ _ _ _ _) ha hps m
    hr hd hp hq (gResampleData_shows R (hl.distinct p) (layout_inputs hl p) hdat hq h)

/-- **C50.** Parallel `resample_vals`. -/
theorem C50_resample_vals {nrep nsamp : ℕ} {freq : P → ℕ → ℕ → A} {x : P → ℕ → XA}
    {w : P → ℕ → A} {out : P → ℕ → I → A}
    (hl : Layout ck.idx nrep out (fun p => table nrep nsamp (freq p) ∪
      (vcells vc nsamp (x p) ∪ cells nsamp (w p))))
    (hr : Reaches (start (fun p => @CellKernel.gResampleVals A K X XA I (exact K) ck nrep nsamp
      (freq p) (x p) (w p) (out p)) assign m) c)
    (hd : c.Done) {p : P} (hp : p ∈ ps) {q : ℕ} (hq : q < nrep) {s r : M}
    (hs : Stored ck.idx entry (out p q) m s)
    (h : k.resampleValsRow ((List.range nsamp).map fun i =>
      (m (freq p q i), val (x p i) m, m (w p i))) s = some r) :
    Stored ck.idx entry (out p q) c.mem r :=
  par_stored hl (fun _ => @gResampleVals_within A K X XA I ck vc (exact K) R.foot _ _ _ _ _ _) ha hps
    m hr hd hp hq (gResampleVals_shows R (hl.distinct p) (layout_inputs hl p) hq hs h)

/-- **C50.** Parallel `jackknife_data_fromzero`. -/
theorem C50_jackknife_data {n : ℕ} {reduced : P → I → A} {data out : P → ℕ → I → A}
    (hl : Layout ck.idx n out (fun p => winC ck (reduced p) ∪ rowsC ck n (data p)))
    (hr : Reaches (start (fun p => @CellKernel.gJackknifeData A K X XA I (exact K) ck n (reduced p)
      (data p) (out p)) assign m) c)
    (hd : c.Done) {p : P} (hp : p ∈ ps) {s : M} {d : ℕ → M} {q : ℕ} (hq : q < n) {r : M}
    (hs : Stored ck.idx entry (reduced p) m s)
    (hdat : ∀ i < n, Stored ck.idx entry (data p i) m (d i))
    (h : (k.jackknifeDataKernel s ((List.range n).map d))[q]? = some (some r)) :
    Stored ck.idx entry (out p q) c.mem r := by
  refine par_stored hl (fun _ => @gJackknifeData_within A K X XA I ck vc (exact K) R.foot _ _ _ _) ha
    hps m hr hd hp hq (gJackknifeData_shows R (hl.distinct p) (layout_inputs hl p) hs hdat hq ?_)
  unfold Kernel.jackknifeDataKernel at h
  rw [List.getElem?_map, List.getElem?_map, List.getElem?_range hq] at h
  exact Option.some.inj h

/-- **C50.** Parallel `jackknife_vals_fromzero`. -/
theorem C50_jackknife_vals {n : ℕ} {reduced : P → I → A} {x : P → ℕ → XA} {w : P → ℕ → A}
    {out : P → ℕ → I → A}
    (hl : Layout ck.idx n out
      (fun p => winC ck (reduced p) ∪ (vcells vc n (x p) ∪ cells n (w p))))
    (hr : Reaches (start (fun p => @CellKernel.gJackknifeVals A K X XA I (exact K) ck n (reduced p)
      (x p) (w p) (out p)) assign m) c)
    (hd : c.Done) {p : P} (hp : p ∈ ps) {s : M} {q : ℕ} (hq : q < n) {r : M}
    (hs : Stored ck.idx entry (reduced p) m s)
    (h : (k.jackknifeValsKernel s ((List.range n).map fun i => (val (x p i) m, m (w p i))))[q]? =
      some (some r)) :
    Stored ck.idx entry (out p q) c.mem r := by
  refine par_stored hl (fun _ => @gJackknifeVals_within A K X XA I ck vc (exact K) R.foot _ _ _ _ _)
    ha hps m hr hd hp hq (gJackknifeVals_shows R (hl.distinct p) (layout_inputs hl p) hs hq ?_)
  unfold Kernel.jackknifeValsKernel at h
  rw [List.getElem?_map, List.getElem?_map, List.getElem?_range hq] at h
  exact Option.some.inj h

end calls

/-- **C50.** The same call spelled out for two variables: `reduce_vals` of `wrap_reduce_vals`-type
calls, from zeroed outputs. -/
theorem C50_reduce_vals_two {o0 o1 : ℕ} (h0 : 1 ≤ o0) (h1 : 1 ≤ o1) (n : ℕ)
    {x y w : P → ℕ → A} {out : P → ℕ × ℕ → A} {assign : T → List P} {ps : List P}
    (ha : Assigns assign ps) (hps : ps.Nodup) (m : A → K) {c : Config T A K}
    (hl : Layout (@cell2 A K (exact K) o0 o1).idx 1 (fun p _ => out p)
      (fun p => {a | ∃ i < n, a = x p i ∨ a = y p i ∨ a = w p i}))
    (hz : ∀ p i, m (out p i) = 0)
    (hr : Reaches (start (fun p => (@cell2 A K (exact K) o0 o1).gReduceVals n
      (fun i => (x p i, y p i)) (w p) (out p)) assign m) c)
    (hd : c.Done) {p : P} (hp : p ∈ ps) {r : Com K}
    (h : (kernel2 o0 o1).reduceValsFromZero ((List.range n).map fun i =>
      ((m (x p i), m (y p i)), m (w p i))) = some r) :
    EqUpTo2 o0 o1 (fun i j => c.mem (out p (i, j))) r := by
  intro i j hi hj
  refine C50_reduce_vals (C50_two_variables h0 h1) ha hps m n (x := fun p i => (x p i, y p i))
    (w := w) ⟨hl.distinct, hl.disjoint, fun p q r hr i hi => ?_⟩ hr hd hp
    (s := (kernel2 o0 o1).zero) (fun i _ => hz p i) h (i, j)
    ((@mem_idx2 A K (exact K) o0 o1 i j).2 ⟨hi, hj⟩)
  rintro (⟨t, ht, e | e⟩ | ⟨t, ht, e⟩)
  · exact hl.inputs_kept p q r hr i hi ⟨t, ht, Or.inl e⟩
  · exact hl.inputs_kept p q r hr i hi ⟨t, ht, Or.inr (Or.inl e)⟩
  · exact hl.inputs_kept p q r hr i hi ⟨t, ht, Or.inr (Or.inr e.symm)⟩

end kernels

/-- **C50.** Footprints, for any arithmetic (rounding included): each kernel reads only its inputs and
its own output and writes only its own output, so `C50_schedule` and `C50_alone` apply to it. -/
theorem C50_footprints {X XA I : Type} [Arith V] {k : CellKernel A V X XA I} {vc : XA → Set A}
    (hk : Footprint k vc) (n nrep : ℕ) (x : ℕ → XA) (w : ℕ → A) (data outs : ℕ → I → A)
    (freq : ℕ → ℕ → A) (out d : I → A) (group : List ℤ) (ngroup : ℕ)
    (hg : ∀ g ∈ group, g < ngroup) :
    (k.gPushVal (x 0) (w 0) out).Within (vc (x 0) ∪ {w 0} ∪ winC k out) (winC k out) ∧
    (k.gPushData d out).Within (winC k d ∪ winC k out) (winC k out) ∧
    (k.gPushScale d (w 0) out).Within ({w 0} ∪ winC k d ∪ winC k out) (winC k out) ∧
    (k.gReduceVals n x w out).Within (vcells vc n x ∪ cells n w ∪ winC k out) (winC k out) ∧
    (k.gReduceData n data out).Within (rowsC k n data ∪ winC k out) (winC k out) ∧
    (k.gReduceDataFromzero n data out).Within (rowsC k n data ∪ winC k out) (winC k out) ∧
    (k.gCumulative n data outs).Within (rowsC k n data ∪ rowsC k n outs) (rowsC k n outs) ∧
    (k.gCumulativeInverse n data outs).Within (rowsC k n data ∪ rowsC k n outs)
      (rowsC k n outs) ∧
    (k.gReduceGrouped group data outs).Within
      (rowsC k group.length data ∪ rowsC k ngroup outs) (rowsC k ngroup outs) ∧
    (k.gResampleData nrep n freq data outs).Within
      (table nrep n freq ∪ rowsC k n data ∪ rowsC k nrep outs) (rowsC k nrep outs) ∧
    (k.gResampleVals nrep n freq x w outs).Within
      (table nrep n freq ∪ (vcells vc n x ∪ cells n w) ∪ rowsC k nrep outs) (rowsC k nrep outs) ∧
    (k.gJackknifeData n out data outs).Within
      (winC k out ∪ rowsC k n data ∪ rowsC k n outs) (rowsC k n outs) ∧
    (k.gJackknifeVals n out x w outs).Within
      (winC k out ∪ (vcells vc n x ∪ cells n w) ∪ rowsC k n outs) (rowsC k n outs) :=
  ⟨gPushVal_within hk _ _ _, gPushData_within hk _ _, gPushScale_within hk _ _ _,
   gReduceVals_within hk _ _ _ _, gReduceData_within hk _ _ _, gReduceDataFromzero_within hk _ _ _,
   gCumulative_within hk _ _ _, gCumulativeInverse_within hk _ _ _,
   gReduceGrouped_within hk group ngroup hg _ _, gResampleData_within hk _ _ _ _ _,
   gResampleVals_within hk _ _ _ _ _ _, gJackknifeData_within hk _ _ _ _,
   gJackknifeVals_within hk _ _ _ _ _⟩

/-- **C50.** The library's pushers have these footprints in any arithmetic. -/
theorem C50_footprints_pushers [Arith V] {order o0 o1 : ℕ} (ho : 1 ≤ order) (h0 : 1 ≤ o0)
    (h1 : 1 ≤ o1) :
    Footprint (cell1 order : CellKernel A V V A ℕ) (fun x => {x}) ∧
    Footprint (cell2 o0 o1 : CellKernel A V (V × V) (A × A) (ℕ × ℕ)) (fun x => {x.1, x.2}) :=
  ⟨footprint1 ho, footprint2 h0 h1⟩

/-! ### Examples -/

/-- Run the scheduled threads one step each. -/
private def exec1 {T : Type} [DecidableEq T] (c : Config T A V) (t : T) : Config T A V :=
  match c.todo t with
  | .ret _ => c
  | .load a k => ⟨Function.update c.todo t (k (c.mem a)), c.mem⟩
  | .store a v k => ⟨Function.update c.todo t k, Function.update c.mem a v⟩

private theorem exec_reaches (c : Config T A V) (sched : List T) :
    Reaches c (sched.foldl exec1 c) := by
  induction sched generalizing c with
  | nil => exact .refl
  | cons t l ih =>
    rw [List.foldl_cons]
    refine Relation.ReflTransGen.trans ?_ (ih _)
    unfold exec1
    cases h : c.todo t with
    | ret x => exact .refl
    | load a k => exact .single (.load t a k h)
    | store a v k => exact .single (.store t a v k h)

private def isDone {T : Type} (c : Config T A V) (t : T) : Bool :=
  match c.todo t with
  | .ret _ => true
  | _ => false

private theorem done_of_isDone (c : Config T A V) (h : ∀ t, isDone c t = true) : c.Done := by
  intro t
  have := h t
  unfold isDone at this
  cases e : c.todo t with
  | ret x => rfl
  | load a k => rw [e] at this; cases this
  | store a v k => rw [e] at this; cases this

/-- Two threads, two positions with outputs in cells 0-2 and 10-12, interleaved step by step. -/
private def demo : Config Bool ℕ ℚ :=
  start (fun p : Bool => @pushValP ℕ ℚ (exact ℚ) 2 (if p then 5 else 7) 2
    (fun i => if p then i else 10 + i)) (fun t => [t])
    (fun a => if a = 0 then 2 else if a = 1 then 3 else 0)

example : ∃ c, Reaches demo c ∧ c.Done ∧ c.mem 0 = 4 ∧ c.mem 1 = 4 ∧ c.mem 2 = 1 ∧ c.mem 11 = 7 := by
  refine ⟨((List.replicate 12 [true, false, false]).flatten ++ List.replicate 12 true).foldl exec1 demo,
    exec_reaches _ _, done_of_isDone _ (by decide +kernel), ?_⟩
  decide +kernel

/-- A layout: cells are (position, output?, row, entry). The hypotheses of the kernel theorems are met
for any number of positions, rows and moments. -/
example (order n : ℕ) : Layout (A := ℕ × Bool × ℕ × ℕ) (@cell1 (ℕ × Bool × ℕ × ℕ) ℚ (exact ℚ) order).idx
    n (fun p r i => (p, true, r, i)) (fun p => rowsC (@cell1 (ℕ × Bool × ℕ × ℕ) ℚ (exact ℚ) order) n
      (fun r i => (p, false, r, i))) := by
  refine ⟨?_, ?_, ?_⟩
  · intro p r _ r' _ i _ j _ h
    simp only [Prod.mk.injEq, true_and] at h
    exact h
  · intro p q hpq r _ r' _ i _ j _ h
    exact hpq (Prod.mk.inj h).1
  · rintro p q r _ i _ ⟨_, _, _, _, h⟩
    simp at h

/-- Two threads run `cumulative` on their own three samples (weights 1, values 1, 2, 6 and 0, 0, 3),
interleaved: the last rows are the means 3 and 1 of all three, the middle rows those of the first
two. -/
private def demoCum : Config Bool (Bool × Bool × ℕ × ℕ) ℚ :=
  start (fun p : Bool => (@cell1 (Bool × Bool × ℕ × ℕ) ℚ (exact ℚ) 1).gCumulative 3
    (fun r i => (p, false, r, i)) (fun r i => (p, true, r, i))) (fun t => [t])
    (fun a => if a.2.1 then -7 else if a.2.2.2 = 0 then 1 else
      if a.1 then ([1, 2, 6] : List ℚ).getD a.2.2.1 0 else ([0, 0, 3] : List ℚ).getD a.2.2.1 0)

example : ∃ c, Reaches demoCum c ∧ c.Done ∧ c.mem (true, true, 2, 0) = 3 ∧
    c.mem (true, true, 2, 1) = 3 ∧ c.mem (true, true, 1, 1) = 3 / 2 ∧
    c.mem (false, true, 2, 1) = 1 ∧ c.mem (false, true, 0, 0) = 1 := by
  refine ⟨((List.replicate 40 [true, false, false]).flatten ++ List.replicate 60 true).foldl exec1
    demoCum, exec_reaches _ _, done_of_isDone _ (by decide +kernel), ?_⟩
  decide +kernel

/-- Two positions whose outputs are the same cells, as for an output broadcast over the values. -/
private def race : Config Bool ℕ ℚ :=
  start (fun p : Bool => @pushValP ℕ ℚ (exact ℚ) 1 (if p then 5 else 7) 1 (fun i => i))
    (fun t => [t]) (fun _ => 0)

/-- **C50.** The independence hypothesis is needed, and the library does not check it: two positions
that push into the same output (an output broadcast over the values) can lose an update. One
schedule gives weight 2, another weight 1. -/
theorem C50_shared_output_races :
    (∃ c, Reaches race c ∧ c.Done ∧ c.mem 0 = 2) ∧ (∃ c, Reaches race c ∧ c.Done ∧ c.mem 0 = 1) := by
  refine ⟨⟨(List.replicate 10 true ++ List.replicate 10 false).foldl exec1 race, exec_reaches _ _,
    done_of_isDone _ (by decide +kernel), by decide +kernel⟩,
    ⟨((List.replicate 10 [true, false]).flatten).foldl exec1 race, exec_reaches _ _,
    done_of_isDone _ (by decide +kernel), by decide +kernel⟩⟩

end Cmomy
