import Verif.Model.Parallel
import Mathlib.Logic.Relation
import Mathlib.Data.Set.Lattice
import Mathlib.Data.List.Perm.Basic
import Mathlib.Data.Fintype.Basic
import Mathlib.Order.WellFounded

set_option linter.unusedSectionVars false

/-! Helper lemmas for the parallel kernels. -/

namespace Cmomy.Par

variable {A V α β T P : Type}

/-- The program reads only cells of `R` and writes only cells of `W`, whatever the memory holds. -/
def Prog.Within (R W : Set A) : Prog A V α → Prop
  | .ret _ => True
  | .load a k => a ∈ R ∧ ∀ v, (k v).Within R W
  | .store a _ k => a ∈ W ∧ k.Within R W

theorem Prog.Within.bind {R W : Set A} {p : Prog A V α} {f : α → Prog A V β}
    (hp : p.Within R W) (hf : ∀ x, (f x).Within R W) : (p >>= f).Within R W := by
  change (Prog.bind p f).Within R W
  induction p with
  | ret x => exact hf x
  | load a k ih => exact ⟨hp.1, fun v => ih v (hp.2 v)⟩
  | store a v k ih => exact ⟨hp.1, ih hp.2⟩

theorem Prog.Within.pure {R W : Set A} (x : α) : (Pure.pure x : Prog A V α).Within R W := trivial

theorem within_get {R W : Set A} {a : A} (h : a ∈ R) : (get a : Prog A V V).Within R W :=
  ⟨h, fun _ => trivial⟩

theorem within_put {R W : Set A} {a : A} (v : V) (h : a ∈ W) : (put a v).Within R W :=
  ⟨h, trivial⟩

theorem Prog.Within.foldlM {R W : Set A} {ι : Type} {f : α → ι → Prog A V α} (l : List ι) (s : α)
    (hf : ∀ s, ∀ x ∈ l, (f s x).Within R W) : (l.foldlM f s).Within R W := by
  induction l generalizing s with
  | nil => exact trivial
  | cons x l ih =>
    rw [List.foldlM_cons]
    exact (hf s x List.mem_cons_self).bind fun s' => ih s' fun s y hy =>
      hf s y (List.mem_cons_of_mem _ hy)

theorem Prog.Within.mono {R W R' W' : Set A} (hR : R ⊆ R') (hW : W ⊆ W') {p : Prog A V α}
    (h : p.Within R W) : p.Within R' W' := by
  induction p with
  | ret x => trivial
  | load a k ih => exact ⟨hR h.1, fun v => ih v (h.2 v)⟩
  | store a v k ih => exact ⟨hW h.1, ih h.2⟩

theorem within_inOrder {R W : P → Set A} {prog : P → Prog A V Unit}
    (h : ∀ p, (prog p).Within (R p) (W p)) (ps : List P) :
    (inOrder prog ps).Within (⋃ p ∈ ps, R p) (⋃ p ∈ ps, W p) := by
  induction ps with
  | nil => trivial
  | cons p ps ih =>
    refine Prog.Within.bind ((h p).mono ?_ ?_) fun _ => ih.mono ?_ ?_ <;>
    · intro a ha
      simp only [List.mem_cons, Set.mem_iUnion, exists_prop] at *
      grind

section run

variable [DecidableEq A]

@[simp] theorem run_bind (p : Prog A V α) (f : α → Prog A V β) (m : A → V) :
    (p >>= f).run m = (f (p.run m).1).run (p.run m).2 := by
  change (Prog.bind p f).run m = _
  induction p generalizing m with
  | ret x => rfl
  | load a k ih => exact ih (m a) m
  | store a v k ih => exact ih _

@[simp] theorem run_pure (x : α) (m : A → V) : (pure x : Prog A V α).run m = (x, m) := rfl

@[simp] theorem run_get (a : A) (m : A → V) : (get a : Prog A V V).run m = (m a, m) := rfl

@[simp] theorem run_put (a : A) (v : V) (m : A → V) :
    (put a v : Prog A V Unit).run m = ((), Function.update m a v) := rfl

theorem run_unwritten {R W : Set A} {p : Prog A V α} (h : p.Within R W) {a : A} (ha : a ∉ W)
    (m : A → V) : (p.run m).2 a = m a := by
  induction p generalizing m with
  | ret x => rfl
  | load b k ih => exact ih (m b) (h.2 _) m
  | store b v k ih =>
    change ((k.run (Function.update m b v)).2) a = m a
    rw [ih h.2, Function.update_of_ne]
    rintro rfl
    exact ha h.1

theorem run_update {R W : Set A} {p : Prog A V α} (h : p.Within R W) {a : A} (hR : a ∉ R)
    (hW : a ∉ W) (v : V) (m : A → V) :
    p.run (Function.update m a v) = ((p.run m).1, Function.update (p.run m).2 a v) := by
  induction p generalizing m with
  | ret x => rfl
  | load b k ih =>
    have hb : b ≠ a := by rintro rfl; exact hR h.1
    change (k (Function.update m a v b)).run _ = ((k (m b)).run m |>.1, _)
    rw [Function.update_of_ne hb]
    exact ih (m b) (h.2 _) m
  | store b u k ih =>
    have hb : b ≠ a := by rintro rfl; exact hW h.1
    change k.run (Function.update (Function.update m a v) b u) = _
    rw [Function.update_comm hb.symm, ih h.2]
    rfl

/-- Two programs, neither of which touches what the other writes, commute. -/
theorem run_comm {R W R' W' : Set A} {p : Prog A V α} {q : Prog A V β} (hp : p.Within R W)
    (hq : q.Within R' W') (h1 : Disjoint W (R' ∪ W')) (h2 : Disjoint W' (R ∪ W)) (m : A → V) :
    (p.run (q.run m).2).2 = (q.run (p.run m).2).2 := by
  induction p generalizing m with
  | ret x => rfl
  | load a k ih =>
    have ha : a ∉ W' := fun h => Set.disjoint_left.1 h2 h (Or.inl hp.1)
    change ((k ((q.run m).2 a)).run _).2 = (q.run ((k (m a)).run m).2).2
    rw [run_unwritten hq ha]
    exact ih (m a) (hp.2 _) m
  | store a v k ih =>
    have ha := Set.disjoint_left.1 h1 hp.1
    change (k.run (Function.update (q.run m).2 a v)).2 = (q.run (k.run (Function.update m a v)).2).2
    rw [← ih hp.2, run_update hq (fun h => ha (Or.inl h)) (fun h => ha (Or.inr h))]

theorem run_inOrder (prog : P → Prog A V Unit) (ps : List P) (m : A → V) :
    ((inOrder prog ps).run m).2 = ps.foldl (fun m p => ((prog p).run m).2) m := by
  induction ps generalizing m with
  | nil => rfl
  | cons p ps ih =>
    change ((prog p >>= fun _ => inOrder prog ps).run m).2 = _
    rw [run_bind, ih]
    rfl

/-! ### interleavings -/

variable [DecidableEq T]

/-- Disjointness of threads. -/
def Apart (R W : T → Set A) : Prop := ∀ t u, t ≠ u → Disjoint (W t) (R u ∪ W u)

/-- Memory after the remaining work is done thread by thread. -/
def fin (todo : T → Prog A V Unit) (l : List T) (m : A → V) : A → V :=
  l.foldl (fun m t => ((todo t).run m).2) m

theorem fin_cons (todo : T → Prog A V Unit) (t : T) (l : List T) (m : A → V) :
    fin todo (t :: l) m = fin todo l ((todo t).run m).2 := rfl

theorem fin_congr {todo todo' : T → Prog A V Unit} {l : List T} (h : ∀ t ∈ l, todo t = todo' t)
    (m : A → V) : fin todo l m = fin todo' l m := by
  induction l generalizing m with
  | nil => rfl
  | cons t l ih =>
    rw [fin_cons, fin_cons, h t List.mem_cons_self]
    exact ih (fun t ht => h t (List.mem_cons_of_mem _ ht)) _

theorem fin_load {R W : T → Set A} (hA : Apart R W) {todo : T → Prog A V Unit}
    (hw : ∀ t, (todo t).Within (R t) (W t)) {l : List T} (hl : l.Nodup) {t : T} (ht : t ∈ l)
    {a : A} {k : V → Prog A V Unit} (h : todo t = .load a k) (m : A → V) :
    fin (Function.update todo t (k (m a))) l m = fin todo l m := by
  have ha : a ∈ R t := by have := hw t; rw [h] at this; exact this.1
  induction l generalizing m with
  | nil => simp at ht
  | cons u l ih =>
    rw [List.nodup_cons] at hl
    rw [fin_cons, fin_cons]
    by_cases hu : u = t
    · subst hu
      rw [Function.update_self, fin_congr (todo' := todo), h]
      · rfl
      · intro s hs
        rw [Function.update_of_ne]
        rintro rfl
        exact hl.1 hs
    · rw [Function.update_of_ne hu]
      have hm : ((todo u).run m).2 a = m a :=
        run_unwritten (hw u) (fun h => Set.disjoint_left.1 (hA u t hu) h (Or.inl ha)) m
      rw [← hm]
      exact ih hl.2 ((List.mem_cons.1 ht).resolve_left (fun h => hu h.symm)) _

theorem fin_store {R W : T → Set A} (hA : Apart R W) {todo : T → Prog A V Unit}
    (hw : ∀ t, (todo t).Within (R t) (W t)) {l : List T} (hl : l.Nodup) {t : T} (ht : t ∈ l)
    {a : A} {v : V} {k : Prog A V Unit} (h : todo t = .store a v k) (m : A → V) :
    fin (Function.update todo t k) l (Function.update m a v) = fin todo l m := by
  have ha : a ∈ W t := by have := hw t; rw [h] at this; exact this.1
  induction l generalizing m with
  | nil => simp at ht
  | cons u l ih =>
    rw [List.nodup_cons] at hl
    rw [fin_cons, fin_cons]
    by_cases hu : u = t
    · subst hu
      rw [Function.update_self, fin_congr (todo' := todo), h]
      · rfl
      · intro s hs
        rw [Function.update_of_ne]
        rintro rfl
        exact hl.1 hs
    · rw [Function.update_of_ne hu]
      have hd := Set.disjoint_left.1 (hA t u (fun h => hu h.symm)) ha
      rw [run_update (hw u) (fun h => hd (Or.inl h)) (fun h => hd (Or.inr h))]
      exact ih hl.2 ((List.mem_cons.1 ht).resolve_left (fun h => hu h.symm)) _

theorem step_within {R W : T → Set A} {c c' : Config T A V}
    (hw : ∀ t, (c.todo t).Within (R t) (W t)) (h : Step c c') :
    ∀ t, (c'.todo t).Within (R t) (W t) := by
  intro u
  cases h with
  | load t a k h =>
    by_cases hu : u = t
    · subst hu
      have := hw u
      rw [h] at this
      simpa using this.2 (c.mem a)
    · simpa [Function.update_of_ne hu] using hw u
  | store t a v k h =>
    by_cases hu : u = t
    · subst hu
      have := hw u
      rw [h] at this
      simpa using this.2
    · simpa [Function.update_of_ne hu] using hw u

theorem step_fin {R W : T → Set A} (hA : Apart R W) {c c' : Config T A V}
    (hw : ∀ t, (c.todo t).Within (R t) (W t)) {l : List T} (hl : l.Nodup) (hall : ∀ t, t ∈ l)
    (h : Step c c') : fin c'.todo l c'.mem = fin c.todo l c.mem := by
  cases h with
  | load t a k h => exact fin_load hA hw hl (hall t) h _
  | store t a v k h => exact fin_store hA hw hl (hall t) h _

theorem steps_fin {R W : T → Set A} (hA : Apart R W) {c c' : Config T A V}
    (hw : ∀ t, (c.todo t).Within (R t) (W t)) {l : List T} (hl : l.Nodup) (hall : ∀ t, t ∈ l)
    (h : Relation.ReflTransGen Step c c') :
    fin c'.todo l c'.mem = fin c.todo l c.mem ∧ ∀ t, (c'.todo t).Within (R t) (W t) := by
  induction h with
  | refl => exact ⟨rfl, hw⟩
  | tail _ hs ih => exact ⟨(step_fin hA ih.2 hl hall hs).trans ih.1, step_within ih.2 hs⟩

theorem fin_done {c : Config T A V} (h : c.Done) (l : List T) : fin c.todo l c.mem = c.mem := by
  induction l with
  | nil => rfl
  | cons t l ih =>
    rw [fin_cons, h t]
    exact ih

/-! ### termination -/

/-- `p` is what is left of `q` after one load or store. -/
inductive After : Prog A V Unit → Prog A V Unit → Prop
  | load (a : A) (k : V → Prog A V Unit) (v : V) : After (k v) (.load a k)
  | store (a : A) (v : V) (k : Prog A V Unit) : After k (.store a v k)

theorem after_wf : WellFounded (After : Prog A V Unit → Prog A V Unit → Prop) := by
  refine ⟨fun p => ?_⟩
  induction p with
  | ret x => exact ⟨_, fun _ h => nomatch h⟩
  | load a k ih => exact ⟨_, fun _ h => by cases h; exact ih _⟩
  | store a v k ih => exact ⟨_, fun _ h => by cases h; exact ih⟩

/-- Some thread of the list advances, the others stay. -/
theorem acc_threads (l : List T) : ∀ (todo : T → Prog A V Unit),
    Acc (fun f g : T → Prog A V Unit => ∃ t ∈ l, After (f t) (g t) ∧ ∀ u, u ≠ t → f u = g u)
      todo := by
  induction l with
  | nil => exact fun todo => ⟨_, fun _ ⟨_, h, _⟩ => by simp at h⟩
  | cons t l ih =>
    have key : ∀ p : Prog A V Unit, ∀ todo : T → Prog A V Unit, todo t = p →
        Acc (fun f g : T → Prog A V Unit =>
          ∃ s ∈ t :: l, After (f s) (g s) ∧ ∀ u, u ≠ s → f u = g u) todo := by
      intro p
      refine after_wf.induction (C := fun p => ∀ todo : T → Prog A V Unit, todo t = p → Acc _ todo) p ?_
      intro p ihp todo
      have hacc := ih todo
      induction hacc with
      | intro todo _ iht =>
        intro hp
        refine ⟨_, ?_⟩
        rintro f ⟨s, hs, ha, hf⟩
        by_cases hst : s = t
        · subst hst
          exact ihp (f s) (hp ▸ ha) f rfl
        · exact iht f ⟨s, (List.mem_cons.1 hs).resolve_left hst, ha, hf⟩
            ((hf t (fun h => hst h.symm)).trans hp)
    exact fun todo => key _ todo rfl

theorem acc_config [Fintype T] (c : Config T A V) :
    Acc (fun c' c : Config T A V => Step c c') c := by
  have h := acc_threads (Finset.univ.toList : List T) c.todo
  generalize hg : c.todo = todo at h
  induction h generalizing c with
  | intro todo _ ih =>
    refine ⟨_, ?_⟩
    intro c' hs
    refine ih c'.todo ?_ c' rfl
    subst hg
    cases hs with
    | load t a k h =>
      refine ⟨t, by simp, ?_, fun u hu => Function.update_of_ne hu _ _⟩
      change After (Function.update c.todo t _ t) _
      rw [Function.update_self, h]
      exact .load a k _
    | store t a v k h =>
      refine ⟨t, by simp, ?_, fun u hu => Function.update_of_ne hu _ _⟩
      change After (Function.update c.todo t _ t) _
      rw [Function.update_self, h]
      exact .store a v k

end run

end Cmomy.Par
