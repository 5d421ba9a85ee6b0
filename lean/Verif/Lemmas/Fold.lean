import Mathlib.Logic.Function.Basic
import Mathlib.Data.List.Basic
import Mathlib.Data.List.Nodup

/-!
# In-place loops that overwrite entries in an order compatible with their reads
-/

namespace Cmomy

/-- Overwrite the entries listed in `l`, one after the other, by `f p state`. If no entry is
overwritten before a later one reads it, the result is as if all had been computed from the
initial state. -/
theorem foldl_overwrite {S ι K : Type*} [DecidableEq ι] (get : S → ι → K) (set : S → ι → K → S)
    (hgs : ∀ s p v q, get (set s p v) q = if q = p then v else get s q)
    (R : ι → ι → Prop) (f : ι → S → K)
    (hf : ∀ p s s', (∀ q, R p q → get s q = get s' q) → f p s = f p s')
    (l : List ι) (hnd : l.Nodup) (hpw : l.Pairwise (fun p q => ¬ R q p)) (s : S) (q : ι) :
    get (l.foldl (fun s p => set s p (f p s)) s) q = if q ∈ l then f q s else get s q := by
  induction l generalizing s with
  | nil => simp
  | cons p l ih =>
    rw [List.foldl_cons, ih (List.nodup_cons.1 hnd).2 (List.pairwise_cons.1 hpw).2]
    have hp : p ∉ l := (List.nodup_cons.1 hnd).1
    by_cases hq : q ∈ l
    · rw [if_pos hq, if_pos (List.mem_cons_of_mem _ hq)]
      apply hf
      intro r hr
      rw [hgs]
      have hrp : r ≠ p := by
        rintro rfl
        exact (List.pairwise_cons.1 hpw).1 q hq hr
      rw [if_neg hrp]
    · rw [if_neg hq, hgs]
      by_cases hqp : q = p
      · subst hqp; simp
      · simp [hqp, hq]

end Cmomy
