import Verif.Lemmas.Options

/-!
# C41: options set in a context are restored on exit
-/

namespace Cmomy

open Spec Options

/-- A program that sets options in `with` blocks only leaves them as they were, however the blocks
are nested and whatever exceptions are raised, caught or escape. -/
theorem C41_restored (p : Prog) (hp : OnlyWith p) (opts : Dict) (hd : (opts.map Prod.fst).Nodup) :
    (exec p opts).1 = opts := by
  induction p generalizing opts with
  | pass => rfl
  | raise e => rfl
  | seq p q ihp ihq =>
    unfold exec
    have := ihp hp.1 opts hd
    rcases h : exec p opts with ⟨o, _ | e⟩
    · rw [h] at this
      simp only at this ⊢
      subst this; exact ihq hp.2 _ hd
    · rw [h] at this; exact this
  | ite c p q ihp ihq =>
    unfold exec
    by_cases h : c opts = true
    · rw [if_pos h]; exact ihp hp.1 opts hd
    · rw [if_neg h]; exact ihq hp.2 opts hd
  | setOptions kwargs => exact hp.elim
  | withOptions kwargs body ih =>
    have hk := exec_keys (.withOptions kwargs body) opts
    refine dict_ext (by rw [hk]; exact hd) hk fun k => ?_
    unfold exec
    rcases h : init opts kwargs with e | ⟨old, o⟩
    · rfl
    · have ho : o.map Prod.fst = opts.map Prod.fst := by
        rw [(init_ok h).1]; exact update_keys (kwargs_known h)
      have hb := ih hp o (by rw [ho]; exact hd)
      rcases h' : exec body o with ⟨o', r⟩
      rw [h'] at hb
      simp only at hb
      subst hb
      simp only [h']
      rw [exit_spec h]
      by_cases hk : k ∈ kwargs.map Prod.fst
      · rw [if_pos hk]
      · rw [if_neg hk, (init_ok h).1, get_update]
        have : last kwargs k = none := by
          rw [← Option.not_isSome_iff_eq_none, last_isSome]; exact hk
        rw [this]; rfl
  | tryExcept p q ihp ihq =>
    unfold exec
    have := ihp hp.1 opts hd
    rcases h : exec p opts with ⟨o, _ | e⟩
    · rw [h] at this; exact this
    · rw [h] at this
      simp only at this ⊢
      subst this; exact ihq hp.2 _ hd

/-- Two nested blocks; the inner one fails on a bad value and the error escapes both. -/
def exProg : Prog :=
  .withOptions [("nmax", .int 5), ("cache", .bool false)]
    (.seq (.tryExcept (.withOptions [("nmax", .int 7)] (.raise .typeError)) .pass)
      (.withOptions [("parallel", .int 0)] .pass))

example : exec exProg defaults = (defaults, some .valueError) := by decide

example := C41_restored exProg (by simp [exProg, OnlyWith]) defaults (by decide)

/-- Whatever the body does (also setting options for good), on leaving the block the options named
in it have their former values, and the others the ones the body left. -/
theorem C41_block (kwargs : Dict) (body : Prog) (opts old inside : Dict)
    (h : init opts kwargs = .ok (old, inside)) (k : String) :
    get (exec (.withOptions kwargs body) opts).1 k
      = if k ∈ kwargs.map Prod.fst then get opts k else get (exec body inside).1 k := by
  have : exec (.withOptions kwargs body) opts
      = (exit (exec body inside).1 old, (exec body inside).2) := by rw [exec, h]
  rw [this, exit_spec h]

example : exec (.withOptions [("nmax", .int 5)]
      (.setOptions [("cache", .bool false), ("nmax", .int 9)])) defaults
    = ([("nmax", .int 20), ("cache", .bool false), ("parallel", .bool true),
        ("fastmath", .bool true)], none) := by decide

example := C41_block [("nmax", .int 5)] (.setOptions [("cache", .bool false), ("nmax", .int 9)])
  defaults [("nmax", .int 20)] _ rfl "cache"

/-- Inside the block exactly the given options have the given values. -/
theorem C41_inside (kwargs opts old inside : Dict) (hk : (kwargs.map Prod.fst).Nodup)
    (h : init opts kwargs = .ok (old, inside)) (k : String) :
    (∀ v, (k, v) ∈ kwargs → get inside k = some v) ∧
    (k ∉ kwargs.map Prod.fst → get inside k = get opts k) := by
  rw [(init_ok h).1, get_update, last_eq_get hk]
  constructor
  · intro v hv
    rw [get_of_mem hk hv]; rfl
  · intro hn
    have : get kwargs k = none := by
      rw [← Option.not_isSome_iff_eq_none, get_isSome]; exact hn
    rw [this]; rfl

example := C41_inside [("nmax", .int 5), ("fastmath", .bool false)] defaults _ _ (by decide) rfl
  "fastmath"

/-- `set_options` is accepted exactly if every keyword is an option and its value is fit; otherwise
it raises `ValueError` and changes nothing, also when only a later keyword is bad. -/
theorem C41_rejected (kwargs opts : Dict) (ho : GoodOptions opts) :
    ((∀ p ∈ kwargs, Fit p.1 p.2) → exec (.setOptions kwargs) opts = (update opts kwargs, none)) ∧
    ((∃ p ∈ kwargs, ¬ Fit p.1 p.2) →
      exec (.setOptions kwargs) opts = (opts, some .valueError) ∧
      ∀ body, exec (.withOptions kwargs body) opts = (opts, some .valueError)) := by
  have key : ∀ p : String × OptVal,
      Fit p.1 p.2 ↔ (get opts p.1).isSome ∧ validator p.1 p.2 = true := by
    rintro ⟨k, v⟩
    rw [get_isSome, ho.1]
    unfold Fit validator
    simp only
    by_cases h1 : k = "nmax"
    · subst h1
      cases v <;> simp [optionNames]
    · by_cases h2 : k = "parallel" ∨ k = "cache" ∨ k = "fastmath"
      · have : k ∈ optionNames := by rcases h2 with h | h | h <;> subst h <;> decide
        cases v <;> simp [h1, h2, this]
      · have : k ∉ optionNames := by
          intro h
          simp only [optionNames, List.mem_cons, List.not_mem_nil, or_false] at h
          rcases h with h | h | h | h
          · exact h1 h
          · exact h2 (.inr (.inl h))
          · exact h2 (.inl h)
          · exact h2 (.inr (.inr h))
        simp [h1, this]
  constructor
  · intro h
    obtain ⟨o, e, _⟩ := (check_spec opts kwargs []).1 fun p hp => (key p).1 (h p hp)
    unfold exec init
    rw [e]; rfl
  · rintro ⟨p, hp, hn⟩
    have e := (check_spec opts kwargs []).2 fun h => hn ((key p).2 (h p hp))
    constructor
    · unfold exec init
      rw [e]; rfl
    · intro body
      unfold exec init
      rw [e]; rfl

theorem defaults_good : GoodOptions defaults := by
  refine ⟨rfl, fun p hp => ?_⟩
  simp only [defaults, List.mem_cons, List.not_mem_nil, or_false] at hp
  rcases hp with rfl | rfl | rfl | rfl
  · exact .inl ⟨rfl, 20, rfl⟩
  all_goals exact .inr ⟨by decide, true, rfl⟩

example := (C41_rejected [("nmax", .int 3), ("parallel", .int 1)] defaults defaults_good).2
  ⟨("parallel", .int 1), by decide, by rintro (⟨h, _⟩ | ⟨_, b, h⟩) <;> simp_all⟩

example := (C41_rejected [("nmax", .bool true)] defaults defaults_good).1 (by
  intro p hp
  simp only [List.mem_cons, List.not_mem_nil, or_false] at hp
  subst hp
  exact .inr ⟨by decide, true, rfl⟩)

/-- Whatever program runs, exactly the four options exist, each with a fit value. -/
theorem C41_known_keys (p : Prog) (opts : Dict) (ho : GoodOptions opts) :
    GoodOptions (exec p opts).1 := by
  refine ⟨(exec_keys p opts).trans ho.1, exec_fit p opts Fit (fun k v hs hv => ?_) ho.2⟩
  rw [get_isSome, ho.1] at hs
  unfold Fit
  simp only [optionNames, List.mem_cons, List.not_mem_nil, or_false] at hs
  rcases hs with rfl | rfl | rfl | rfl <;> cases v <;> simp [validator, optionNames] at hv ⊢

example := C41_known_keys (.seq (.setOptions [("nmax", .int 3)]) exProg) defaults defaults_good

/-- The nesting is needed: if the block entered first is left first, the options are not restored
(the second exit brings back what the first block had set). -/
theorem C41_overlapping_not_restored :
    ∃ a b opts olda oa oldb ob, (opts.map Prod.fst).Nodup ∧ init opts a = .ok (olda, oa) ∧
      init oa b = .ok (oldb, ob) ∧ get (exit (exit ob olda) oldb) "nmax" ≠ get opts "nmax" :=
  ⟨[("nmax", .int 5)], [("nmax", .int 7)], defaults, _, _, _, _, by decide, rfl, rfl, by decide⟩

end Cmomy
