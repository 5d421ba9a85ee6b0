import Verif.Spec.Options

namespace Cmomy.Options

open Spec

theorem get_put (d : Dict) (k k' : String) (v : OptVal) :
    get (put d k v) k' = if k' = k then some v else get d k' := by
  induction d with
  | nil =>
    by_cases h : k' = k
    · subst h; simp [put, get]
    · simp [put, get, List.lookup, h, beq_eq_false_iff_ne.2 h]
  | cons p d ih =>
    obtain ⟨a, b⟩ := p
    unfold put
    by_cases h : a = k
    · subst h
      rw [if_pos rfl]
      by_cases h' : k' = a
      · subst h'; simp [get]
      · simp [get, List.lookup, h', beq_eq_false_iff_ne.2 h']
    · rw [if_neg h]
      by_cases h' : k' = a
      · subst h'; simp [get, h]
      · have : get ((a, b) :: put d k v) k' = get (put d k v) k' := by
          simp [get, List.lookup, beq_eq_false_iff_ne.2 h']
        rw [this, ih]
        simp [get, List.lookup, beq_eq_false_iff_ne.2 h']

theorem get_isSome (d : Dict) (k : String) : (get d k).isSome ↔ k ∈ d.map Prod.fst := by
  induction d with
  | nil => simp [get]
  | cons p d ih =>
    obtain ⟨a, b⟩ := p
    by_cases h : k = a
    · subst h; simp [get]
    · have : get ((a, b) :: d) k = get d k := by
        simp [get, List.lookup, beq_eq_false_iff_ne.2 h]
      rw [this, ih]
      simp [h]

theorem get_mem {d : Dict} {k : String} {v : OptVal} (h : get d k = some v) : (k, v) ∈ d := by
  induction d with
  | nil => simp [get] at h
  | cons p d ih =>
    obtain ⟨a, b⟩ := p
    by_cases h' : k = a
    · subst h'; simp [get] at h; simp [h]
    · have : get ((a, b) :: d) k = get d k := by
        simp [get, List.lookup, beq_eq_false_iff_ne.2 h']
      rw [this] at h
      exact List.mem_cons_of_mem _ (ih h)

theorem get_of_mem {d : Dict} (hd : (d.map Prod.fst).Nodup) {p : String × OptVal} (h : p ∈ d) :
    get d p.1 = some p.2 := by
  induction d with
  | nil => cases h
  | cons q d ih =>
    obtain ⟨a, b⟩ := q
    rw [List.map_cons, List.nodup_cons] at hd
    rcases List.mem_cons.1 h with rfl | h
    · simp [get]
    · have : p.1 ≠ a := fun e => hd.1 (List.mem_map.2 ⟨p, h, e⟩)
      rw [show get ((a, b) :: d) p.1 = get d p.1 by
        simp [get, List.lookup, beq_eq_false_iff_ne.2 this]]
      exact ih hd.2 h

theorem put_keys {d : Dict} {k : String} (v : OptVal) (h : k ∈ d.map Prod.fst) :
    (put d k v).map Prod.fst = d.map Prod.fst := by
  induction d with
  | nil => simp at h
  | cons p d ih =>
    obtain ⟨a, b⟩ := p
    unfold put
    by_cases h' : a = k
    · subst h'; rw [if_pos rfl]; rfl
    · rw [if_neg h']
      have : k ∈ d.map Prod.fst := by
        rw [List.map_cons, List.mem_cons] at h
        rcases h with h | h
        · exact absurd h.symm h'
        · exact h
      rw [List.map_cons, List.map_cons, ih this]

theorem put_mem {d : Dict} {k : String} {v : OptVal} {p : String × OptVal} (h : p ∈ put d k v) :
    p = (k, v) ∨ p ∈ d := by
  induction d with
  | nil => simpa [put] using h
  | cons q d ih =>
    obtain ⟨a, b⟩ := q
    unfold put at h
    by_cases h' : a = k
    · rw [if_pos h'] at h
      rcases List.mem_cons.1 h with h | h
      · exact .inl h
      · exact .inr (List.mem_cons_of_mem _ h)
    · rw [if_neg h'] at h
      rcases List.mem_cons.1 h with h | h
      · exact .inr (h ▸ List.mem_cons_self)
      · exact (ih h).imp id (List.mem_cons_of_mem _)

/-- The last value given for `k`. -/
def last (e : Dict) (k : String) : Option OptVal := get e.reverse k

theorem last_nil (k : String) : last [] k = none := rfl

theorem get_append (a b : Dict) (k : String) :
    get (a ++ b) k = (get a k).or (get b k) := by
  induction a with
  | nil => simp [get]
  | cons p d ih =>
    obtain ⟨x, y⟩ := p
    by_cases h : k = x
    · subst h; simp [get]
    · have e : ∀ d' : Dict, get ((x, y) :: d') k = get d' k := by
        intro d'; simp [get, List.lookup, beq_eq_false_iff_ne.2 h]
      rw [List.cons_append, e, e, ih]

theorem get_update (d e : Dict) (k : String) :
    get (update d e) k = (last e k).or (get d k) := by
  induction e generalizing d with
  | nil => rfl
  | cons p e ih =>
    obtain ⟨a, b⟩ := p
    show get (update (put d a b) e) k = _
    rw [ih, get_put]
    unfold last
    rw [List.reverse_cons, get_append]
    by_cases h : k = a
    · subst h
      simp [get]
    · rw [if_neg h]
      have : get [(a, b)] k = none := by simp [get, List.lookup, beq_eq_false_iff_ne.2 h]
      rw [this]; simp

theorem last_isSome (e : Dict) (k : String) : (last e k).isSome ↔ k ∈ e.map Prod.fst := by
  unfold last
  rw [get_isSome]; simp

theorem last_eq_get {e : Dict} (h : (e.map Prod.fst).Nodup) (k : String) : last e k = get e k := by
  induction e with
  | nil => rfl
  | cons p e ih =>
    obtain ⟨a, b⟩ := p
    rw [List.map_cons, List.nodup_cons] at h
    unfold last at *
    rw [List.reverse_cons, get_append, ih h.2]
    by_cases hk : k = a
    · subst hk
      have : get e k = none := by
        rw [← Option.not_isSome_iff_eq_none, get_isSome]; exact h.1
      rw [this]; simp [get]
    · simp [get, List.lookup, beq_eq_false_iff_ne.2 hk]

theorem update_keys {d e : Dict} (h : ∀ k ∈ e.map Prod.fst, k ∈ d.map Prod.fst) :
    (update d e).map Prod.fst = d.map Prod.fst := by
  induction e generalizing d with
  | nil => rfl
  | cons p e ih =>
    show (update (put d p.1 p.2) e).map Prod.fst = _
    have hk := put_keys (d := d) p.2 (h p.1 (by simp))
    rw [ih, hk]
    intro k hk'
    rw [hk]; exact h k (by simp only [List.map_cons, List.mem_cons]; exact .inr hk')

theorem update_mem {d e : Dict} {p : String × OptVal} (h : p ∈ update d e) : p ∈ e ∨ p ∈ d := by
  induction e generalizing d with
  | nil => exact .inr h
  | cons q e ih =>
    rcases ih (d := put d q.1 q.2) h with h | h
    · exact .inl (List.mem_cons_of_mem _ h)
    · rcases put_mem h with h | h
      · exact .inl (h ▸ List.mem_cons_self)
      · exact .inr h

theorem dict_ext {d e : Dict} (hd : (d.map Prod.fst).Nodup) (hk : d.map Prod.fst = e.map Prod.fst)
    (hg : ∀ k, get d k = get e k) : d = e := by
  induction d generalizing e with
  | nil => cases e with
    | nil => rfl
    | cons p e => simp at hk
  | cons p d ih =>
    cases e with
    | nil => simp at hk
    | cons q e =>
      obtain ⟨a, b⟩ := p
      obtain ⟨a', b'⟩ := q
      simp only [List.map_cons, List.cons.injEq] at hk
      obtain ⟨rfl, hk⟩ := hk
      rw [List.map_cons, List.nodup_cons] at hd
      have := hg a
      simp [get] at this
      subst this
      rw [ih hd.2 hk fun k => ?_]
      by_cases h : k = a
      · subst h
        have h1 : get d k = none := by
          rw [← Option.not_isSome_iff_eq_none, get_isSome]; exact hd.1
        have h2 : get e k = none := by
          rw [← Option.not_isSome_iff_eq_none, get_isSome, ← hk]; exact hd.1
        rw [h1, h2]
      · have := hg k
        simpa [get, List.lookup, beq_eq_false_iff_ne.2 h] using this

/-- What the loop accepts, and what it records. -/
theorem check_spec (opts kwargs old : Dict) :
    ((∀ p ∈ kwargs, (get opts p.1).isSome ∧ validator p.1 p.2 = true) →
      ∃ o, check opts kwargs old = .ok o ∧
        ∀ k, get o k = if k ∈ kwargs.map Prod.fst then get opts k else get old k) ∧
    ((¬ ∀ p ∈ kwargs, (get opts p.1).isSome ∧ validator p.1 p.2 = true) →
      check opts kwargs old = .error .valueError) := by
  induction kwargs generalizing old with
  | nil => simp [check]
  | cons p l ih =>
    obtain ⟨a, b⟩ := p
    unfold check
    cases hg : get opts a with
    | none => simp [hg]
    | some x =>
      by_cases hv : validator a b = true
      · simp only [hv, if_true]
        obtain ⟨h1, h2⟩ := ih (put old a x)
        constructor
        · intro h
          obtain ⟨o, e, ho⟩ := h1 fun p hp => h p (List.mem_cons_of_mem _ hp)
          refine ⟨o, e, fun k => ?_⟩
          rw [ho, get_put]
          by_cases hk : k ∈ l.map Prod.fst
          · rw [if_pos hk, if_pos (by rw [List.map_cons, List.mem_cons]; exact .inr hk)]
          · rw [if_neg hk]
            by_cases hka : k = a
            · subst hka; simp [hg]
            · rw [if_neg hka, if_neg (by
                rw [List.map_cons, List.mem_cons]; exact fun h => h.elim hka hk)]
        · intro h
          refine h2 fun h' => h fun p hp => ?_
          rcases List.mem_cons.1 hp with rfl | hp
          · exact ⟨by rw [hg]; rfl, hv⟩
          · exact h' p hp
      · simp only [Bool.not_eq_true] at hv
        simp only [hv, Bool.false_eq_true, if_false]
        constructor
        · intro h
          have := (h (a, b) List.mem_cons_self).2
          rw [hv] at this; cases this
        · intro _; trivial

/-- A successful `set_options(**kwargs)`. -/
theorem init_ok {opts kwargs old o : Dict} (h : init opts kwargs = .ok (old, o)) :
    o = update opts kwargs ∧ (∀ p ∈ kwargs, (get opts p.1).isSome ∧ validator p.1 p.2 = true) ∧
    ∀ k, get old k = if k ∈ kwargs.map Prod.fst then get opts k else none := by
  unfold init at h
  by_cases hk : ∀ p ∈ kwargs, (get opts p.1).isSome ∧ validator p.1 p.2 = true
  · obtain ⟨o', e, ho⟩ := (check_spec opts kwargs []).1 hk
    rw [e] at h
    have := Except.ok.inj h
    obtain ⟨rfl, rfl⟩ := Prod.mk.inj this
    exact ⟨rfl, hk, ho⟩
  · rw [(check_spec opts kwargs []).2 hk] at h; cases h

theorem init_old_keys {opts kwargs old o : Dict} (h : init opts kwargs = .ok (old, o)) (k : String) :
    k ∈ old.map Prod.fst ↔ k ∈ kwargs.map Prod.fst := by
  obtain ⟨_, h2, h3⟩ := init_ok h
  rw [← get_isSome, h3]
  by_cases hk : k ∈ kwargs.map Prod.fst
  · rw [if_pos hk]
    obtain ⟨p, hp, rfl⟩ := List.mem_map.1 hk
    simp only [hk, iff_true]
    exact (h2 p hp).1
  · rw [if_neg hk]; simp [hk]

theorem put_keys_nodup {d : Dict} (k : String) (v : OptVal) (h : (d.map Prod.fst).Nodup) :
    ((put d k v).map Prod.fst).Nodup := by
  induction d with
  | nil => simp [put]
  | cons p d ih =>
    obtain ⟨a, b⟩ := p
    rw [List.map_cons, List.nodup_cons] at h
    unfold put
    by_cases h' : a = k
    · subst h'; rw [if_pos rfl, List.map_cons, List.nodup_cons]; exact h
    · rw [if_neg h', List.map_cons, List.nodup_cons]
      refine ⟨fun hm => ?_, ih h.2⟩
      obtain ⟨q, hq, e⟩ := List.mem_map.1 hm
      rcases put_mem hq with rfl | hq
      · exact h' e.symm
      · exact h.1 (e ▸ List.mem_map_of_mem hq)

theorem check_nodup {opts kwargs old o : Dict} (h : (old.map Prod.fst).Nodup)
    (e : check opts kwargs old = .ok o) : (o.map Prod.fst).Nodup := by
  induction kwargs generalizing old with
  | nil => rw [← Except.ok.inj e]; exact h
  | cons p l ih =>
    obtain ⟨a, b⟩ := p
    unfold check at e
    cases hg : get opts a with
    | none => rw [hg] at e; cases e
    | some x =>
      rw [hg] at e
      simp only at e
      by_cases hv : validator a b = true
      · rw [if_pos hv] at e; exact ih (put_keys_nodup _ _ h) e
      · rw [if_neg hv] at e; cases e

theorem init_old_nodup {opts kwargs old o : Dict} (h : init opts kwargs = .ok (old, o)) :
    (old.map Prod.fst).Nodup := by
  unfold init at h
  cases hc : check opts kwargs [] with
  | error e => rw [hc] at h; cases h
  | ok x =>
    rw [hc] at h
    have := Except.ok.inj h
    rw [← (Prod.mk.inj this).1]
    exact check_nodup (by simp) hc

/-- After leaving the block: the options named in it have their former values, the others what the
body left. -/
theorem exit_spec {opts kwargs old o o' : Dict} (h : init opts kwargs = .ok (old, o)) (k : String) :
    get (exit o' old) k = if k ∈ kwargs.map Prod.fst then get opts k else get o' k := by
  unfold exit applyUpdate
  rw [get_update, last_eq_get (init_old_nodup h), (init_ok h).2.2]
  by_cases hk : k ∈ kwargs.map Prod.fst
  · rw [if_pos hk, if_pos hk]
    obtain ⟨p, hp, rfl⟩ := List.mem_map.1 hk
    obtain ⟨v, hv⟩ := Option.isSome_iff_exists.1 ((init_ok h).2.1 p hp).1
    rw [hv]; rfl
  · rw [if_neg hk, if_neg hk]; rfl

theorem kwargs_known {opts kwargs old o : Dict} (h : init opts kwargs = .ok (old, o)) :
    ∀ k ∈ kwargs.map Prod.fst, k ∈ opts.map Prod.fst := by
  intro k hk
  obtain ⟨p, hp, rfl⟩ := List.mem_map.1 hk
  exact (get_isSome _ _).1 ((init_ok h).2.1 p hp).1

theorem exec_keys (p : Prog) (opts : Dict) :
    ((exec p opts).1).map Prod.fst = opts.map Prod.fst := by
  induction p generalizing opts with
  | pass => rfl
  | raise e => rfl
  | seq p q ihp ihq =>
    unfold exec
    have := ihp opts
    rcases h : exec p opts with ⟨o, _ | e⟩
    · rw [h] at this; simp only [ihq, this]
    · rw [h] at this; exact this
  | ite c p q ihp ihq =>
    unfold exec
    by_cases h : c opts = true
    · rw [if_pos h]; exact ihp opts
    · rw [if_neg h]; exact ihq opts
  | setOptions kwargs =>
    unfold exec
    rcases h : init opts kwargs with e | ⟨old, o⟩
    · rfl
    · rw [(init_ok h).1]; exact update_keys (kwargs_known h)
  | withOptions kwargs body ih =>
    unfold exec
    rcases h : init opts kwargs with e | ⟨old, o⟩
    · rfl
    · have hb := ih o
      rcases h' : exec body o with ⟨o', r⟩
      rw [h'] at hb
      simp only [h'] 
      have ho : o.map Prod.fst = opts.map Prod.fst := by
        rw [(init_ok h).1]; exact update_keys (kwargs_known h)
      have hb : o'.map Prod.fst = opts.map Prod.fst := hb.trans ho
      show (update o' old).map Prod.fst = _
      rw [update_keys, hb]
      intro k hk
      rw [hb]
      exact kwargs_known h k ((init_old_keys h k).1 hk)
  | tryExcept p q ihp ihq =>
    unfold exec
    have := ihp opts
    rcases h : exec p opts with ⟨o, _ | e⟩
    · rw [h] at this; exact this
    · rw [h] at this; simp only [ihq, this]

theorem exec_fit (p : Prog) (opts : Dict) (P : String → OptVal → Prop)
    (hP : ∀ k v, (get opts k).isSome → validator k v = true → P k v) (h : ∀ q ∈ opts, P q.1 q.2) :
    ∀ q ∈ (exec p opts).1, P q.1 q.2 := by
  induction p generalizing opts with
  | pass => exact h
  | raise e => exact h
  | seq p q ihp ihq =>
    unfold exec
    have := ihp opts hP h
    have hk := exec_keys p opts
    rcases h' : exec p opts with ⟨o, _ | e⟩
    · rw [h'] at this hk
      refine ihq o (fun k v hs => hP k v ?_) this
      rw [get_isSome] at hs ⊢
      rw [← hk]; exact hs
    · rw [h'] at this; exact this
  | ite c p q ihp ihq =>
    unfold exec
    by_cases h' : c opts = true
    · rw [if_pos h']; exact ihp opts hP h
    · rw [if_neg h']; exact ihq opts hP h
  | setOptions kwargs =>
    unfold exec
    rcases h' : init opts kwargs with e | ⟨old, o⟩
    · exact h
    · intro q hq
      simp only at hq
      rw [(init_ok h').1] at hq
      rcases update_mem hq with hq | hq
      · have := (init_ok h').2.1 q hq
        exact hP _ _ this.1 this.2
      · exact h q hq
  | withOptions kwargs body ih =>
    unfold exec
    rcases h' : init opts kwargs with e | ⟨old, o⟩
    · exact h
    · have ho : ∀ q ∈ o, P q.1 q.2 := by
        intro q hq
        rw [(init_ok h').1] at hq
        rcases update_mem hq with hq | hq
        · have := (init_ok h').2.1 q hq
          exact hP _ _ this.1 this.2
        · exact h q hq
      have hk : o.map Prod.fst = opts.map Prod.fst := by
        rw [(init_ok h').1]; exact update_keys (kwargs_known h')
      have hb := ih o (fun k v hs => hP k v (by
        rw [get_isSome] at hs ⊢; rw [← hk]; exact hs)) ho
      rcases h'' : exec body o with ⟨o', r⟩
      rw [h''] at hb
      simp only [h'']
      intro q hq
      rcases update_mem hq with hq | hq
      · have hg := get_of_mem (init_old_nodup h') hq
        rw [(init_ok h').2.2] at hg
        by_cases hin : q.1 ∈ kwargs.map Prod.fst
        · rw [if_pos hin] at hg; exact h q (get_mem hg)
        · rw [if_neg hin] at hg; cases hg
      · exact hb q hq
  | tryExcept p q ihp ihq =>
    unfold exec
    have := ihp opts hP h
    have hk := exec_keys p opts
    rcases h' : exec p opts with ⟨o, _ | e⟩
    · rw [h'] at this; exact this
    · rw [h'] at this hk
      refine ihq o (fun k v hs => hP k v ?_) this
      rw [get_isSome] at hs ⊢
      rw [← hk]; exact hs

end Cmomy.Options
