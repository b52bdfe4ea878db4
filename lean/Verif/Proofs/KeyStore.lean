import Verif.Spec.KeyStore
/-
The map in the store and the calls that led to it; the lock.
-/
namespace Rmls
open Spec MemoryKeyStore

theorem lookup_erase_self (k : Bytes) (l : List (Bytes × Bytes)) : lookup k (erase k l) = none := by
  induction l with
  | nil => rfl
  | cons e l ih =>
    obtain ⟨a, b⟩ := e
    unfold erase
    split
    · exact ih
    · next h => unfold lookup; rw [if_neg h]; exact ih

theorem lookup_erase_other {k k' : Bytes} (h : k' ≠ k) (l : List (Bytes × Bytes)) :
    lookup k (erase k' l) = lookup k l := by
  induction l with
  | nil => rfl
  | cons e l ih =>
    obtain ⟨a, b⟩ := e
    unfold erase
    split
    · next h' =>
      rw [ih]
      conv => rhs; unfold lookup
      rw [if_neg (by rw [h']; exact h)]
    · unfold lookup
      split
      · rfl
      · exact ih

/-- Key `k` after a store under `k'`. -/
theorem retrieve_store (s : MemoryKeyStore) (k k' v : Bytes) :
    (s.store k' v).retrieve k = if k' = k then some v else s.retrieve k := by
  unfold store retrieve
  conv => lhs; unfold lookup
  split
  · rfl
  · next h => exact lookup_erase_other h _

/-- Key `k` after `k'` was deleted. -/
theorem retrieve_delete (s : MemoryKeyStore) (k k' : Bytes) :
    (s.delete k').2.retrieve k = if k' = k then none else s.retrieve k := by
  unfold delete retrieve
  split
  · next h => rw [h]; exact lookup_erase_self _ _
  · next h => exact lookup_erase_other h _

/-- The map after calls made one after the other. -/
def afterCalls (past : List Call) : MemoryKeyStore := past.foldl (fun s c => (c.body s).2) empty

theorem afterCalls_append (past : List Call) (c : Call) :
    afterCalls (past ++ [c]) = (c.body (afterCalls past)).2 := by
  unfold afterCalls
  rw [List.foldl_append]; rfl

theorem remembers_append (past : List Call) (c : Call) (k v : Bytes) :
    Remembers (past ++ [c]) k v ↔ c = .store k v ∨ (¬ Changes k c ∧ Remembers past k v) := by
  unfold Remembers
  constructor
  · rintro ⟨b, s, h, hs⟩
    rcases List.eq_nil_or_concat s with rfl | ⟨s', x, rfl⟩
    · have := List.append_inj' h rfl
      cases this.2
      exact .inl rfl
    · rw [List.concat_eq_append, ← List.cons_append, ← List.append_assoc] at h
      have := List.append_inj' h rfl
      cases this.2
      exact .inr ⟨hs _ (by simp), b, s', this.1, fun d hd => hs d (by simp [hd])⟩
  · rintro (rfl | ⟨hc, b, s, rfl, hs⟩)
    · exact ⟨past, [], rfl, nofun⟩
    · refine ⟨b, s ++ [c], by simp, fun d hd => ?_⟩
      rcases List.mem_append.1 hd with hd | hd
      · exact hs d hd
      · rw [List.mem_singleton.1 hd]; exact hc

theorem retrieve_afterCalls (past : List Call) (k v : Bytes) :
    (afterCalls past).retrieve k = some v ↔ Remembers past k v := by
  generalize hn : past.length = n
  induction n generalizing past with
  | zero =>
    rw [List.length_eq_zero_iff] at hn
    subst hn
    refine ⟨(nomatch ·), ?_⟩
    rintro ⟨b, s, h, _⟩
    cases b <;> cases h
  | succ n ih =>
    rcases List.eq_nil_or_concat past with rfl | ⟨p, c, rfl⟩
    · cases hn
    · rw [List.concat_eq_append] at hn ⊢
      have hp : p.length = n := by rw [List.length_append] at hn; simpa using hn
      rw [afterCalls_append, remembers_append, ← ih p hp]
      cases c with
      | store k' v' =>
        show (MemoryKeyStore.store _ _ _).retrieve k = some v ↔ _
        rw [retrieve_store]
        by_cases h : k' = k
        · simp [h, Changes]
        · simp [h, Changes]
      | retrieve k' =>
        show (afterCalls p).retrieve k = some v ↔ _
        simp [Changes]
      | delete k' =>
        show (MemoryKeyStore.delete _ _).2.retrieve k = some v ↔ _
        rw [retrieve_delete]
        by_cases h : k' = k
        · simp [h, Changes]
        · simp [h, Changes]

theorem body_answers (past : List Call) (c : Call) : Answers past c (c.body (afterCalls past)).1 := by
  cases c with
  | store k v => rfl
  | retrieve k => exact ⟨_, rfl, fun v => retrieve_afterCalls past k v⟩
  | delete k => exact ⟨_, rfl, fun v => retrieve_afterCalls past k v⟩

theorem body_reads (c : Call) (h : c.writes = false) (s : MemoryKeyStore) : (c.body s).2 = s := by
  cases c with
  | store => cases h
  | retrieve => rfl
  | delete => cases h

theorem correct_append {l : List (Call × Answer)} {c : Call} {a : Answer} (h : Correct l)
    (ha : Answers (l.map (·.1)) c a) : Correct (l ++ [(c, a)]) := by
  intro b c' a' s e
  rcases List.eq_nil_or_concat s with rfl | ⟨s', x, rfl⟩
  · have := List.append_inj' e rfl
    cases this.2
    rw [← this.1]
    exact ha
  · rw [List.concat_eq_append, ← List.cons_append, ← List.append_assoc] at e
    exact h b c' a' s' (List.append_inj' e rfl).1

theorem effects_append (a b : List Event) : effects (a ++ b) = effects a ++ effects b := by
  induction a with
  | nil => rfl
  | cons e a ih => cases e <;> simp [effects, ih]

/-- What one thread has shown when it is in a phase, after whole rounds. -/
def Phase.shown (t : Nat) : Phase → List Event
  | .outside => []
  | .waiting c => [.call t c]
  | .locked c => [.call t c]
  | .reading c _ => [.call t c]
  | .finished c a => [.call t c, .effect t c a]

/-- The invariant of every run. -/
structure StoreGood (es : List Event) (m : Machine) : Prop where
  exclusive : ∀ t u c d, t ≠ u → (m.phase t).holds = some c → (m.phase u).holds = some d →
    c.writes = false ∧ d.writes = false
  fresh : ∀ t c s, m.phase t = .reading c s → s = m.map
  map : m.map = afterCalls ((effects es).map (·.1))
  correct : Correct (effects es)
  turns : ∀ t, ∃ done, Rounds t done ∧ es.filter (Event.of t) = done ++ Phase.shown t (m.phase t)

theorem move_self (m : Machine) (t : Nat) (p : Phase) : (m.move t p).phase t = p := if_pos rfl
theorem move_other (m : Machine) {t u : Nat} (p : Phase) (h : u ≠ t) : (m.move t p).phase u = m.phase u := if_neg h

theorem StoreGood.excl_move {m : Machine} {t : Nat} {p : Phase}
    (h : ∀ t u c d, t ≠ u → (m.phase t).holds = some c → (m.phase u).holds = some d → c.writes = false ∧ d.writes = false)
    (hp : ∀ c, p.holds = some c → (m.phase t).holds = some c ∨ m.free c) :
    ∀ a b c d, a ≠ b → ((m.move t p).phase a).holds = some c → ((m.move t p).phase b).holds = some d →
      c.writes = false ∧ d.writes = false := by
  intro a b c d hab ha hb
  by_cases h1 : a = t
  · subst h1
    rw [move_self] at ha
    rw [move_other _ _ (Ne.symm hab)] at hb
    rcases hp c ha with h2 | h2
    · exact h a b c d hab h2 hb
    · exact h2 b d hb
  · rw [move_other _ _ h1] at ha
    by_cases h2 : b = t
    · subst h2
      rw [move_self] at hb
      rcases hp d hb with h3 | h3
      · exact h a b c d hab ha h3
      · exact (h3 a c ha).symm
    · rw [move_other _ _ h2] at hb
      exact h a b c d hab ha hb

theorem filter_other {t u : Nat} (h : u ≠ t) (e : Event) (he : Event.of t e = true) : [e].filter (Event.of u) = [] := by
  cases e <;> (simp only [Event.of, decide_eq_true_eq] at he; subst he; simp [Event.of, Ne.symm h])

theorem StoreGood.step {es : List Event} {m m' : Machine} {e : List Event} (g : StoreGood es m) (h : Step m e m') :
    StoreGood (es ++ e) m' := by
  cases h with
  | invoke t c hp =>
    refine ⟨StoreGood.excl_move g.exclusive (by intro c h; cases h), ?_, ?_, ?_, ?_⟩
    · intro u d s hu
      by_cases h : u = t
      · rw [h, move_self] at hu; cases hu
      · rw [move_other _ _ h] at hu; exact g.fresh u d s hu
    · rw [effects_append]; simpa [effects, Machine.move] using g.map
    · rw [effects_append]; simpa [effects] using g.correct
    · intro u
      obtain ⟨done, h1, h2⟩ := g.turns u
      by_cases h : u = t
      · subst h
        refine ⟨done, h1, ?_⟩
        rw [List.filter_append, h2, move_self, hp]
        simp [Phase.shown, Event.of]
      · refine ⟨done, h1, ?_⟩
        rw [List.filter_append, h2, move_other _ _ h, filter_other h _ (by simp [Event.of]), List.append_nil]
  | acquire t c hp hf =>
    rw [List.append_nil]
    refine ⟨StoreGood.excl_move g.exclusive (by intro c' h; cases h; exact .inr hf), ?_, g.map, g.correct, ?_⟩
    · intro u d s hu
      by_cases h : u = t
      · rw [h, move_self] at hu; cases hu
      · rw [move_other _ _ h] at hu; exact g.fresh u d s hu
    · intro u
      obtain ⟨done, h1, h2⟩ := g.turns u
      by_cases h : u = t
      · subst h; exact ⟨done, h1, by rw [h2, move_self, hp]; rfl⟩
      · exact ⟨done, h1, by rw [h2, move_other _ _ h]⟩
  | read t c hp =>
    rw [List.append_nil]
    refine ⟨StoreGood.excl_move g.exclusive (by intro c' h; left; rw [hp]; exact h), ?_, g.map, g.correct, ?_⟩
    · intro u d s hu
      by_cases h : u = t
      · rw [h, move_self] at hu; cases hu; rfl
      · rw [move_other _ _ h] at hu; exact g.fresh u d s hu
    · intro u
      obtain ⟨done, h1, h2⟩ := g.turns u
      by_cases h : u = t
      · subst h; exact ⟨done, h1, by rw [h2, move_self, hp]; rfl⟩
      · exact ⟨done, h1, by rw [h2, move_other _ _ h]⟩
  | write t c seen hp =>
    have hseen := g.fresh t c seen hp
    subst hseen
    have hm : (if c.writes then (c.body m.map).2 else m.map) = (c.body m.map).2 := by
      split
      · rfl
      · next h => exact (body_reads c (by simpa using h) _).symm
    refine ⟨StoreGood.excl_move (m := { m with map := _ }) g.exclusive
      (by intro c' h; left; show (m.phase t).holds = _; rw [hp]; exact h), ?_, ?_, ?_, ?_⟩
    · intro u d s hu
      by_cases h : u = t
      · rw [h, move_self] at hu; cases hu
      · rw [move_other _ _ h] at hu
        have h1 := g.fresh u d s hu
        have h2 := g.exclusive t u c d (Ne.symm h) (by rw [hp]; rfl) (by
          show (m.phase u).holds = _
          rw [show m.phase u = _ from hu]; rfl)
        show s = if c.writes then (c.body m.map).2 else m.map
        rw [hm, body_reads c h2.1]
        exact h1
    · show (if c.writes then (c.body m.map).2 else m.map) = _
      rw [hm, effects_append, List.map_append]
      show _ = afterCalls (_ ++ [c])
      rw [afterCalls_append, ← g.map]
    · rw [effects_append]
      refine correct_append g.correct ?_
      have := body_answers ((effects es).map (·.1)) c
      rw [← g.map] at this
      exact this
    · intro u
      obtain ⟨done, h1, h2⟩ := g.turns u
      by_cases h : u = t
      · subst h
        refine ⟨done, h1, ?_⟩
        rw [List.filter_append, h2, move_self, hp]
        simp [Phase.shown, Event.of]
      · refine ⟨done, h1, ?_⟩
        rw [List.filter_append, h2, move_other _ _ h, filter_other h _ (by simp [Event.of]), List.append_nil]
  | release t c a hp =>
    refine ⟨StoreGood.excl_move g.exclusive (by intro c h; cases h), ?_, ?_, ?_, ?_⟩
    · intro u d s hu
      by_cases h : u = t
      · rw [h, move_self] at hu; cases hu
      · rw [move_other _ _ h] at hu; exact g.fresh u d s hu
    · rw [effects_append]; simpa [effects, Machine.move] using g.map
    · rw [effects_append]; simpa [effects] using g.correct
    · intro u
      obtain ⟨done, h1, h2⟩ := g.turns u
      by_cases h : u = t
      · subst h
        refine ⟨_, .round (c := c) (a := a) h1, ?_⟩
        rw [List.filter_append, h2, move_self, hp]
        simp [Phase.shown, Event.of]
      · refine ⟨done, h1, ?_⟩
        rw [List.filter_append, h2, move_other _ _ h, filter_other h _ (by simp [Event.of]), List.append_nil]

theorem storeGood_run {es : List Event} {m : Machine} (h : Run Machine.fresh es m) : StoreGood es m := by
  induction h with
  | start =>
    refine ⟨?_, ?_, rfl, ?_, fun t => ⟨[], .none, rfl⟩⟩
    · intro t u c d _ h; cases h
    · intro t c s h; cases h
    · intro b c a s h; cases b <;> cases h
  | step _ hs ih => exact ih.step hs

end Rmls
