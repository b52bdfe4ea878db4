import Verif.Spec.Threads
import Verif.Proofs.Group
/-
Threads that share a provider: the locks make calls atomic.
-/
namespace Rmls
namespace Threads
open Spec

/-! ### The objects -/

/-- The object of the call is the same. -/
def Same (c : Call) (s s' : Shared) : Prop :=
  match c with
  | .key _ => s.map = s'.map
  | .fill _ => s.pos = s'.pos

theorem same_refl (c : Call) (s : Shared) : Same c s s := by cases c <;> rfl

theorem same_answer {c : Call} {s s' : Shared} (st : Nat → UInt32) (h : Same c s s') :
    (c.body st s).1 = (c.body st s').1 := by
  cases c with
  | key c => show Answer.key _ = Answer.key _; rw [show s.map = s'.map from h]
  | fill n => show Answer.bytes _ = Answer.bytes _; rw [show s.pos = s'.pos from h]

theorem same_put {c : Call} {s s' : Shared} (st : Nat → UInt32) (h : Same c s s') :
    s'.put c (c.body st s).2 = (c.body st s').2 := by
  cases c with
  | key c =>
    have h : s.map = s'.map := h
    simp only [Shared.put, Call.body, h]
  | fill n =>
    have h : s.pos = s'.pos := h
    simp only [Shared.put, Call.body, h]

theorem reads_only {c : Call} (h : c.writes = false) (st : Nat → UInt32) (s : Shared) : (c.body st s).2 = s := by
  cases c with
  | key c => simp only [Call.body, body_reads c h]
  | fill n => cases h

theorem together_comm (c d : Call) : c.together d = d.together c := by cases c <;> cases d <;> rfl

/-- A call leaves the object of another call alone unless they are calls of one object. -/
theorem same_put_other {c d : Call} {seen s : Shared} (h : Same d seen s) (hc : c.together d = false) (new : Shared) :
    Same d seen (s.put c new) := by
  cases c with
  | key c =>
    cases d with
    | key d => cases hc
    | fill n => exact h
  | fill n =>
    cases d with
    | key d => exact h
    | fill d => cases hc

/-! ### Locked runs are runs -/

/-- What is left to do for a thread in this phase. -/
def Phase.rest : Phase → Prog
  | .between p => p
  | .waiting c k => .call c k
  | .locked c k => .call c k
  | .reading c k _ => .call c k
  | .finished _ k a => k a

/-- The state when the locks are forgotten. -/
def Machine.forget (m : Machine) : State := { shared := m.shared, todo := fun t => (m.phase t).rest }

/-- What the locks ensure. -/
structure Held (m : Machine) : Prop where
  exclusive : ∀ t u c d, t ≠ u → (m.phase t).holds = some c → (m.phase u).holds = some d → c.together d = true →
    c.writes = false ∧ d.writes = false
  seen : ∀ t c k s, m.phase t = .reading c k s → Same c s m.shared

theorem phase_self (m : Machine) (t : Nat) (p : Phase) : (m.move t p).phase t = p := if_pos rfl
theorem phase_other (m : Machine) {t u : Nat} (p : Phase) (h : u ≠ t) : (m.move t p).phase u = m.phase u := if_neg h

theorem exclusive_move {m : Machine} {t : Nat} {p : Phase}
    (h : ∀ t u c d, t ≠ u → (m.phase t).holds = some c → (m.phase u).holds = some d → c.together d = true →
      c.writes = false ∧ d.writes = false)
    (hp : ∀ c, p.holds = some c → (m.phase t).holds = some c ∨ m.free c) :
    ∀ a b c d, a ≠ b → ((m.move t p).phase a).holds = some c → ((m.move t p).phase b).holds = some d →
      c.together d = true → c.writes = false ∧ d.writes = false := by
  intro a b c d hab ha hb hcd
  by_cases h1 : a = t
  · subst h1
    rw [phase_self] at ha
    rw [phase_other _ _ (Ne.symm hab)] at hb
    rcases hp c ha with hh | hh
    · exact h a b c d hab hh hb hcd
    · exact hh b d hb hcd
  · rw [phase_other _ _ h1] at ha
    by_cases h2 : b = t
    · subst h2
      rw [phase_self] at hb
      rcases hp d hb with hh | hh
      · exact h a b c d hab ha hh hcd
      · exact (hh a c ha (by rw [together_comm]; exact hcd)).symm
    · rw [phase_other _ _ h2] at hb
      exact h a b c d hab ha hb hcd

theorem forget_move {m : Machine} {t : Nat} {p : Phase} (h : p.rest = (m.phase t).rest) : (m.move t p).forget = m.forget := by
  refine congrArg (State.mk m.shared) (funext fun u => ?_)
  by_cases hu : u = t
  · subst hu; rw [phase_self]; exact h
  · rw [phase_other _ _ hu]

theorem Held.step {st : Nat → UInt32} {m m' : Machine} {e : List Event} (g : Held m) (h : FineStep st m e m') :
    Held m' ∧ ((e = [] ∧ m'.forget = m.forget) ∨ ∃ ev, e = [ev] ∧ Step st m.forget ev m'.forget) := by
  have seen_move : ∀ t (p : Phase), (∀ c k s, p = .reading c k s → Same c s m.shared) →
      ∀ u c k s, (m.move t p).phase u = .reading c k s → Same c s (m.move t p).shared := by
    intro t p hp u c k s hu
    by_cases h1 : u = t
    · subst h1; rw [phase_self] at hu; exact hp c k s hu
    · rw [phase_other _ _ h1] at hu; exact g.seen u c k s hu
  cases h with
  | invoke t c k hp =>
    refine ⟨⟨exclusive_move g.exclusive nofun, seen_move _ _ nofun⟩, .inl ⟨rfl, forget_move ?_⟩⟩
    rw [hp]; rfl
  | acquire t c k hp hf =>
    refine ⟨⟨exclusive_move g.exclusive ?_, seen_move _ _ nofun⟩, .inl ⟨rfl, forget_move ?_⟩⟩
    · rintro d h; cases h; exact .inr hf
    · rw [hp]; rfl
  | read t c k hp =>
    refine ⟨⟨exclusive_move g.exclusive ?_, seen_move _ _ ?_⟩, .inl ⟨rfl, forget_move ?_⟩⟩
    · rintro d h; cases h; rw [hp]; exact .inl rfl
    · rintro c' k' s' h; cases h; exact same_refl _ _
    · rw [hp]; rfl
  | write t c k seen hp =>
    have hs := g.seen t c k seen hp
    have hsh : (if c.writes then m.shared.put c (c.body st seen).2 else m.shared) = (c.body st m.shared).2 := by
      split
      · exact same_put st hs
      · next h => rw [reads_only (by simpa using h)]
    refine ⟨⟨?_, ?_⟩, .inr ⟨_, rfl, ?_⟩⟩
    · refine exclusive_move (m := { m with shared := _ }) g.exclusive ?_
      rintro d h
      cases h
      left
      show (m.phase t).holds = _
      rw [hp]; rfl
    · intro u d k' s' hu
      by_cases h1 : u = t
      · subst h1; rw [phase_self] at hu; cases hu
      · rw [phase_other _ _ h1] at hu
        have hu : m.phase u = .reading d k' s' := hu
        have hd := g.seen u d k' s' hu
        show Same d s' (if c.writes then m.shared.put c (c.body st seen).2 else m.shared)
        split
        · next hw =>
          cases hcd : c.together d with
          | false => exact same_put_other hd hcd _
          | true =>
            have := (g.exclusive t u c d (Ne.symm h1) (by rw [hp]; rfl) (by rw [hu]; rfl) hcd).1
            rw [this] at hw; cases hw
        · exact hd
    · have hstep := Step.call (stream := st) m.forget t c k (by show (m.phase t).rest = _; rw [hp]; rfl)
      have e1 : (c.body st seen).1 = (c.body st m.forget.shared).1 := same_answer st hs
      rw [e1]
      have e2 : (({ m with shared := (c.body st m.shared).2 } : Machine).move t
          (.finished c k (c.body st m.forget.shared).1)).forget = ({ m.forget with shared := (c.body st m.forget.shared).2 } :
          State).set t (k (c.body st m.forget.shared).1) := by
        refine congrArg (State.mk _) (funext fun u => ?_)
        by_cases h1 : u = t
        · simp [Machine.move, Phase.rest, h1]
        · simp [Machine.move, h1, Machine.forget]
      rw [hsh, e2]
      exact hstep
  | release t c k a hp =>
    refine ⟨⟨exclusive_move g.exclusive nofun, seen_move _ _ nofun⟩, .inl ⟨rfl, forget_move ?_⟩⟩
    rw [hp]; rfl

theorem forget_machine (m : State) : m.machine.forget = m := rfl

theorem held_machine (m : State) : Held m.machine :=
  ⟨(fun _ _ _ _ _ h => nomatch h), (fun _ _ _ _ h => nomatch h)⟩

/-- Every run with the locks is a run with whole calls. -/
theorem fine_run {st : Nat → UInt32} {m : State} {es : List Event} {m' : Machine} (h : FineRun st m.machine es m') :
    Held m' ∧ Run st m es m'.forget := by
  induction h with
  | start => exact ⟨held_machine m, .start⟩
  | step h hs ih =>
    obtain ⟨g, hr⟩ := ih
    obtain ⟨g', h' | ⟨ev, he, h'⟩⟩ := g.step hs
    · rw [h'.1, List.append_nil, h'.2]; exact ⟨g', hr⟩
    · rw [he]; exact ⟨g', hr.step h'⟩

/-! ### Runs are locked runs -/

theorem FineRun.trans {st : Nat → UInt32} {m m' m'' : Machine} {es es' : List Event} (h : FineRun st m es m')
    (h' : FineRun st m' es' m'') : FineRun st m (es ++ es') m'' := by
  induction h' with
  | start => rw [List.append_nil]; exact h
  | step _ hs ih => rw [← List.append_assoc]; exact ih.step hs

theorem FineRun.cast {st : Nat → UInt32} {m m' m'' : Machine} {es es' : List Event} (h : FineRun st m es m')
    (h1 : es = es') (h2 : m' = m'') : FineRun st m es' m'' := by
  subst h1 h2; exact h

theorem step_fine {st : Nat → UInt32} {m m' : State} {e : Event} (h : Step st m e m') :
    FineRun st m.machine [e] m'.machine := by
  cases h with
  | call t c k hp =>
    have ph : ∀ (M : Machine) p, (M.move t p).phase t = p := fun M p => phase_self M t p
    have s0 : FineStep st m.machine [] (m.machine.move t (.waiting c k)) := .invoke _ t c k (congrArg Phase.between hp)
    have s1 := FineStep.acquire (stream := st) (m.machine.move t (.waiting c k)) t c k (ph _ _) (by
      intro u d hu
      by_cases h1 : u = t
      · subst h1; rw [phase_self] at hu; cases hu
      · rw [phase_other _ _ h1] at hu; cases hu)
    have s2 := FineStep.read (stream := st) _ t c k (ph (m.machine.move t (.waiting c k)) (.locked c k))
    have s3 := FineStep.write (stream := st) _ t c k m.shared
      (ph ((m.machine.move t (.waiting c k)).move t (.locked c k)) (.reading c k m.shared))
    refine (((((FineRun.start.step s0).step s1).step s2).step s3).step
      (.release _ t c k (c.body st m.shared).1 (phase_self _ t _))).cast rfl ?_
    have e1 : (if c.writes then m.shared.put c (c.body st m.shared).2 else m.shared) = (c.body st m.shared).2 := by
      split
      · exact same_put st (same_refl _ _)
      · next h => rw [reads_only (by simpa using h)]
    show Machine.mk (if c.writes then m.shared.put c (c.body st m.shared).2 else m.shared) _ = Machine.mk _ _
    rw [e1]
    refine congrArg (Machine.mk _) (funext fun u => ?_)
    by_cases h1 : u = t
    · simp [State.set, h1]
    · simp [Machine.move, State.set, State.machine, h1]

theorem run_fine {st : Nat → UInt32} {m m' : State} {es : List Event} (h : Run st m es m') :
    FineRun st m.machine es m'.machine := by
  induction h with
  | start => exact .start
  | step _ hs ih => exact ih.trans (step_fine hs)

/-! ### Some step is possible -/

theorem can_step (st : Nat → UInt32) (m : Machine) (t : Nat) (h : ∀ o, m.phase t ≠ .between (.done o)) :
    ∃ u e m', (u = t ∨ ∃ c k d, m.phase t = .waiting c k ∧ (m.phase u).holds = some d ∧ c.together d = true) ∧
      FineStep st m e m' ∧ m'.phase u ≠ m.phase u := by
  have holder : ∀ u d, (m.phase u).holds = some d → ∃ e m', FineStep st m e m' ∧ m'.phase u ≠ m.phase u := by
    intro u d hu
    cases hp : m.phase u with
    | between p => rw [hp] at hu; cases hu
    | waiting c k => rw [hp] at hu; cases hu
    | locked c k => exact ⟨_, _, .read m u c k hp, by rw [phase_self]; nofun⟩
    | reading c k s => exact ⟨_, _, .write m u c k s hp, by rw [phase_self]; nofun⟩
    | finished c k a => exact ⟨_, _, .release m u c k a hp, by rw [phase_self]; nofun⟩
  cases hp : m.phase t with
  | between p =>
    cases p with
    | done o => exact absurd hp (h o)
    | call c k => exact ⟨t, _, _, .inl rfl, .invoke m t c k hp, by rw [phase_self, hp]; nofun⟩
  | waiting c k =>
    by_cases hf : m.free c
    · exact ⟨t, _, _, .inl rfl, .acquire m t c k hp hf, by rw [phase_self, hp]; nofun⟩
    · unfold Machine.free at hf
      simp only [Classical.not_forall] at hf
      obtain ⟨u, d, hu, hcd, _⟩ := hf
      obtain ⟨e, m', h1, h2⟩ := holder u d hu
      exact ⟨u, e, m', .inr ⟨c, k, d, rfl, hu, hcd⟩, h1, h2⟩
  | locked c k => exact have ⟨e, m', h1, h2⟩ := holder t c (by rw [hp]; rfl); ⟨t, e, m', .inl rfl, h1, h2⟩
  | reading c k s => exact have ⟨e, m', h1, h2⟩ := holder t c (by rw [hp]; rfl); ⟨t, e, m', .inl rfl, h1, h2⟩
  | finished c k a => exact have ⟨e, m', h1, h2⟩ := holder t c (by rw [hp]; rfl); ⟨t, e, m', .inl rfl, h1, h2⟩

/-! ### Runs, from the front -/

/-- Two runs one after the other. -/
theorem Run.trans {st : Nat → UInt32} {m m' m'' : State} {es es' : List Event} (h : Run st m es m')
    (h' : Run st m' es' m'') : Run st m (es ++ es') m'' := by
  induction h' with
  | start => rw [List.append_nil]; exact h
  | step _ hs ih => rw [← List.append_assoc]; exact ih.step hs

theorem Run.split {st : Nat → UInt32} {m m' : State} {es : List Event} (h : Run st m es m') :
    ∀ a b, es = a ++ b → ∃ n, Run st m a n ∧ Run st n b m' := by
  induction h with
  | start =>
    intro a b he
    obtain ⟨rfl, rfl⟩ := List.append_eq_nil_iff.1 he.symm
    exact ⟨_, .start, .start⟩
  | @step es m' e m'' h hs ih =>
    intro a b he
    rcases List.eq_nil_or_concat b with rfl | ⟨b', x, rfl⟩
    · rw [List.append_nil] at he
      subst he
      exact ⟨_, h.step hs, .start⟩
    · rw [List.concat_eq_append, ← List.append_assoc] at he
      obtain ⟨h1, h2⟩ := List.append_inj' he rfl
      cases h2
      obtain ⟨n, hn, hn'⟩ := ih a b' h1
      exact ⟨n, hn, by rw [List.concat_eq_append]; exact hn'.step hs⟩

theorem Run.single {st : Nat → UInt32} {m m' : State} {e : Event} (h : Run st m [e] m') : Step st m e m' := by
  generalize hl : [e] = l at h
  cases h with
  | start => cases hl
  | @step es m1 e' _ h hs =>
    have : es = [] ∧ e = e' := by
      cases es with
      | nil => exact ⟨rfl, by cases hl; rfl⟩
      | cons x es => cases es <;> cases hl
    obtain ⟨rfl, rfl⟩ := this
    generalize hl' : ([] : List Event) = l' at h
    cases h with
    | start => exact hs
    | step => exact absurd hl' (by simp)

theorem Run.front {st : Nat → UInt32} {m m' : State} {e : Event} {es : List Event} (h : Run st m (e :: es) m') :
    ∃ n, Step st m e n ∧ Run st n es m' := by
  obtain ⟨n, h1, h2⟩ := h.split [e] es rfl
  exact ⟨n, h1.single, h2⟩

theorem Run.nothing {st : Nat → UInt32} {m m' : State} (h : Run st m [] m') : m' = m := by
  generalize hl : ([] : List Event) = l at h
  cases h with
  | start => rfl
  | step => exact absurd hl (by simp)

theorem set_self (m : State) (t : Nat) (p : Prog) : (m.set t p).todo t = p := if_pos rfl
theorem set_other (m : State) {t u : Nat} (p : Prog) (h : u ≠ t) : (m.set t p).todo u = m.todo u := if_neg h

/-! ### Random bytes -/

theorem wordBytes_length (w : UInt32) : (wordBytes w).length = 4 := rfl

theorem wordBytes_get (w : UInt32) (j : Nat) (h : j < (wordBytes w).length) :
    (wordBytes w)[j] = UInt8.ofNat (w.toNat / 256 ^ j) := by
  have h' : j < 4 := h
  have e : ∀ n : UInt32, n < 32 → w >>> n = w >>> n := fun _ _ => rfl
  rcases j with _ | _ | _ | _ | j
  · apply UInt8.toNat_inj.1; simp [wordBytes]
  · apply UInt8.toNat_inj.1; simp [wordBytes, Nat.shiftRight_eq_div_pow]
  · apply UInt8.toNat_inj.1; simp [wordBytes, Nat.shiftRight_eq_div_pow]
  · apply UInt8.toNat_inj.1; simp [wordBytes, Nat.shiftRight_eq_div_pow]
  · omega

theorem flatten_words (f : Nat → UInt32) (n : Nat) (k : Nat) :
    (((List.range n).map fun i => wordBytes (f i)).flatten)[k]? =
      if k < 4 * n then some (UInt8.ofNat ((f (k / 4)).toNat / 256 ^ (k % 4))) else none := by
  have hlen : ∀ n, (((List.range n).map fun i => wordBytes (f i)).flatten).length = 4 * n := by
    intro n
    induction n with
    | zero => rfl
    | succ n ih => rw [List.range_succ, List.map_append, List.flatten_append, List.length_append, ih]; simp [wordBytes]; omega
  induction n with
  | zero => rfl
  | succ n ih =>
    rw [List.range_succ, List.map_append, List.flatten_append, List.getElem?_append, hlen]
    split
    · next h => rw [ih, if_pos h, if_pos (by omega)]
    · next h =>
      rw [show ([n].map fun i => wordBytes (f i)).flatten = wordBytes (f n) from List.append_nil _]
      by_cases hk : k < 4 * (n + 1)
      · rw [if_pos hk, List.getElem?_eq_getElem (by rw [wordBytes_length]; omega), wordBytes_get]
        rw [show k / 4 = n by omega, show k - 4 * n = k % 4 by omega]
      · rw [if_neg hk, List.getElem?_eq_none (by rw [wordBytes_length]; omega)]

theorem draw_length (st : Nat → UInt32) (p n : Nat) : (draw st p n).1.length = n := by
  have h := flatten_words (fun i => st (p + i)) ((n + 3) / 4)
  show (List.take n _).length = n
  rw [List.length_take]
  refine Nat.min_eq_left (Nat.le_of_not_lt fun hlt => ?_)
  have := h (n - 1)
  rw [if_pos (by omega), List.getElem?_eq_none (by omega)] at this
  cases this

theorem draw_segment (st : Nat → UInt32) (p n : Nat) : Segment st (4 * p) (draw st p n).1 := by
  intro k hk
  have hk' : k < n := by rw [draw_length] at hk; exact hk
  have h := flatten_words (fun i => st (p + i)) ((n + 3) / 4) k
  rw [if_pos (by omega)] at h
  have : (draw st p n).1[k]? = some (keyByte st (4 * p + k)) := by
    show (List.take n _)[k]? = _
    rw [List.getElem?_take, if_pos hk', h]
    unfold keyByte
    rw [show (4 * p + k) / 4 = p + k / 4 by omega, show (4 * p + k) % 4 = k % 4 by omega]
  rw [List.getElem?_eq_getElem hk] at this
  exact Option.some.inj this

theorem step_pos {st : Nat → UInt32} {m m' : State} {e : Event} (h : Step st m e m') :
    m'.shared.pos = m.shared.pos + Spec.Call.words e.2.1 := by
  cases h with
  | call t c k hp =>
    cases c with
    | key c => rfl
    | fill n =>
      show m.shared.pos + (n + 3) / 4 = m.shared.pos + if n % 4 = 0 then n / 4 else n / 4 + 1
      split <;> omega

theorem run_pos {st : Nat → UInt32} {m m' : State} {es : List Event} (h : Run st m es m') :
    m'.shared.pos = m.shared.pos + Spec.words es := by
  induction h with
  | start => rfl
  | step _ hs ih =>
    rw [step_pos hs, ih]
    simp [Spec.words, Nat.add_assoc]

/-! ### What calls do to the map -/

theorem body_unchanged {k : Bytes} {c : MemoryKeyStore.Call} (h : ¬ Changes k c) (s : MemoryKeyStore) :
    (c.body s).2.retrieve k = s.retrieve k := by
  cases c with
  | store k' v => exact (retrieve_store s k k' v).trans (if_neg h)
  | retrieve k' => rfl
  | delete k' => exact (retrieve_delete s k k').trans (if_neg h)

/-- A call has one answer and one effect on a key in stores that agree on the keys of the call and on that key. -/
theorem body_agrees (c : MemoryKeyStore.Call) (s s' : MemoryKeyStore)
    (h : ∀ k, Uses k (.key c) → s.retrieve k = s'.retrieve k) :
    (c.body s).1 = (c.body s').1 ∧
    ∀ k, s.retrieve k = s'.retrieve k → (c.body s).2.retrieve k = (c.body s').2.retrieve k := by
  cases c with
  | store k' v =>
    refine ⟨rfl, fun k hk => ?_⟩
    show (s.store k' v).retrieve k = (s'.store k' v).retrieve k
    rw [retrieve_store, retrieve_store, hk]
  | retrieve k' => exact ⟨congrArg MemoryKeyStore.Answer.value (h k' rfl), fun k hk => hk⟩
  | delete k' =>
    refine ⟨congrArg MemoryKeyStore.Answer.value (h k' rfl), fun k hk => ?_⟩
    show (s.delete k').2.retrieve k = (s'.delete k').2.retrieve k
    rw [retrieve_delete, retrieve_delete, hk]

theorem step_unchanged {st : Nat → UInt32} {m m' : State} {e : Event} (h : Step st m e m') (k : Bytes)
    (hk : ¬ Alters k e.2.1) : m'.shared.map.retrieve k = m.shared.map.retrieve k := by
  cases h with
  | call t c kk hp =>
    cases c with
    | key c => exact body_unchanged hk _
    | fill n => rfl

/-! ### A thread among others -/

theorem alone_of_run {st : Nat → UInt32} {t : Nat} {o : Outcome} (D : Bytes → Prop) (es : List Event) :
    ∀ (m m' : State) (s : MemoryKeyStore), Run st m es m' → m'.todo t = .done o →
      (∀ e ∈ es, e.1 ≠ t → ∀ k, Alters k e.2.1 → D k) → (∀ e ∈ es, e.1 = t → ∀ k, Uses k e.2.1 → ¬ D k) →
      (∀ k, ¬ D k → s.retrieve k = m.shared.map.retrieve k) →
      ∃ s', Alone (m.todo t) s (draws t es) o s' ∧ ∀ k, ¬ D k → s'.retrieve k = m'.shared.map.retrieve k := by
  induction es with
  | nil =>
    intro m m' s h ho _ _ hs
    have := h.nothing
    subst this
    exact ⟨s, by rw [ho]; exact .done o s, hs⟩
  | cons e es ih =>
    intro m m' s h ho h1 h2 hs
    obtain ⟨n, hn, hr⟩ := h.front
    have ih' := fun s hs => ih n m' s hr ho (fun e he => h1 e (List.mem_cons_of_mem _ he))
      (fun e he => h2 e (List.mem_cons_of_mem _ he)) hs
    by_cases het : e.1 = t
    · cases hn with
      | call u c k hp =>
        have het : u = t := het
        subst het
        have hu := h2 _ (List.mem_cons_self ..) rfl
        rw [hp]
        cases c with
        | fill b =>
          obtain ⟨s', ha, hs'⟩ := ih' s hs
          rw [set_self] at ha
          refine ⟨s', ?_, hs'⟩
          unfold draws
          rw [if_pos rfl]
          exact .fill ha
        | key c =>
          obtain ⟨e1, e2⟩ := body_agrees c s m.shared.map fun k hk => hs k (hu k hk)
          obtain ⟨s', ha, hs'⟩ := ih' (c.body s).2 fun k hk => e2 k (hs k hk)
          rw [set_self] at ha
          refine ⟨s', ?_, hs'⟩
          unfold draws
          refine .key ?_
          rw [e1]
          exact ha
    · have hc := h1 e (List.mem_cons_self ..) het
      obtain ⟨s', ha, hs'⟩ := ih' s fun k hk => (hs k hk).trans (step_unchanged hn k fun h => hk (hc k h)).symm
      refine ⟨s', ?_, hs'⟩
      cases hn with
      | call u c k hp =>
        have het : u ≠ t := het
        rw [set_other _ _ (Ne.symm het)] at ha
        cases c with
        | fill b => unfold draws; rw [if_neg het]; exact ha
        | key c => exact ha

/-! ### The programs alone -/

theorem alone_done {o o' : Outcome} {s s' : MemoryKeyStore} {ds : List Bytes} (h : Alone (.done o) s ds o' s') :
    ds = [] ∧ o' = o ∧ s' = s := by
  cases h; exact ⟨rfl, rfl, rfl⟩

theorem alone_key {c : MemoryKeyStore.Call} {k : Answer → Prog} {o : Outcome} {s s' : MemoryKeyStore} {ds : List Bytes}
    (h : Alone (.call (.key c) k) s ds o s') : Alone (k (.key (c.body s).1)) (c.body s).2 ds o s' := by
  cases h; assumption

theorem alone_fill {n : Nat} {k : Answer → Prog} {o : Outcome} {s s' : MemoryKeyStore} {ds : List Bytes}
    (h : Alone (.call (.fill n) k) s ds o s') : ∃ b ds', ds = b :: ds' ∧ Alone (k (.bytes b)) s ds' o s' := by
  cases h; exact ⟨_, _, rfl, by assumption⟩

theorem alone_find {K : Option Bytes → Prog} {o : Outcome} {s s' : MemoryKeyStore} {ds : List Bytes}
    (l : List EncryptedGroupSecrets) (h : Alone (find l K) s ds o s') : Alone (K (Group.findPackage s l)) s ds o s' := by
  induction l with
  | nil => exact h
  | cons e l ih =>
    have h := alone_key h
    unfold Group.findPackage
    dsimp only [MemoryKeyStore.Call.body, Answer.value] at h
    cases hr : s.retrieve e.new_member with
    | none => rw [hr] at h; exact ih h
    | some raw => rw [hr] at h; exact h

theorem alone_join {P : CryptoProvider} {w : Welcome} {o : Outcome} {s s' : MemoryKeyStore} {ds : List Bytes}
    (h : Alone (join P w) s ds o s') :
    ds = [] ∧ o = .group (Group.from_welcome P s w).1 ∧ s' = (Group.from_welcome P s w).2 := by
  have h := alone_find _ h
  unfold Group.from_welcome
  cases hf : Group.findPackage s w.secrets with
  | none => rw [hf] at h; exact alone_done h
  | some raw =>
    rw [hf] at h
    unfold joinFound at h
    dsimp only at h ⊢
    cases hd : deserialize_exact KeyPackage.deserialize raw with
    | err e => rw [hd] at h; exact alone_done h
    | fault f => rw [hd] at h; exact alone_done h
    | ok x =>
      rw [hd] at h
      dsimp only [orStop] at h ⊢
      cases hr : x.generate_ref P with
      | err e => rw [hr] at h; exact alone_done h
      | fault f => rw [hr] at h; exact alone_done h
      | ok ref =>
        rw [hr] at h
        have h := alone_key (alone_key h)
        dsimp only [MemoryKeyStore.Call.body, Answer.value] at h ⊢
        cases hi : (s.delete ref).2.retrieve x.payload.init_key with
        | none => rw [hi] at h; exact alone_done h
        | some rawKey =>
          rw [hi] at h
          dsimp only at h ⊢
          cases hk : deserialize_exact SecretKey.deserialize rawKey with
          | err e => rw [hk] at h; exact alone_done h
          | fault f => rw [hk] at h; exact alone_done h
          | ok key =>
            rw [hk] at h
            exact alone_done (alone_key h)

theorem alone_create {c : GroupConfig} {cr : Credential} {k : SignatureKeyPair} {id : Option Bytes} {o : Outcome}
    {s s' : MemoryKeyStore} {ds : List Bytes} (h : Alone (create c cr k id) s ds o s') :
    s' = s ∧ ∃ rnd, o = .group (Group.new rnd c cr k id) ∧ (id = none → ds = [rnd]) ∧ (id ≠ none → ds = []) := by
  unfold create at h
  cases id with
  | some i =>
    obtain ⟨h1, h2, h3⟩ := alone_done h
    exact ⟨h3, [], h2, nofun, fun _ => h1⟩
  | none =>
    obtain ⟨b, ds', h1, h⟩ := alone_fill h
    obtain ⟨h2, h3, h4⟩ := alone_done h
    exact ⟨h4, b, h3, (fun _ => by rw [h1, h2]), fun h => absurd rfl h⟩

theorem alone_sender {i : LeafIndex} {g : UInt32} {o : Outcome} {s s' : MemoryKeyStore} {ds : List Bytes}
    (h : Alone (senderData i g) s ds o s') :
    s' = s ∧ ∃ rnd, o = .sender (.ok (SenderData.new rnd i g)) ∧ ds = [rnd] := by
  obtain ⟨b, ds', h1, h⟩ := alone_fill h
  obtain ⟨h2, h3, h4⟩ := alone_done h
  exact ⟨h4, b, h3, by rw [h1, h2]⟩

theorem alone_build {P : CryptoProvider} {b : KeyPackageBuilder} {config : CryptoConfig} {cred : Credential}
    {skp : SignatureKeyPair} {o : Outcome} {s s' : MemoryKeyStore} {ds : List Bytes}
    (h : Alone (build P b config cred skp) s ds o s') (ikm0 ikm : Bytes) (hds : ds <+: [ikm0, ikm]) :
    o = .package (b.build P s config ikm0 ikm cred skp).1 ∧ s' = (b.build P s config ikm0 ikm cred skp).2 ∧
    (∀ x, o = .package (.ok x) → ds = [ikm0, ikm]) := by
  have stop : ∀ (e : Res KeyPackage), (match e with | .ok _ => False | _ => True) → ∀ s1 ds1,
      Alone (.done (.package e)) s1 ds1 o s' →
      (o = .package e ∧ s' = s1 ∧ ∀ x, o = .package (.ok x) → ds = [ikm0, ikm]) := by
    intro e he s1 ds1 h
    obtain ⟨_, h2, h3⟩ := alone_done h
    exact ⟨h2, h3, fun x hx => by rw [h2] at hx; cases hx; exact he.elim⟩
  unfold build at h
  unfold KeyPackageBuilder.build
  generalize hN : KeyPackage.new P config ikm0 ikm cred skp (b.key_package_lifetime.getD ⟨0, 0⟩)
    (b.key_package_extensions.getD []) (b.leaf_node_capabilities.getD ⟨[], [], [], [], []⟩)
    (b.leaf_node_extensions.getD []) = N
  have hN' := hN
  unfold KeyPackage.new at hN
  cases hsig : P.signature config.cipher_suite with
  | err e => rw [hsig] at h hN; subst hN; exact stop _ trivial _ _ h
  | fault f => rw [hsig] at h hN; subst hN; exact stop _ trivial _ _ h
  | ok sg =>
    rw [hsig] at h hN
    dsimp only [orStop] at h
    change (if _ then _ else _) = N at hN
    by_cases hsc : sg.signature_scheme ≠ skp.signature_scheme
    · rw [if_pos hsc] at h hN; subst hN; exact stop _ trivial _ _ h
    rw [if_neg hsc] at h hN
    cases hh : P.hash config.cipher_suite with
    | err e => rw [hh] at h hN; subst hN; exact stop _ trivial _ _ h
    | fault f => rw [hh] at h hN; subst hN; exact stop _ trivial _ _ h
    | ok hash =>
      rw [hh] at h hN
      dsimp only at h
      obtain ⟨b0, ds1, hd, h⟩ := alone_fill h
      rw [hd, List.cons_prefix_cons] at hds
      obtain ⟨rfl, hds⟩ := hds
      dsimp only [Answer.drawn] at h
      cases hk : P.hpke config.cipher_suite with
      | err e => rw [hk] at h hN; subst hN; exact stop _ trivial _ _ h
      | fault f => rw [hk] at h hN; subst hN; exact stop _ trivial _ _ h
      | ok hpke =>
        rw [hk] at h hN
        dsimp only at h
        cases hkk : hpke.kem_derive_key_pair b0 with
        | err e =>
          rw [hkk] at h
          change (hpke.kem_derive_key_pair b0 >>= _) = N at hN
          rw [hkk] at hN; subst hN; exact stop _ trivial _ _ h
        | fault f =>
          rw [hkk] at h
          change (hpke.kem_derive_key_pair b0 >>= _) = N at hN
          rw [hkk] at hN; subst hN; exact stop _ trivial _ _ h
        | ok ik =>
          rw [hkk] at h
          dsimp only at h
          obtain ⟨b1, ds2, hd2, h'⟩ := alone_fill h
          clear h
          rw [hd2, List.cons_prefix_cons] at hds
          obtain ⟨rfl, hds⟩ := hds
          have hds : ds2 = [] := List.prefix_nil.1 hds
          subst hd2 hds
          have h := h'
          clear h'
          dsimp only at h
          rw [hN'] at h
          clear hN hN'
          cases N with
          | err e => exact stop _ trivial _ _ h
          | fault f => exact stop _ trivial _ _ h
          | ok y =>
            obtain ⟨x, kp, ip⟩ := y
            dsimp only at h ⊢
            cases hr : x.generate_ref P with
            | err e => rw [hr] at h; exact stop _ trivial _ _ h
            | fault f => rw [hr] at h; exact stop _ trivial _ _ h
            | ok ref =>
              rw [hr] at h
              dsimp only at h ⊢
              cases h1 : x.serialize with
              | err e => rw [h1] at h; exact stop _ trivial _ _ h
              | fault f => rw [h1] at h; exact stop _ trivial _ _ h
              | ok raw =>
                rw [h1] at h
                dsimp only at h ⊢
                have h := alone_key h
                cases h2 : kp.serialize with
                | err e => rw [h2] at h; exact stop _ trivial _ _ h
                | fault f => rw [h2] at h; exact stop _ trivial _ _ h
                | ok rawPair =>
                  rw [h2] at h
                  dsimp only at h ⊢
                  have h := alone_key h
                  cases h3 : SecretKey.serialize ip with
                  | err e => rw [h3] at h; exact stop _ trivial _ _ h
                  | fault f => rw [h3] at h; exact stop _ trivial _ _ h
                  | ok rawInit =>
                    rw [h3] at h
                    dsimp only at h ⊢
                    obtain ⟨_, e2, e3⟩ := alone_done (alone_key h)
                    exact ⟨e2, e3, fun _ _ => hd⟩

theorem alone_build_draws {P : CryptoProvider} {b : KeyPackageBuilder} {config : CryptoConfig} {cred : Credential}
    {skp : SignatureKeyPair} {o : Outcome} {s s' : MemoryKeyStore} {ds : List Bytes}
    (h : Alone (build P b config cred skp) s ds o s') : ∃ ikm0 ikm, ds <+: [ikm0, ikm] := by
  have none : ∀ {o1 s1 ds1}, Alone (.done o1) s1 ds1 o s' → ds1 = [] := fun h => (alone_done h).1
  have stop : ∀ {β : Type} (x : Res β) (k : β → Prog) (s1 : MemoryKeyStore) (ds1 : List Bytes),
      Alone (orStop .package x k) s1 ds1 o s' → ds1 = [] ∨ ∃ y, Alone (k y) s1 ds1 o s' := by
    intro β x k s1 ds1 h
    cases x with
    | ok y => exact .inr ⟨y, h⟩
    | err e => exact .inl (none h)
    | fault f => exact .inl (none h)
  unfold build at h
  have nil : ds = [] → ∃ ikm0 ikm, ds <+: [ikm0, ikm] := fun h => ⟨[], [], by rw [h]; exact List.nil_prefix⟩
  rcases stop _ _ _ _ h with h | ⟨_, h⟩
  · exact nil h
  split at h
  · exact nil (none h)
  rcases stop _ _ _ _ h with h | ⟨_, h⟩
  · exact nil h
  obtain ⟨b0, ds1, hd, h⟩ := alone_fill h
  have one : ds1 = [] → ∃ ikm0 ikm, ds <+: [ikm0, ikm] := fun h => ⟨b0, [], by
    rw [hd, h, List.cons_prefix_cons]; exact ⟨rfl, List.nil_prefix⟩⟩
  rcases stop _ _ _ _ h with h | ⟨_, h⟩
  · exact one h
  rcases stop _ _ _ _ h with h | ⟨_, h⟩
  · exact one h
  obtain ⟨b1, ds2, hd2, h⟩ := alone_fill h
  have two : ds2 = [] → ∃ ikm0 ikm, ds <+: [ikm0, ikm] := fun h => ⟨b0, b1, by rw [hd, hd2, h]; exact List.prefix_rfl⟩
  rcases stop _ _ _ _ h with h | ⟨_, h⟩
  · exact two h
  rcases stop _ _ _ _ h with h | ⟨_, h⟩
  · exact two h
  rcases stop _ _ _ _ h with h | ⟨_, h⟩
  · exact two h
  rcases stop _ _ _ _ (alone_key h) with h | ⟨_, h⟩
  · exact two h
  rcases stop _ _ _ _ (alone_key h) with h | ⟨_, h⟩
  · exact two h
  exact two (none (alone_key h))

/-! ### The calls of one thread -/

/-- The random bytes in these calls. -/
def drawn : List (Call × Answer) → List Bytes
  | [] => []
  | (.fill _, a) :: l => a.drawn :: drawn l
  | (.key _, _) :: l => drawn l

/-- The program `p`, after these calls with these answers, is `p'`. -/
inductive Follow : Prog → List (Call × Answer) → Prog → Prop
  | none (p) : Follow p [] p
  | call {c k a l p'} : Follow (k a) l p' → Follow (.call c k) ((c, a) :: l) p'

/-- The calls of thread `t`. -/
def callsOf (t : Nat) : List Event → List (Call × Answer)
  | [] => []
  | (u, c, a) :: es => if u = t then (c, a) :: callsOf t es else callsOf t es

theorem mem_callsOf {t : Nat} {c : Call} {a : Answer} {es : List Event} (h : (c, a) ∈ callsOf t es) : (t, c, a) ∈ es := by
  induction es with
  | nil => cases h
  | cons e es ih =>
    obtain ⟨u, c', a'⟩ := e
    unfold callsOf at h
    split at h
    · next hu =>
      rcases List.mem_cons.1 h with h | h
      · cases h; subst hu; exact List.mem_cons_self ..
      · exact List.mem_cons_of_mem _ (ih h)
    · exact List.mem_cons_of_mem _ (ih h)

theorem follow_of_run {st : Nat → UInt32} {t : Nat} (es : List Event) : ∀ (m m' : State), Run st m es m' →
    Follow (m.todo t) (callsOf t es) (m'.todo t) := by
  induction es with
  | nil => intro m m' h; rw [h.nothing]; exact .none _
  | cons e es ih =>
    intro m m' h
    obtain ⟨n, hn, hr⟩ := h.front
    have := ih n m' hr
    cases hn with
    | call u c k hp =>
      unfold callsOf
      by_cases hu : u = t
      · subst hu
        rw [set_self] at this
        rw [if_pos rfl, hp]
        exact .call this
      · rw [set_other _ _ (Ne.symm hu)] at this
        rw [if_neg hu]
        exact this

theorem follow_call {c : Call} {k : Answer → Prog} {l : List (Call × Answer)} {o : Outcome}
    (h : Follow (.call c k) l (.done o)) : ∃ a l', l = (c, a) :: l' ∧ Follow (k a) l' (.done o) := by
  cases h; exact ⟨_, _, rfl, by assumption⟩

theorem follow_done {l : List (Call × Answer)} {o o' : Outcome} (h : Follow (.done o) l (.done o')) : l = [] ∧ o' = o := by
  cases h; exact ⟨rfl, rfl⟩

theorem value_some {a : Answer} {raw : Bytes} (h : a.value = some raw) : a = .key (.value (some raw)) := by
  cases a with
  | bytes b => cases h
  | key a =>
    cases a with
    | done => cases h
    | value o => exact congrArg (fun o => Answer.key (.value o)) h

theorem follow_find {K : Option Bytes → Prog} {o : Outcome} (es : List EncryptedGroupSecrets) :
    ∀ l, Follow (find es K) l (.done o) →
    ∃ r l1 l2, l = l1 ++ l2 ∧ Follow (K r) l2 (.done o) ∧
      (∀ raw, r = some raw → ∃ e ∈ es, (Call.key (.retrieve e.new_member), Answer.key (.value (some raw))) ∈ l1) ∧
      (r = none → ∀ e ∈ es, ∃ a, (Call.key (.retrieve e.new_member), a) ∈ l1 ∧ a.value = none) := by
  induction es with
  | nil => exact fun l h => ⟨none, [], l, rfl, h, nofun, nofun⟩
  | cons e es ih =>
    intro l h0
    obtain ⟨a, l', rfl, h⟩ := follow_call h0
    clear h0
    cases ha : a.value with
    | some raw =>
      rw [ha] at h
      refine ⟨some raw, [_], l', rfl, h, ?_, nofun⟩
      rintro _ ⟨⟩
      exact ⟨e, List.mem_cons_self .., by rw [value_some ha]; exact List.mem_singleton.2 rfl⟩
    | none =>
      rw [ha] at h
      obtain ⟨r, l1, l2, rfl, h1, h2, h3⟩ := ih l' h
      refine ⟨r, _ :: l1, l2, rfl, h1, ?_, ?_⟩
      · intro raw hr
        obtain ⟨e', he', hm⟩ := h2 raw hr
        exact ⟨e', List.mem_cons_of_mem _ he', List.mem_cons_of_mem _ hm⟩
      · intro hr e' he'
        rcases List.mem_cons.1 he' with rfl | he'
        · exact ⟨a, List.mem_cons_self .., ha⟩
        · obtain ⟨a', hm, hv⟩ := h3 hr e' he'
          exact ⟨a', List.mem_cons_of_mem _ hm, hv⟩

/-- The calls of a join that succeeded. -/
theorem follow_joined {P : CryptoProvider} {w : Welcome} {g : Group} {l : List (Call × Answer)}
    (h : Follow (join P w) l (.done (.group (.ok g)))) :
    ∃ e ∈ w.secrets, ∃ raw x ref, (Call.key (.retrieve e.new_member), Answer.key (.value (some raw))) ∈ l ∧ Packs raw x ∧
      IsRef P x ref ∧ (∃ a, (Call.key (.delete ref), a) ∈ l) ∧ ∃ a, (Call.key (.delete x.payload.init_key), a) ∈ l := by
  obtain ⟨r, l1, l2, rfl, h1, h2, _⟩ := follow_find _ _ h
  cases r with
  | none => exact absurd (follow_done h1).2 nofun
  | some raw =>
    obtain ⟨e, he, hm⟩ := h2 raw rfl
    unfold joinFound at h1
    dsimp only at h1
    cases hd : deserialize_exact KeyPackage.deserialize raw with
    | err _ => rw [hd] at h1; exact absurd (follow_done h1).2 nofun
    | fault _ => rw [hd] at h1; exact absurd (follow_done h1).2 nofun
    | ok x =>
      rw [hd] at h1
      dsimp only [orStop] at h1
      cases hr : x.generate_ref P with
      | err _ => rw [hr] at h1; exact absurd (follow_done h1).2 nofun
      | fault _ => rw [hr] at h1; exact absurd (follow_done h1).2 nofun
      | ok ref =>
        rw [hr] at h1
        obtain ⟨a1, l3, rfl, k1⟩ := follow_call h1
        obtain ⟨a2, l4, rfl, k2⟩ := follow_call k1
        clear h1 k1
        cases ha : a2.value with
        | none => rw [ha] at k2; exact absurd (follow_done k2).2 nofun
        | some rawKey =>
          rw [ha] at k2
          dsimp only at k2
          cases hk : deserialize_exact SecretKey.deserialize rawKey with
          | err _ => rw [hk] at k2; exact absurd (follow_done k2).2 nofun
          | fault _ => rw [hk] at k2; exact absurd (follow_done k2).2 nofun
          | ok key =>
            rw [hk] at k2
            obtain ⟨a3, l5, rfl, _⟩ := follow_call k2
            refine ⟨e, he, raw, x, ref, List.mem_append_left _ hm, (packs_iff raw x).1 hd, (generate_ref_iff P x ref).1 hr,
              ⟨a1, ?_⟩, ⟨a3, ?_⟩⟩ <;> simp

/-! ### What is gone stays away -/

theorem step_absent {st : Nat → UInt32} {m m' : State} {e : Event} (h : Step st m e m') (k : Bytes)
    (hk : m.shared.map.retrieve k = none) (hs : ¬ Stores k e.2.1) : m'.shared.map.retrieve k = none := by
  cases h with
  | call t c kk hp =>
    cases c with
    | fill n => exact hk
    | key c =>
      cases c with
      | store k' v =>
        refine (retrieve_store _ k k' v).trans ?_
        rw [if_neg fun h => hs ⟨v, by rw [← h]⟩]
        exact hk
      | retrieve k' => exact hk
      | delete k' =>
        refine (retrieve_delete _ k k').trans ?_
        split
        · rfl
        · exact hk

theorem run_absent {st : Nat → UInt32} {m m' : State} {es : List Event} (h : Run st m es m') (k : Bytes)
    (hk : m.shared.map.retrieve k = none) (hs : ∀ e ∈ es, ¬ Stores k e.2.1) : m'.shared.map.retrieve k = none := by
  induction h with
  | start => exact hk
  | step _ hst ih =>
    exact step_absent hst k (ih fun e he => hs e (List.mem_append_left _ he))
      (hs _ (List.mem_append_right _ (List.mem_singleton.2 rfl)))

theorem deleted_absent {st : Nat → UInt32} {m m' : State} {es : List Event} (h : Run st m es m') (k : Bytes) {t : Nat}
    {a : Answer} (hd : (t, .key (.delete k), a) ∈ es) (hs : ∀ e ∈ es, ¬ Stores k e.2.1) :
    m'.shared.map.retrieve k = none := by
  obtain ⟨l1, l2, rfl⟩ := List.append_of_mem hd
  obtain ⟨n, _, h2⟩ := h.split l1 _ rfl
  obtain ⟨n', h3, h4⟩ := h2.front
  refine run_absent h4 k ?_ fun e he => hs e (List.mem_append_right _ (List.mem_cons_of_mem _ he))
  cases h3 with
  | call t c kk hp => exact (retrieve_delete _ k k).trans (if_pos rfl)

theorem absent_answers {st : Nat → UInt32} {m m' : State} {es : List Event} (h : Run st m es m') (k : Bytes)
    (hk : m.shared.map.retrieve k = none) (hs : ∀ e ∈ es, ¬ Stores k e.2.1) {t : Nat} {a : Answer}
    (he : (t, .key (.retrieve k), a) ∈ es ∨ (t, .key (.delete k), a) ∈ es) : a = .key (.value none) := by
  have key : ∀ c, (c = MemoryKeyStore.Call.retrieve k ∨ c = .delete k) → (t, .key c, a) ∈ es → a = .key (.value none) := by
    intro c hc he
    obtain ⟨l1, l2, rfl⟩ := List.append_of_mem he
    obtain ⟨n, h1, h2⟩ := h.split l1 _ rfl
    have hn := run_absent h1 k hk fun e he => hs e (List.mem_append_left _ he)
    obtain ⟨n', h3, _⟩ := h2.front
    cases h3 with
    | call t c kk hp =>
      rcases hc with rfl | rfl
      · exact congrArg (fun o => Answer.key (.value o)) hn
      · exact congrArg (fun o => Answer.key (.value o)) hn
  exact he.elim (key _ (.inl rfl)) (key _ (.inr rfl))

/-! ### Threads in step -/

/-- From the state, thread `t` alone gets to `p'`, and what holds of the shared objects holds again. -/
def Gets (st : Nat → UInt32) (I : Shared → Prop) (t : Nat) (m : State) (p' : Prog) : Prop :=
  ∃ es m', Run st m es m' ∧ m'.todo t = p' ∧ (∀ u, u ≠ t → m'.todo u = m.todo u) ∧ I m'.shared

theorem Gets.call {st : Nat → UInt32} {I : Shared → Prop} {t : Nat} {m : State} {c : Call} {k : Answer → Prog} {p' : Prog}
    (hp : m.todo t = .call c k)
    (h : ∀ m', m'.shared = (c.body st m.shared).2 → m'.todo t = k (c.body st m.shared).1 → Gets st I t m' p') :
    Gets st I t m p' := by
  obtain ⟨es, m', h1, h2, h3, h4⟩ := h _ rfl (set_self { m with shared := (c.body st m.shared).2 } t _)
  refine ⟨[_] ++ es, m', (Run.start.step (Step.call m t c k hp)).trans h1, h2, fun u hu => ?_, h4⟩
  rw [h3 u hu, set_other _ _ hu]

theorem Gets.here {st : Nat → UInt32} {I : Shared → Prop} {t : Nat} {m : State} {p' : Prog} (hp : m.todo t = p')
    (h : I m.shared) : Gets st I t m p' := ⟨[], m, .start, hp, fun _ _ => rfl, h⟩

/-- All threads below `n` go from `p` to `p'` one after the other. -/
theorem sweep {st : Nat → UInt32} {I : Shared → Prop} {p p' : Prog}
    (h : ∀ t m, m.todo t = p → I m.shared → Gets st I t m p') (n : Nat) :
    ∀ m : State, (∀ t, t < n → m.todo t = p) → I m.shared →
      ∃ es m', Run st m es m' ∧ (∀ t, t < n → m'.todo t = p') ∧ (∀ t, n ≤ t → m'.todo t = m.todo t) ∧ I m'.shared := by
  induction n with
  | zero => exact fun m _ hI => ⟨[], m, .start, nofun, fun _ _ => rfl, hI⟩
  | succ n ih =>
    intro m hp hI
    obtain ⟨es, m', h1, h2, h3, h4⟩ := ih m (fun t ht => hp t (by omega)) hI
    obtain ⟨es', m'', k1, k2, k3, k4⟩ := h n m' ((h3 n (Nat.le_refl n)).trans (hp n (by omega))) h4
    refine ⟨es ++ es', m'', h1.trans k1, fun t ht => ?_, fun t ht => ?_, k4⟩
    · by_cases e : t = n
      · rw [e]; exact k2
      · rw [k3 t e]; exact h2 t (by omega)
    · rw [k3 t (by omega)]; exact h3 t (by omega)

theorem gets_find {st : Nat → UInt32} {t : Nat} {s : MemoryKeyStore} {K : Option Bytes → Prog}
    (l : List EncryptedGroupSecrets) : ∀ m : State, m.todo t = find l K → m.shared.map = s →
      Gets st (fun x => x.map = s) t m (K (Group.findPackage s l)) := by
  induction l with
  | nil => exact fun m hp hs => .here hp hs
  | cons e l ih =>
    intro m hp hs
    refine .call hp fun m' h1 h2 => ?_
    unfold Group.findPackage
    have h1' : m'.shared.map = s := by rw [h1]; exact hs
    have hv : (Call.body st (.key (.retrieve e.new_member)) m.shared).1.value = s.retrieve e.new_member := by
      show m.shared.map.retrieve _ = _
      rw [hs]
    rw [hv] at h2
    cases hr : s.retrieve e.new_member with
    | none => rw [hr] at h2; exact ih m' h2 h1'
    | some raw => rw [hr] at h2; exact .here h2 h1'

/-- All threads below `n` join with the same welcome and all succeed. -/
theorem all_join {P : CryptoProvider} {s : MemoryKeyStore} {w : Welcome} {e : EncryptedGroupSecrets} {x : KeyPackage}
    {ref : Bytes} (hj : Joinable P s w e x ref) (st : Nat → UInt32) (n : Nat) (m : State) (hs : m.shared.map = s)
    (hp : ∀ t, t < n → m.todo t = join P w) :
    ∃ es m', Run st m es m' ∧ ∀ t, t < n → m'.todo t = .done (.group (.ok Group.default)) := by
  obtain ⟨⟨raw, h1, h2⟩, h3, h4, rawKey, key, h5, h6⟩ := hj
  have hf := (findPackage_iff s w.secrets raw).2 ⟨e, h1⟩
  have hd := (packs_iff raw x).2 h2
  have hr := (generate_ref_iff P x ref).2 h3
  have hk := (packsKey_iff rawKey key).2 h6
  let p3 : Prog := .call (.key (.delete x.payload.init_key)) fun _ => .done (.group (.ok Group.default))
  let p2 : Prog := .call (.key (.retrieve x.payload.init_key)) fun a =>
    match a.value with
    | none => .done (.group (.err .NoMatchingKeyPackage))
    | some rawKey =>
      orStop .group (deserialize_exact SecretKey.deserialize rawKey) fun _ =>
      .call (.key (.delete x.payload.init_key)) fun _ =>
      .done (.group (.ok Group.default))
  let p1 : Prog := .call (.key (.delete ref)) fun _ => p2
  have e1 : joinFound P (some raw) = p1 := by
    unfold joinFound
    dsimp only
    rw [hd]
    dsimp only [orStop]
    rw [hr]
    rfl
  obtain ⟨es1, m1, r1, a1, _, b1⟩ := sweep (st := st) (I := fun y => y.map = s) (p := join P w) (p' := p1) (by
    intro t m hp hs
    have := gets_find (st := st) (K := joinFound P) w.secrets m hp hs
    rw [hf, e1] at this
    exact this) n m hp hs
  let I : Shared → Prop := fun y => y.map.retrieve x.payload.init_key = some rawKey
  obtain ⟨es2, m2, r2, a2, _, b2⟩ := sweep (st := st) (I := I) (p := p1) (p' := p2) (by
    intro t m hp hs
    refine .call hp fun m' k1 k2 => .here k2 ?_
    show m'.shared.map.retrieve _ = _
    rw [k1]
    exact (retrieve_delete _ _ _).trans ((if_neg h4).trans hs)) n m1 a1 (by
      show m1.shared.map.retrieve _ = _
      rw [b1]; exact h5)
  obtain ⟨es3, m3, r3, a3, _, b3⟩ := sweep (st := st) (I := I) (p := p2) (p' := p3) (by
    intro t m hp hs
    have hs : m.shared.map.retrieve x.payload.init_key = some rawKey := hs
    refine .call hp fun m' k1 k2 => .here ?_ ?_
    · have hv : (Call.body st (.key (.retrieve x.payload.init_key)) m.shared).1.value = some rawKey := hs
      rw [hv] at k2
      rw [k2]
      dsimp only
      rw [hk]
      rfl
    · show m'.shared.map.retrieve _ = _
      rw [k1]
      exact hs) n m2 a2 b2
  obtain ⟨es4, m4, r4, a4, _, _⟩ := sweep (st := st) (I := fun _ => True) (p := p3)
    (p' := .done (.group (.ok Group.default))) (by
    intro t m hp _
    exact .call hp fun m' k1 k2 => .here k2 trivial) n m3 a3 trivial
  exact ⟨_, m4, ((r1.trans r2).trans r3).trans r4, a4⟩

/-! ### The bytes of the threads -/

theorem words_enough (n : Nat) : n ≤ 4 * Spec.Call.words (.fill n) := by
  show n ≤ 4 * (if n % 4 = 0 then n / 4 else n / 4 + 1)
  split <;> omega

theorem step_draw {st : Nat → UInt32} {m m' : State} {t n : Nat} {a : Answer} (h : Step st m (t, .fill n, a) m') :
    ∃ b, a = .bytes b ∧ b.length = n ∧ Segment st (4 * m.shared.pos) b := by
  cases h with
  | call t c k hp => exact ⟨_, rfl, draw_length st _ _, draw_segment st _ _⟩

theorem run_draw {st : Nat → UInt32} {m m' : State} {t n : Nat} {a : Answer} {es1 es2 : List Event}
    (h : Run st m (es1 ++ (t, .fill n, a) :: es2) m') :
    ∃ b, a = .bytes b ∧ b.length = n ∧ Segment st (4 * (m.shared.pos + Spec.words es1)) b := by
  obtain ⟨m1, h1, h2⟩ := h.split es1 _ rfl
  obtain ⟨m2, h3, _⟩ := h2.front
  rw [← run_pos h1]
  exact step_draw h3

theorem draws_after {st : Nat → UInt32} {t : Nat} (es : List Event) : ∀ m m' : State, Run st m es m' →
    ∀ b ∈ draws t es, ∃ i, 4 * m.shared.pos ≤ i ∧ Segment st i b := by
  induction es with
  | nil => exact fun _ _ _ _ h => nomatch h
  | cons e es ih =>
    intro m m' h b hb
    obtain ⟨m1, h1, h2⟩ := h.front
    have hp := step_pos h1
    have ih := fun hb => ih m1 m' h2 b hb
    have later : b ∈ draws t es → ∃ i, 4 * m.shared.pos ≤ i ∧ Segment st i b := fun hb => by
      obtain ⟨i, hi, hs⟩ := ih hb
      exact ⟨i, by omega, hs⟩
    obtain ⟨u, c, a⟩ := e
    cases c with
    | key c => exact later hb
    | fill n =>
      unfold draws at hb
      split at hb
      · rcases List.mem_cons.1 hb with rfl | hb
        · obtain ⟨b, rfl, _, hs⟩ := step_draw h1
          exact ⟨_, Nat.le_refl _, hs⟩
        · exact later hb
      · exact later hb

theorem draws_before {st : Nat → UInt32} {m m1 m' : State} {t u n : Nat} {a : Answer} {es : List Event}
    (h1 : Step st m (t, .fill n, a) m1) (h2 : Run st m1 es m') (b : Bytes) (hb : b ∈ draws u es) :
    Before st a.drawn b := by
  obtain ⟨b0, rfl, hl, hs⟩ := step_draw h1
  obtain ⟨j, hj, hs'⟩ := draws_after es m1 m' h2 b hb
  refine ⟨_, j, hs, hs', ?_⟩
  have := step_pos h1
  have hw := words_enough n
  dsimp only [Answer.drawn] at *
  omega

theorem draws_pairwise {st : Nat → UInt32} {t : Nat} (es : List Event) : ∀ m m' : State, Run st m es m' →
    (draws t es).Pairwise (Before st) := by
  induction es with
  | nil => exact fun _ _ _ => .nil
  | cons e es ih =>
    intro m m' h
    obtain ⟨m1, h1, h2⟩ := h.front
    obtain ⟨u, c, a⟩ := e
    cases c with
    | key c => exact ih m1 m' h2
    | fill n =>
      unfold draws
      split
      · exact .cons (fun b hb => draws_before h1 h2 b hb) (ih m1 m' h2)
      · exact ih m1 m' h2

theorem draws_apart {st : Nat → UInt32} {t u : Nat} (htu : t ≠ u) (es : List Event) : ∀ m m' : State, Run st m es m' →
    ∀ b ∈ draws t es, ∀ b' ∈ draws u es, Before st b b' ∨ Before st b' b := by
  induction es with
  | nil => exact fun _ _ _ _ h => nomatch h
  | cons e es ih =>
    intro m m' h b hb b' hb'
    obtain ⟨m1, h1, h2⟩ := h.front
    obtain ⟨v, c, a⟩ := e
    cases c with
    | key c => exact ih m1 m' h2 b hb b' hb'
    | fill n =>
      unfold draws at hb hb'
      by_cases hv : v = t
      · have hv' : v ≠ u := fun h => htu (hv.symm.trans h)
        rw [if_pos hv] at hb
        rw [if_neg hv'] at hb'
        rcases List.mem_cons.1 hb with rfl | hb
        · exact .inl (draws_before h1 h2 b' hb')
        · exact ih m1 m' h2 b hb b' hb'
      · rw [if_neg hv] at hb
        split at hb'
        · rcases List.mem_cons.1 hb' with rfl | hb'
          · exact .inr (draws_before h1 h2 b hb)
          · exact ih m1 m' h2 b hb b' hb'
        · exact ih m1 m' h2 b hb b' hb'

/-- The random bytes of a thread are those in its calls. -/
theorem draws_callsOf (t : Nat) (es : List Event) : draws t es = drawn (callsOf t es) := by
  induction es with
  | nil => rfl
  | cons e es ih =>
    obtain ⟨u, c, a⟩ := e
    unfold callsOf
    cases c with
    | key c =>
      unfold draws
      split <;> exact ih
    | fill n =>
      unfold draws
      split
      · exact congrArg (a.drawn :: ·) ih
      · exact ih

theorem draws_length {st : Nat → UInt32} {m m' : State} {es : List Event} (h : Run st m es m') {t n : Nat} (a : Answer)
    (ha : (Call.fill n, a) ∈ callsOf t es) : a.drawn.length = n := by
  obtain ⟨es1, es2, he⟩ := List.append_of_mem (mem_callsOf ha)
  rw [he] at h
  obtain ⟨b, rfl, hl, _⟩ := run_draw h
  exact hl

/-- The calls of a build that succeeded begin with two requests for random bytes. -/
theorem follow_built {P : CryptoProvider} {b : KeyPackageBuilder} {config : CryptoConfig} {cred : Credential}
    {skp : SignatureKeyPair} {x : KeyPackage} {l : List (Call × Answer)}
    (h : Follow (build P b config cred skp) l (.done (.package (.ok x)))) :
    ∃ hash a0 a1 l', P.hash config.cipher_suite = .ok hash ∧ l = (.fill hash.size, a0) :: (.fill hash.size, a1) :: l' := by
  have stop : ∀ {β : Type} {y : Res β} {k : β → Prog} {l}, Follow (orStop .package y k) l (.done (.package (.ok x))) →
      ∃ z, y = .ok z ∧ Follow (k z) l (.done (.package (.ok x))) := by
    intro β y k l h
    cases y with
    | ok z => exact ⟨z, rfl, h⟩
    | err e => exact absurd (follow_done h).2 nofun
    | fault f => exact absurd (follow_done h).2 nofun
  unfold build at h
  obtain ⟨_, _, h⟩ := stop h
  split at h
  · exact absurd (follow_done h).2 nofun
  obtain ⟨hash, hh, h⟩ := stop h
  obtain ⟨a0, l0, hl0, h⟩ := follow_call h
  obtain ⟨_, _, h⟩ := stop h
  obtain ⟨_, _, h⟩ := stop h
  obtain ⟨a1, l1, hl1, _⟩ := follow_call h
  exact ⟨hash, a0, a1, l1, hh, by rw [hl0, hl1]⟩

/-! ### A schedule carried out -/

/-- The threads make calls in this order. -/
def exec (st : Nat → UInt32) : List Nat → State → List Event × State
  | [], m => ([], m)
  | t :: ts, m =>
    match m.todo t with
    | .done _ => exec st ts m
    | .call c k =>
      let r := exec st ts ({ m with shared := (c.body st m.shared).2 }.set t (k (c.body st m.shared).1))
      ((t, c, (c.body st m.shared).1) :: r.1, r.2)

theorem exec_run (st : Nat → UInt32) (ts : List Nat) : ∀ m, Run st m (exec st ts m).1 (exec st ts m).2 := by
  induction ts with
  | nil => exact fun m => .start
  | cons t ts ih =>
    intro m
    unfold exec
    cases h : m.todo t with
    | done o => exact ih m
    | call c k => exact (Run.start.step (Step.call m t c k h)).trans (ih _)

/-- How a thread ended. -/
def State.outcome (m : State) (t : Nat) : Option Outcome :=
  match m.todo t with
  | .done o => some o
  | .call _ _ => none

theorem outcome_some {m : State} {t : Nat} {o : Outcome} (h : m.outcome t = some o) : m.todo t = .done o := by
  unfold State.outcome at h
  split at h
  · next h' => cases h; exact h'
  · cases h

instance (k : Bytes) (c : Call) : Decidable (Alters k c) := by
  cases c with
  | fill n => exact .isFalse id
  | key c =>
    cases c with
    | store k' v => exact inferInstanceAs (Decidable (k' = k))
    | delete k' => exact inferInstanceAs (Decidable (k' = k))
    | retrieve k' => exact .isFalse id

instance (es : List Event) (t : Nat) (k : Bytes) : Decidable (Disturbed es t k) :=
  inferInstanceAs (Decidable (∃ e ∈ es, e.1 ≠ t ∧ Alters k e.2.1))

/-- The key a call is about. -/
def keyOf : Call → Option Bytes
  | .key (.store k _) => some k
  | .key (.retrieve k) => some k
  | .key (.delete k) => some k
  | .fill _ => none

theorem uses_iff (k : Bytes) (c : Call) : Uses k c ↔ keyOf c = some k := by
  cases c with
  | fill n => exact ⟨(nomatch ·), (nomatch ·)⟩
  | key c => cases c <;> exact ⟨congrArg some, Option.some.inj⟩

theorem undisturbed_of {es : List Event} {t : Nat}
    (h : ∀ e ∈ es, e.1 = t → ∀ k ∈ keyOf e.2.1, ¬ Disturbed es t k) : Undisturbed es t :=
  fun e he ht k hk => h e he ht k ((uses_iff k _).1 hk)

end Threads
end Rmls
