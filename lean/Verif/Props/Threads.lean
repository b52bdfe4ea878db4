import Verif.Proofs.Threads
import Verif.Props.Group
/-
C98, C99, C100: threads that share one provider.
-/
namespace Rmls
open Spec Threads MemoryKeyStore Enc

/-! ## C98 -/

/-- C98: a request for `n` random bytes succeeds, and gives the `n` bytes of the key stream that follow those used up by all
requests before it, of whatever thread. -/
theorem C98_order (st : Nat → UInt32) (m : State) (es1 es2 : List Threads.Event) (t n : Nat) (a : Threads.Answer)
    (M : Threads.Machine) (h : FineRun st m.machine (es1 ++ (t, .fill n, a) :: es2) M) :
    ∃ b, a = .bytes b ∧ b.length = n ∧ Segment st (4 * (m.shared.pos + words es1)) b :=
  run_draw (fine_run h).2

/-- C98: no byte of the key stream is given to a thread twice. -/
theorem C98_once (st : Nat → UInt32) (m : State) (es : List Threads.Event) (M : Threads.Machine)
    (h : FineRun st m.machine es M) (t : Nat) : (draws t es).Pairwise (Before st) :=
  draws_pairwise es _ _ (fine_run h).2

/-- C98: no byte of the key stream is given to two threads. -/
theorem C98_threads (st : Nat → UInt32) (m : State) (es : List Threads.Event) (M : Threads.Machine)
    (h : FineRun st m.machine es M) (t u : Nat) (htu : t ≠ u) (b b' : Bytes) (hb : b ∈ draws t es) (hb' : b' ∈ draws u es) :
    Before st b b' ∨ Before st b' b :=
  draws_apart htu es _ _ (fine_run h).2 b hb b' hb'

/-- C98: the bytes that a thread is given are those its program goes on with: a program that ends would, without other threads
and in some store, have ended the same way with these bytes, if it does not use the store. -/
theorem C98_given (st : Nat → UInt32) (m : State) (es : List Threads.Event) (M : Threads.Machine)
    (h : FineRun st m.machine es M) (t : Nat) (o : Outcome) (ho : M.phase t = .between (.done o))
    (hk : ∀ e ∈ es, e.1 = t → ∃ n, e.2.1 = .fill n) (s : MemoryKeyStore) :
    ∃ s', Alone (m.todo t) s (draws t es) o s' := by
  obtain ⟨_, hr⟩ := fine_run h
  have ho' : M.forget.todo t = .done o := by show (M.phase t).rest = _; rw [ho]; rfl
  obtain ⟨s', hs, _⟩ := alone_of_run (fun _ => True) es m _ s hr ho' (fun _ _ _ _ _ => trivial)
    (fun e he ht k hu => by obtain ⟨n, hn⟩ := hk e he ht; rw [hn] at hu; exact absurd hu id) (fun _ h => absurd trivial h)
  exact ⟨s', hs⟩

/-- C98: the reuse guards of two threads that each protect a message have four bytes each, and are pieces of the key stream that do
not overlap. -/
theorem C98_guards (st : Nat → UInt32) (m : State) (es : List Threads.Event) (M : Threads.Machine)
    (h : FineRun st m.machine es M) (t u : Nat) (htu : t ≠ u) (i j : LeafIndex) (g k : UInt32)
    (ht : m.todo t = senderData i g) (hu : m.todo u = senderData j k) (x y : SenderData)
    (hx : M.phase t = .between (.done (.sender (.ok x)))) (hy : M.phase u = .between (.done (.sender (.ok y)))) :
    x.leaf_index = i ∧ x.generation = g ∧ y.leaf_index = j ∧ y.generation = k ∧
    x.reuse_guard.length = 4 ∧ y.reuse_guard.length = 4 ∧
    (Before st x.reuse_guard y.reuse_guard ∨ Before st y.reuse_guard x.reuse_guard) := by
  obtain ⟨_, hr⟩ := fine_run h
  have key : ∀ v i g z, m.todo v = senderData i g → M.phase v = .between (.done (.sender (.ok z))) →
      draws v es = [z.reuse_guard] ∧ z.reuse_guard.length = 4 ∧ z.leaf_index = i ∧ z.generation = g := by
    intro v i g z hv hz
    have hf := follow_of_run (t := v) es m _ hr
    rw [hv, show M.forget.todo v = .done (.sender (.ok z)) by show (M.phase v).rest = _; rw [hz]; rfl] at hf
    obtain ⟨a, l, hl, hf⟩ := follow_call hf
    obtain ⟨hl', ho⟩ := follow_done hf
    subst hl'
    have hd := draws_callsOf v es
    rw [hl] at hd
    cases ho
    exact ⟨hd, draws_length hr _ (by rw [hl]; exact List.mem_singleton.2 rfl), rfl, rfl⟩
  obtain ⟨d1, x0, x1, x2⟩ := key t i g x ht hx
  obtain ⟨d2, y0, y1, y2⟩ := key u j k y hu hy
  exact ⟨x1, x2, y1, y2, x0, y0, C98_threads st m es M h t u htu _ _ (by rw [d1]; exact List.mem_singleton.2 rfl)
    (by rw [d2]; exact List.mem_singleton.2 rfl)⟩

/-! ## C99 -/

/-- C99 fails: any number of threads can join with one key package at the same time, and all of them succeed.  Each looks up the
package before any of them has deleted it, and then the init key before any of them has deleted that. -/
theorem C99_refuted (P : CryptoProvider) (s : MemoryKeyStore) (w : Welcome) (e : EncryptedGroupSecrets) (x : KeyPackage)
    (ref : Bytes) (hj : Joinable P s w e x ref) (st : Nat → UInt32) (n : Nat) (m : State) (hs : m.shared.map = s)
    (hp : ∀ t, t < n → m.todo t = join P w) :
    ∃ es M, FineRun st m.machine es M ∧ ∀ t, t < n → M.phase t = .between (.done (.group (.ok Group.default))) := by
  obtain ⟨es, m', h1, h2⟩ := all_join hj st n m hs hp
  exact ⟨es, _, run_fine h1, fun t ht => congrArg Phase.between (h2 t ht)⟩

/-- The hypotheses can be met, for every number of threads. -/
example (n : Nat) : ∃ es M, FineRun (fun _ => 0) (State.machine ⟨⟨toyStore, 0⟩, fun _ => join toyProvider toyWelcome⟩) es M ∧
    ∀ t, t < n → M.phase t = .between (.done (.group (.ok Group.default))) :=
  C99_refuted toyProvider toyStore toyWelcome _ toyPackage toyRef toy_joinable _ n _ rfl fun _ _ => rfl

/-- C99, what is true.  When a join has succeeded, whatever other threads did meanwhile, the package and its init key are not in the
store, unless somebody put them there during the run.
Missing: that no other join has succeeded with them, which is false, see `C99_refuted`. -/
theorem C99_gone_partial (P : CryptoProvider) (st : Nat → UInt32) (m : State) (es : List Threads.Event) (M : Threads.Machine)
    (h : FineRun st m.machine es M) (t : Nat) (w : Welcome) (ht : m.todo t = join P w) (g : Group)
    (hg : M.phase t = .between (.done (.group (.ok g)))) :
    ∃ e ∈ w.secrets, ∃ raw x ref,
      (t, Threads.Call.key (.retrieve e.new_member), Threads.Answer.key (.value (some raw))) ∈ es ∧
      Packs raw x ∧ IsRef P x ref ∧
      ((∀ ev ∈ es, ¬ Stores ref ev.2.1) → M.shared.map.retrieve ref = none) ∧
      ((∀ ev ∈ es, ¬ Stores x.payload.init_key ev.2.1) → M.shared.map.retrieve x.payload.init_key = none) := by
  obtain ⟨_, hr⟩ := fine_run h
  have hf := follow_of_run (t := t) es m _ hr
  rw [ht, show M.forget.todo t = .done (.group (.ok g)) by show (M.phase t).rest = _; rw [hg]; rfl] at hf
  obtain ⟨e, he, raw, x, ref, h1, h2, h3, ⟨a, h4⟩, a', h5⟩ := follow_joined hf
  exact ⟨e, he, raw, x, ref, mem_callsOf h1, h2, h3, deleted_absent hr ref (mem_callsOf h4),
    deleted_absent hr _ (mem_callsOf h5)⟩

/-- C99, what is true.  A join that begins when none of the packages it names is in the store is refused, whatever other threads do
meanwhile, unless somebody stores one of them.
Missing: joins that have begun before, see `C99_refuted`. -/
theorem C99_late_partial (P : CryptoProvider) (st : Nat → UInt32) (m : State) (es : List Threads.Event) (M : Threads.Machine)
    (h : FineRun st m.machine es M) (t : Nat) (w : Welcome) (ht : m.todo t = join P w) (o : Outcome)
    (ho : M.phase t = .between (.done o)) (hw : ∀ e ∈ w.secrets, m.shared.map.retrieve e.new_member = none)
    (hs : ∀ ev ∈ es, ∀ e ∈ w.secrets, ¬ Stores e.new_member ev.2.1) :
    o = .group (.err .NoMatchingKeyPackage) := by
  obtain ⟨_, hr⟩ := fine_run h
  have hf := follow_of_run (t := t) es m _ hr
  rw [ht, show M.forget.todo t = .done o by show (M.phase t).rest = _; rw [ho]; rfl] at hf
  obtain ⟨r, l1, l2, hl, h1, h2, _⟩ := follow_find _ _ hf
  cases r with
  | none => exact (follow_done h1).2
  | some raw =>
    obtain ⟨e, he, hm⟩ := h2 raw rfl
    have := absent_answers hr e.new_member (hw e he) (fun ev hev => hs ev hev e he) (.inl (mem_callsOf (by
      rw [hl]; exact List.mem_append_left _ hm)))
    cases this

/-- C99, what is true.  Of two calls that each remove a value from under one key, the value of the second was stored in between: of
the threads that delete a package only one gets it back.
Missing: `from_welcome` does not look at what `delete` gives back, see `C99_refuted`. -/
theorem C99_removed_once_partial (st : Nat → UInt32) (m : State) (es1 es2 es3 : List Threads.Event) (M : Threads.Machine)
    (k : Bytes) (t u : Nat) (a : Threads.Answer) (v : Bytes)
    (h : FineRun st m.machine (es1 ++ (t, .key (.delete k), a) :: es2 ++
      (u, .key (.delete k), .key (.value (some v))) :: es3) M) :
    ∃ e ∈ es2, Stores k e.2.1 := by
  obtain ⟨_, hr⟩ := fine_run h
  rw [List.append_assoc] at hr
  obtain ⟨m1, _, r1⟩ := hr.split es1 _ rfl
  obtain ⟨m2, r2, r3⟩ := r1.front
  have h0 : m2.shared.map.retrieve k = none := by
    cases r2 with
    | call t c kk hp => exact (retrieve_delete _ k k).trans (if_pos rfl)
  obtain ⟨m3, r4, r5⟩ := r3.split es2 _ rfl
  by_cases hs : ∃ e ∈ es2, Stores k e.2.1
  · exact hs
  · have h3 := run_absent r4 k h0 fun e he hst => hs ⟨e, he, hst⟩
    obtain ⟨m4, r6, _⟩ := r5.front
    have := absent_answers (es := [_]) (Run.start.step r6) k h3 (fun e he => by
      rw [List.mem_singleton.1 he]
      rintro ⟨v, hv⟩
      cases hv) (t := u) (.inr (List.mem_singleton.2 rfl))
    cases this

/-! ## C100 -/

/-- C100: the locks make the calls atomic: what the threads do with them they can do with whole calls, one at a time, and the
other way round. -/
theorem C100_atomic (st : Nat → UInt32) (m : State) (es : List Threads.Event) (s : Shared) (p : Nat → Prog) :
    FineRun st m.machine es ⟨s, fun t => .between (p t)⟩ ↔ Run st m es ⟨s, p⟩ :=
  ⟨fun h => (fine_run h).2, run_fine⟩

/-- C100: no thread waits for ever: a thread that has not ended can move, or it waits for a thread that holds the lock of the
same object, the key store or the generator, and can move. -/
theorem C100_progress (st : Nat → UInt32) (m : Threads.Machine) (t : Nat) (h : ∀ o, m.phase t ≠ .between (.done o)) :
    ∃ u e m', (u = t ∨ ∃ c k d, m.phase t = .waiting c k ∧ (m.phase u).holds = some d ∧
        ((∃ a b, c = .key a ∧ d = .key b) ∨ ∃ a b, c = .fill a ∧ d = .fill b)) ∧
      FineStep st m e m' ∧ m'.phase u ≠ m.phase u := by
  obtain ⟨u, e, m', h1, h2⟩ := can_step st m t h
  refine ⟨u, e, m', h1.imp id ?_, h2⟩
  rintro ⟨c, k, d, h3, h4, h5⟩
  refine ⟨c, k, d, h3, h4, ?_⟩
  cases c <;> cases d
  · exact .inl ⟨_, _, rfl, rfl⟩
  · cases h5
  · cases h5
  · exact .inr ⟨_, _, rfl, rfl⟩

/-- C100: a thread does not notice the others: if none of them changes what is under a key that it uses, then it does and returns
what it would alone, with the random bytes it is given; and keys that the others do not change are as it leaves them. -/
theorem C100_alone (st : Nat → UInt32) (m : State) (es : List Threads.Event) (M : Threads.Machine)
    (h : FineRun st m.machine es M) (t : Nat) (o : Outcome) (ho : M.phase t = .between (.done o)) (hu : Undisturbed es t) :
    ∃ s', Alone (m.todo t) m.shared.map (draws t es) o s' ∧
      ∀ k, ¬ Disturbed es t k → s'.retrieve k = M.shared.map.retrieve k := by
  obtain ⟨_, hr⟩ := fine_run h
  exact alone_of_run (Disturbed es t) es m _ _ hr (by show (M.phase t).rest = _; rw [ho]; rfl)
    (fun e he ht k hk => ⟨e, he, ht, hk⟩) hu (fun _ _ => rfl)

/-- C100: so for a join, -/
theorem C100_join (P : CryptoProvider) (st : Nat → UInt32) (m : State) (es : List Threads.Event) (M : Threads.Machine)
    (h : FineRun st m.machine es M) (t : Nat) (w : Welcome) (ht : m.todo t = join P w) (o : Outcome)
    (ho : M.phase t = .between (.done o)) (hu : Undisturbed es t) :
    o = .group (Group.from_welcome P m.shared.map w).1 ∧
    ∀ k, ¬ Disturbed es t k → M.shared.map.retrieve k = (Group.from_welcome P m.shared.map w).2.retrieve k := by
  obtain ⟨s', h1, h2⟩ := C100_alone st m es M h t o ho hu
  rw [ht] at h1
  obtain ⟨_, h3, h4⟩ := alone_join h1
  exact ⟨h3, fun k hk => by rw [← h2 k hk, h4]⟩

/-- C100: and for a build that succeeds: it is the build with two pieces of the key stream, each as long as a hash, that do not
overlap. -/
theorem C100_build (P : CryptoProvider) (st : Nat → UInt32) (m : State) (es : List Threads.Event) (M : Threads.Machine)
    (h : FineRun st m.machine es M) (t : Nat) (b : KeyPackageBuilder) (config : CryptoConfig) (cred : Credential)
    (skp : SignatureKeyPair) (ht : m.todo t = build P b config cred skp) (x : KeyPackage)
    (ho : M.phase t = .between (.done (.package (.ok x)))) (hu : Undisturbed es t) :
    ∃ ikm0 ikm, draws t es = [ikm0, ikm] ∧ Before st ikm0 ikm ∧
      (∃ h, P.hash config.cipher_suite = .ok h ∧ ikm0.length = h.size ∧ ikm.length = h.size) ∧
      (b.build P m.shared.map config ikm0 ikm cred skp).1 = .ok x ∧
      ∀ k, ¬ Disturbed es t k →
        M.shared.map.retrieve k = (b.build P m.shared.map config ikm0 ikm cred skp).2.retrieve k := by
  obtain ⟨s', h1, h2⟩ := C100_alone st m es M h t _ ho hu
  rw [ht] at h1
  obtain ⟨ikm0, ikm, hp⟩ := alone_build_draws h1
  obtain ⟨e1, e2, e3⟩ := alone_build h1 ikm0 ikm hp
  have hd := e3 x rfl
  refine ⟨ikm0, ikm, hd, ?_, ?_, ?_, fun k hk => by rw [← h2 k hk, e2]⟩
  · have := C98_once st m es M h t
    rw [hd] at this
    exact (List.pairwise_cons.1 this).1 ikm (List.mem_singleton.2 rfl)
  · obtain ⟨_, hr⟩ := fine_run h
    have hf := follow_of_run (t := t) es m _ hr
    rw [ht, show M.forget.todo t = .done (.package (.ok x)) by show (M.phase t).rest = _; rw [ho]; rfl] at hf
    obtain ⟨hash, a0, a1, l, g1, g2⟩ := follow_built hf
    have hd' := draws_callsOf t es
    rw [hd] at hd'
    have m0 := draws_length hr (t := t) (n := hash.size) a0 (by rw [g2]; exact List.mem_cons_self ..)
    have m1 := draws_length hr (t := t) (n := hash.size) a1
      (by rw [g2]; exact List.mem_cons_of_mem _ (List.mem_cons_self ..))
    rw [g2] at hd'
    have hd' := List.cons.inj hd'
    exact ⟨hash, g1, by rw [hd'.1]; exact m0, by rw [(List.cons.inj hd'.2).1]; exact m1⟩
  · exact (Outcome.package.inj e1).symm

/-- C100: a build that fails does so alone too, with whatever bytes follow those it was given. -/
theorem C100_build_fails (P : CryptoProvider) (st : Nat → UInt32) (m : State) (es : List Threads.Event) (M : Threads.Machine)
    (h : FineRun st m.machine es M) (t : Nat) (b : KeyPackageBuilder) (config : CryptoConfig) (cred : Credential)
    (skp : SignatureKeyPair) (ht : m.todo t = build P b config cred skp) (o : Outcome)
    (ho : M.phase t = .between (.done o)) (hu : Undisturbed es t) :
    (∃ ikm0 ikm, draws t es <+: [ikm0, ikm]) ∧
    ∀ ikm0 ikm, draws t es <+: [ikm0, ikm] → o = .package (b.build P m.shared.map config ikm0 ikm cred skp).1 := by
  obtain ⟨s', h1, _⟩ := C100_alone st m es M h t _ ho hu
  rw [ht] at h1
  exact ⟨alone_build_draws h1, fun ikm0 ikm hp => (alone_build h1 ikm0 ikm hp).1⟩

/-- C100: and for the creation of a group: its id is the one given, or 16 bytes of the key stream. -/
theorem C100_create (st : Nat → UInt32) (m : State) (es : List Threads.Event) (M : Threads.Machine)
    (h : FineRun st m.machine es M) (t : Nat) (c : GroupConfig) (cred : Credential) (skp : SignatureKeyPair)
    (id : Option Bytes) (ht : m.todo t = create c cred skp id) (o : Outcome) (ho : M.phase t = .between (.done o)) :
    ∃ g, o = .group (.ok g) ∧ g.group_config = c ∧ g.credential = cred ∧ g.signature_key = skp.public_key ∧
      (∀ i, id = some i → g.group_id = i) ∧ (id = none → draws t es = [g.group_id] ∧ g.group_id.length = 16) := by
  obtain ⟨_, hr⟩ := fine_run h
  have hf := follow_of_run (t := t) es m _ hr
  rw [ht, show M.forget.todo t = .done o by show (M.phase t).rest = _; rw [ho]; rfl] at hf
  cases id with
  | some i =>
    obtain ⟨_, h1⟩ := follow_done hf
    exact ⟨_, h1, rfl, rfl, rfl, fun j hj => Option.some.inj hj, nofun⟩
  | none =>
    obtain ⟨a, l, hl, hf⟩ := follow_call hf
    obtain ⟨hl', h1⟩ := follow_done hf
    subst hl'
    have hd := draws_callsOf t es
    rw [hl] at hd
    exact ⟨_, h1, rfl, rfl, rfl, nofun, fun _ => ⟨hd, draws_length hr _ (by rw [hl]; exact List.mem_singleton.2 rfl)⟩⟩

/-! ### Threads that run at the same time -/

/-- A thread that builds a package, one that joins with another one, two that protect messages, one that creates a group. -/
def toyThreads : Nat → Prog
  | 0 => build toyProvider toyBuilder toyConfig (.Basic [5]) ⟨[9], [9], .ED25519⟩
  | 1 => join toyProvider toyWelcome
  | 2 => senderData 3 4
  | 3 => create ⟨toyConfig⟩ (.Basic [5]) ⟨[9], [9], .ED25519⟩ none
  | _ => senderData 5 6

/-- Words that differ. -/
def toyStream (i : Nat) : UInt32 := UInt32.ofNat (i + 1) * 0x01030507

/-- They take turns. -/
def toyTurns : List Nat := [0, 1, 2, 0, 1, 0, 4, 1, 3, 0, 1, 0, 1, 0]

/-- The run. -/
def toyRun : List Threads.Event × State := exec toyStream toyTurns ⟨⟨toyStore, 0⟩, toyThreads⟩

/-- It is a run with the locks. -/
example : FineRun toyStream (State.machine ⟨⟨toyStore, 0⟩, toyThreads⟩) toyRun.1 toyRun.2.machine :=
  run_fine (exec_run _ _ _)

/-- The thread ended with a package. -/
private def isPackage : Option Outcome → Bool
  | some (.package (.ok _)) => true
  | _ => false
/-- The thread ended with sender data with this reuse guard. -/
private def isGuard (b : Bytes) : Option Outcome → Bool
  | some (.sender (.ok x)) => x.reuse_guard = b
  | _ => false
/-- The thread ended with a group with this id. -/
private def isGroup (b : Bytes) : Option Outcome → Bool
  | some (.group (.ok x)) => x.group_id = b
  | _ => false

set_option maxRecDepth 100000 in
/-- All threads end well, with different bytes, and none disturbs another. -/
example : isPackage (toyRun.2.outcome 0) = true ∧ isGroup [] (toyRun.2.outcome 1) = true ∧
    isGuard [14, 10, 6, 2] (toyRun.2.outcome 2) = true ∧
    isGroup [35, 25, 15, 5, 42, 30, 18, 6, 49, 35, 21, 7, 56, 40, 24, 8] (toyRun.2.outcome 3) = true ∧
    isGuard [28, 20, 12, 4] (toyRun.2.outcome 4) = true := by
  decide +kernel

set_option maxRecDepth 100000 in
example (t : Nat) : Undisturbed toyRun.1 t := undisturbed_of (by
  rintro e he rfl
  revert e
  decide +kernel)

end Rmls
