import Verif.Proofs.KeyStore
/-
C45: the key store.
-/
namespace Rmls
open Spec MemoryKeyStore

/-! ## C45 -/

/-- C45: in every run of any number of threads on a new store, the effects of the calls are, in the order in which
they happen, a correct sequence of calls one after the other; and every thread sees each of its calls take effect once,
between the call and its return, and gets the answer of that effect. -/
theorem C45_linearizable (es : List Event) (m : Machine) (h : Run Machine.fresh es m) :
    Correct (effects es) ∧ ∀ t, InTurn t (es.filter (Event.of t)) := by
  have g := storeGood_run h
  refine ⟨g.correct, fun t => ?_⟩
  obtain ⟨done, h1, h2⟩ := g.turns t
  refine ⟨done, h1, ?_⟩
  rw [h2]
  cases m.phase t with
  | outside => exact .inl (List.append_nil _)
  | waiting c => exact .inr (.inl ⟨c, rfl⟩)
  | locked c => exact .inr (.inl ⟨c, rfl⟩)
  | reading c s => exact .inr (.inl ⟨c, rfl⟩)
  | finished c a => exact .inr (.inr ⟨c, a, rfl⟩)

/-- C45: what is in the store at any time of a run is what was stored and not changed since. -/
theorem C45_contents (es : List Event) (m : Machine) (h : Run Machine.fresh es m) (k v : Bytes) :
    m.map.retrieve k = some v ↔ Remembers ((effects es).map (·.1)) k v := by
  rw [(storeGood_run h).map, retrieve_afterCalls]

/-- C45: calls on one key do not affect another. -/
theorem C45_separate (s : MemoryKeyStore) (k : Bytes) (c : Call) (h : ¬ Changes k c) :
    (c.body s).2.retrieve k = s.retrieve k := by
  cases c with
  | store k' v => exact (retrieve_store s k k' v).trans (if_neg h)
  | retrieve k' => rfl
  | delete k' => exact (retrieve_delete s k k').trans (if_neg h)

/-- C45: the lock never blocks everybody: while a call is going on, some thread can go on. -/
theorem C45_progress (m : Machine) (t : Nat) (ht : m.phase t ≠ .outside) :
    ∃ u e m', m.phase u ≠ .outside ∧ Step m e m' ∧ m'.phase u ≠ m.phase u := by
  by_cases hh : ∃ u c, (m.phase u).holds = some c
  · obtain ⟨u, c, hu⟩ := hh
    cases hp : m.phase u with
    | outside => rw [hp] at hu; cases hu
    | waiting d => rw [hp] at hu; cases hu
    | locked d => exact ⟨u, _, _, by rw [hp]; exact nofun, .read m u d hp, by rw [move_self, hp]; exact nofun⟩
    | reading d s => exact ⟨u, _, _, by rw [hp]; exact nofun, .write m u d s hp, by rw [move_self, hp]; exact nofun⟩
    | finished d a => exact ⟨u, _, _, by rw [hp]; exact nofun, .release m u d a hp, by rw [move_self, hp]; exact nofun⟩
  · have hfree : ∀ u d, (m.phase u).holds ≠ some d := fun u d h => hh ⟨u, d, h⟩
    cases hp : m.phase t with
    | outside => exact absurd hp ht
    | waiting d => exact ⟨t, _, _, ht, .acquire m t d hp (fun u d' h => absurd h (hfree u d')),
        by rw [move_self, hp]; exact nofun⟩
    | locked d => exact absurd (by rw [hp]; rfl) (hfree t d)
    | reading d s => exact absurd (by rw [hp]; rfl) (hfree t d)
    | finished d a => exact absurd (by rw [hp]; rfl) (hfree t d)

/-- C45: lookups do not wait for lookups: one that waits can go on whenever all who hold the lock are looking up. -/
theorem C45_readers (m : Machine) (t : Nat) (k : Bytes) (ht : m.phase t = .waiting (.retrieve k))
    (hr : ∀ u d, (m.phase u).holds = some d → ∃ k', d = .retrieve k') : ∃ e m', Step m e m' ∧ m'.phase t = .locked (.retrieve k) :=
  ⟨_, _, .acquire m t _ ht fun u d hd => by obtain ⟨k', rfl⟩ := hr u d hd; exact ⟨rfl, rfl⟩, move_self ..⟩

/-- C45: who changes the map is alone with it: while a thread holds the lock to store or delete, no other thread holds it. -/
theorem C45_exclusive (es : List Event) (m : Machine) (h : Run Machine.fresh es m) (t u : Nat) (c d : Call) (k : Bytes)
    (hc : Changes k c) (ht : (m.phase t).holds = some c) (hu : (m.phase u).holds = some d) : u = t :=
  Classical.byContradiction fun hne => by
    have := ((storeGood_run h).exclusive t u c d (Ne.symm hne) ht hu).1
    cases c with
    | store k' v => cases this
    | retrieve k' => exact hc
    | delete k' => cases this

/-- Two lookups at the same time. -/
example : ∃ m, Run Machine.fresh [.call 1 (.retrieve [1]), .call 2 (.retrieve [1])] m ∧
    m.phase 1 = .locked (.retrieve [1]) ∧ m.phase 2 = .locked (.retrieve [1]) := by
  refine ⟨_, .step (.step (.step (.step .start (.invoke _ 1 (.retrieve [1]) rfl)) (.invoke _ 2 (.retrieve [1]) rfl))
    (.acquire _ 1 (.retrieve [1]) rfl ?_)) (.acquire _ 2 (.retrieve [1]) rfl ?_), rfl, rfl⟩ <;>
  · intro u d h
    simp only [Machine.move, Machine.fresh] at h
    repeat' split at h
    all_goals first | cases h; done | (cases h; exact ⟨rfl, rfl⟩)

/-- A run in which two threads overlap: one has called `store` and waits while the other reads. -/
example : ∃ m, Run Machine.fresh
    [.call 1 (.store [1] [2]), .call 2 (.retrieve [1]), .effect 2 (.retrieve [1]) (.value none), .ret 2 (.value none)] m ∧
    m.phase 1 = .waiting (.store [1] [2]) := by
  refine ⟨_, .step (.step (.step (.step (.step (.step .start (.invoke _ 1 (.store [1] [2]) rfl))
    (.invoke _ 2 (.retrieve [1]) rfl)) (.acquire _ 2 (.retrieve [1]) rfl ?_)) (.read _ 2 (.retrieve [1]) rfl))
    (.write _ 2 (.retrieve [1]) empty rfl)) (.release _ 2 (.retrieve [1]) (.value none) rfl), rfl⟩
  intro u d h
  exfalso
  simp only [Machine.move, Machine.fresh] at h
  split at h
  · cases h
  · split at h <;> cases h
example : Remembers [.store [1] [2], .store [1] [3], .store [2] [2], .delete [2]] [1] [3] :=
  ⟨[.store [1] [2]], [.store [2] [2], .delete [2]], rfl, by simp [Changes]⟩

end Rmls
