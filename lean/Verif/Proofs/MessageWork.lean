import Verif.Model.MessageWork
import Verif.Proofs.SecretTree
/-
The counting receiver has the same results, and how much it counts.
-/
namespace Rmls
open Spec

namespace Steps

theorem bind_res {α β : Type} (x : Steps α) (f : α → Steps β) :
    (x >>= f).res = x.res >>= fun a => (f a).res := by
  show (Steps.bind x f).res = _
  unfold Steps.bind
  cases x.res <;> rfl

theorem pure_res {α : Type} (a : α) : (pure a : Steps α).res = .ok a := rfl
theorem free_res {α : Type} (x : Res α) : (free x).res = x := rfl
theorem expand_res {α : Type} (x : Res α) : (expand x).res = x := rfl

theorem bind_ok {α β : Type} {x : Steps α} {f : α → Steps β} {a : α} (h : x.res = .ok a) :
    (x >>= f).expands = x.expands + (f a).expands := by
  show (Steps.bind x f).expands = _
  unfold Steps.bind
  rw [h]

theorem free_bind {α β : Type} (a : α) (f : α → Steps β) : (free (.ok a) >>= f) = f a := by
  show Steps.bind (free (.ok a)) f = f a
  simp only [Steps.bind, free, Nat.zero_add]

theorem bind_not_ok {α β : Type} {x : Steps α} {f : α → Steps β} (h : ∀ a, x.res ≠ .ok a) :
    (x >>= f).expands = x.expands := by
  show (Steps.bind x f).expands = _
  unfold Steps.bind
  cases hx : x.res with
  | ok a => exact absurd hx (h a)
  | err e => rfl
  | fault e => rfl

theorem bind_le {α β : Type} {x : Steps α} {f : α → Steps β} {m n : Nat} (hx : x.expands ≤ m)
    (hf : ∀ a, x.res = .ok a → (f a).expands ≤ n) : (x >>= f).expands ≤ m + n := by
  by_cases h : ∃ a, x.res = .ok a
  · obtain ⟨a, h⟩ := h
    rw [bind_ok h]
    exact Nat.add_le_add hx (hf a h)
  · rw [bind_not_ok fun a ha => h ⟨a, ha⟩]
    omega

theorem free_le {α β : Type} {x : Res α} {f : α → Steps β} {n : Nat} (hf : ∀ a, x = .ok a → (f a).expands ≤ n) :
    (free x >>= f).expands ≤ n := by
  have := bind_le (x := free x) (f := f) (m := 0) (Nat.le_refl _) hf
  omega

end Steps

namespace MessageProtection.Counting
open Steps

variable (P : CryptoProvider) (cs : CipherSuite)

/-! ### The same results -/

theorem derive_children_res : ∀ (fuel : Nat) (t : SecretTree) (x : Nat),
    (derive_children P cs fuel t x).res = SecretTree.derive_children P cs fuel t x
  | 0, _, _ => rfl
  | fuel + 1, t, x => by
    unfold derive_children SecretTree.derive_children
    simp only [bind_res, free_res]
    congr 1
    funext o
    cases o with
    | none => rfl
    | some lr => simp only [bind_res, free_res, expand_res, derive_children_res fuel]

theorem newTree_res (n : Nat) (es : Bytes) : (newTree P cs n es).res = SecretTree.new P cs n es := by
  unfold newTree SecretTree.new
  simp only [bind_res, free_res, derive_children_res]

theorem ratchetRoot_res (n : Nat) (es : Bytes) (li : Nat) (ct : ContentType) :
    (ratchetRoot P cs n es li ct).res = MessageProtection.ratchetRoot P cs n es li ct := by
  unfold ratchetRoot MessageProtection.ratchetRoot
  simp only [bind_res, free_res, expand_res, newTree_res]

theorem seek_res (g : UInt32) : ∀ (fuel : Nat) (x : RatchetSecret),
    (seek P cs g fuel x).res = MessageProtection.seek P cs g fuel x
  | 0, x => by
    unfold seek MessageProtection.seek
    split <;> rfl
  | fuel + 1, x => by
    unfold seek MessageProtection.seek
    split
    · rfl
    · simp only [bind_res, expand_res, seek_res g fuel]

theorem decrypt_sender_data_res (m : PrivateMessage) (s : Bytes) :
    (decrypt_sender_data P cs m s).res = m.decrypt_sender_data P cs s := by
  unfold decrypt_sender_data PrivateMessage.decrypt_sender_data
  simp only [bind_res, free_res, expand_res]

theorem decrypt_content_res (m : PrivateMessage) (x : RatchetSecret) (guard : Bytes) :
    (decrypt_content P cs m x guard).res = m.decrypt_content P cs x guard := by
  unfold decrypt_content PrivateMessage.decrypt_content derive_private_message_key_and_nonce
    Rmls.derive_private_message_key_and_nonce
  simp only [bind_res, free_res, expand_res]
  rfl

theorem decrypt_private_message_res (ctx : GroupContext) (pub sds : Bytes) (x : RatchetSecret) (m : PrivateMessage) :
    (decrypt_private_message P cs ctx pub sds x m).res = MessageProtection.decrypt_private_message P cs ctx pub sds x m := by
  unfold decrypt_private_message MessageProtection.decrypt_private_message
  simp only [bind_res, free_res, pure_res, decrypt_sender_data_res, seek_res, decrypt_content_res]
  rfl

theorem receive_res (ctx : GroupContext) (n : Nat) (es sds : Bytes) (li : Nat) (pub raw : Bytes) :
    (receive P cs ctx n es sds li pub raw).res = MessageProtection.receive P cs ctx n es sds li pub raw := by
  unfold receive MessageProtection.receive
  simp only [bind_res, free_res]
  congr 1
  funext msg
  cases msg.wire_message <;> simp only [bind_res, free_res, ratchetRoot_res, decrypt_private_message_res]

/-! ### How much is counted -/

theorem derive_children_le : ∀ (k i fuel : Nat) (t : SecretTree), k < 32 →
    (derive_children P cs fuel t (node k i)).expands ≤ 2 * (2 ^ k - 1) := by
  intro k
  induction k with
  | zero =>
    intro i fuel t _
    cases fuel with
    | zero => exact Nat.zero_le _
    | succ fuel =>
      unfold derive_children
      rw [NodeIndex.children_zero]
      exact Nat.le_refl _
  | succ k ih =>
    intro i fuel t hk
    cases fuel with
    | zero => exact Nat.zero_le _
    | succ fuel =>
      unfold derive_children
      rw [NodeIndex.children_succ i hk, bind_ok (free_res _)]
      have hp := Nat.two_pow_pos k
      refine Nat.le_trans (Nat.add_le_add (Nat.le_refl _) (free_le (n := 2 * (2 ^ (k + 1) - 1)) fun s _ =>
        free_le fun h _ => ?_)) (by show 0 + _ ≤ _; omega)
      refine Nat.le_trans (bind_le (m := 1) (n := 1 + (2 * (2 ^ k - 1) + 2 * (2 ^ k - 1))) (Nat.le_refl _) fun a _ =>
        bind_le (Nat.le_refl _) fun b _ => bind_le (ih _ _ _ (by omega)) fun t' _ => ih _ _ _ (by omega)) ?_
      rw [Nat.pow_succ]
      omega

theorem derive_children_eq : ∀ (k i fuel : Nat) (t t' : SecretTree), k < 32 →
    (derive_children P cs fuel t (node k i)).res = .ok t' →
    (derive_children P cs fuel t (node k i)).expands = 2 * (2 ^ k - 1) := by
  intro k
  induction k with
  | zero =>
    intro i fuel t t' _ h
    cases fuel with
    | zero => cases h
    | succ fuel =>
      unfold derive_children
      rw [NodeIndex.children_zero]
      rfl
  | succ k ih =>
    intro i fuel t t' hk h
    cases fuel with
    | zero => cases h
    | succ fuel =>
      unfold derive_children at h ⊢
      rw [NodeIndex.children_succ i hk] at h ⊢
      simp only [bind_res, free_res, expand_res, Res.ok_bind, Res.bind_ok_iff] at h
      obtain ⟨s, h1, hh, h2, a, h3, b, h4, t1, h5, h6⟩ := h
      rw [bind_ok (free_res _)]
      dsimp only
      rw [bind_ok h1, bind_ok h2, bind_ok h3, bind_ok h4, bind_ok h5, ih _ _ _ _ (by omega) h5, ih _ _ _ _ (by omega) h6]
      show 0 + (0 + (0 + (1 + (1 + _)))) = _
      have hp := Nat.two_pow_pos k
      rw [Nat.pow_succ]
      omega

theorem seek_le (g : UInt32) : ∀ (fuel : Nat) (x : RatchetSecret),
    (seek P cs g fuel x).expands ≤ if x.generation.toNat ≤ g.toNat then g.toNat - x.generation.toNat
      else 4294967296 - x.generation.toNat
  | 0, x => by
    unfold seek
    split <;> exact Nat.zero_le _
  | fuel + 1, x => by
    unfold seek
    split
    · exact Nat.zero_le _
    · next hne =>
      have hne' : x.generation.toNat ≠ g.toNat := fun h => hne (UInt32.toNat_inj.1 h)
      have hlt := x.generation.toNat_lt
      refine Nat.le_trans (bind_le (m := 1) (n := (if x.generation.toNat ≤ g.toNat then g.toNat - x.generation.toNat
        else 4294967296 - x.generation.toNat) - 1) (Nat.le_refl _) fun y hy => ?_) ?_
      · have hy : x.derive_next P cs = .ok y := hy
        have hg : y.generation.toNat = x.generation.toNat + 1 := by
          unfold RatchetSecret.derive_next at hy
          simp only [Res.bind_ok_iff] at hy
          obtain ⟨_, _, s, _, h⟩ := hy
          split at h
          · cases h
          · next hn =>
            cases h
            have : x.generation.toNat ≠ 4294967295 := fun hc => hn (UInt32.toNat_inj.1 hc)
            rw [UInt32.toNat_add]
            show (x.generation.toNat + 1) % 2 ^ 32 = _
            omega
        have := seek_le g fuel y
        rw [hg] at this
        split at this <;> split <;> omega
      · split <;> omega

theorem seek_eq (g : UInt32) : ∀ (fuel : Nat) (x y : RatchetSecret), (seek P cs g fuel x).res = .ok y →
    x.generation.toNat ≤ g.toNat ∧ (seek P cs g fuel x).expands = g.toNat - x.generation.toNat
  | 0, x, y => by
    unfold seek
    split
    · next h => intro _; rw [h]; exact ⟨Nat.le_refl _, (Nat.sub_self _).symm⟩
    · intro h; cases h
  | fuel + 1, x, y => by
    unfold seek
    split
    · next h => intro _; rw [h]; exact ⟨Nat.le_refl _, (Nat.sub_self _).symm⟩
    · intro h
      dsimp only at h ⊢
      rw [bind_res, Res.bind_ok_iff] at h
      obtain ⟨z, h1, h2⟩ := h
      obtain ⟨h3, h4⟩ := seek_eq g fuel z y h2
      have hg : z.generation.toNat = x.generation.toNat + 1 := by
        have hy : x.derive_next P cs = .ok z := h1
        unfold RatchetSecret.derive_next at hy
        simp only [Res.bind_ok_iff] at hy
        obtain ⟨_, _, s, _, h⟩ := hy
        split at h
        · cases h
        · next hn =>
          cases h
          have : x.generation.toNat ≠ 4294967295 := fun hc => hn (UInt32.toNat_inj.1 hc)
          have hlt := x.generation.toNat_lt
          rw [UInt32.toNat_add]
          show (x.generation.toNat + 1) % 2 ^ 32 = _
          omega
      rw [bind_ok h1, h4]
      show _ ∧ 1 + _ = _
      omega

end MessageProtection.Counting
end Rmls
