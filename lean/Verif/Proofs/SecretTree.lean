import Verif.Model.SecretTree
import Verif.Proofs.KeySchedule
import Verif.Proofs.TreeMath
/-
The secret tree and the ratchets.
-/
namespace Rmls
open Spec Spec.Enc

theorem text_tree : ascii "tree" = text "tree" := by decide
theorem text_left : ascii "left" = text "left" := by decide
theorem text_right : ascii "right" = text "right" := by decide

/-! ### Subtrees -/

/-- The node at level `l`, position `j` lies in the subtree of the node at level `k`, position `i`. -/
def Under (k i l j : Nat) : Prop := l ≤ k ∧ j / 2 ^ (k - l) = i

theorem under_zero {i l j : Nat} : Under 0 i l j ↔ l = 0 ∧ j = i := by
  unfold Under
  constructor
  · rintro ⟨h, h'⟩
    obtain rfl : l = 0 := by omega
    simpa using h'
  · rintro ⟨rfl, rfl⟩
    simp

theorem under_self (k i : Nat) : Under k i k i := ⟨Nat.le_refl _, by simp⟩

theorem under_succ {k i l j : Nat} :
    Under (k + 1) i l j ↔ (l = k + 1 ∧ j = i) ∨ Under k (2 * i) l j ∨ Under k (2 * i + 1) l j := by
  unfold Under
  by_cases hl : l = k + 1
  · subst hl
    simp only [Nat.le_refl, Nat.sub_self, Nat.pow_zero, Nat.div_one, true_and]
    constructor
    · exact .inl
    · rintro (h | h | h)
      · exact h
      · omega
      · omega
  · by_cases hl' : l ≤ k
    · have : j / 2 ^ (k + 1 - l) = j / 2 ^ (k - l) / 2 := by
        rw [show k + 1 - l = k - l + 1 by omega, Nat.pow_succ, Nat.div_div_eq_div_mul]
      rw [this]
      constructor
      · rintro ⟨_, h⟩
        right
        have := Nat.div_add_mod (j / 2 ^ (k - l)) 2
        rcases Nat.mod_two_eq_zero_or_one (j / 2 ^ (k - l)) with h2 | h2
        · exact .inl ⟨hl', by omega⟩
        · exact .inr ⟨hl', by omega⟩
      · rintro (h | h | h)
        · omega
        · exact ⟨by omega, by omega⟩
        · exact ⟨by omega, by omega⟩
    · constructor
      · rintro ⟨h, _⟩; omega
      · rintro (h | h | h) <;> omega

theorem under_disjoint {k i l j : Nat} (h : Under k (2 * i) l j) (h' : Under k (2 * i + 1) l j) : False := by
  have := h.2; have := h'.2; omega

theorem under_root {K l j : Nat} : Under K 0 l j ↔ NumLeaves.InTree K l j := by
  unfold Under NumLeaves.InTree
  rw [Nat.div_eq_zero_iff]
  have := Nat.two_pow_pos (K - l)
  constructor
  · rintro ⟨h, h' | h'⟩
    · omega
    · exact ⟨h, h'⟩
  · rintro ⟨h, h'⟩
    exact ⟨h, .inr h'⟩

namespace SecretTree

theorem setSecret_length (t : SecretTree) (x : Nat) (s : Bytes) : (setSecret t x s).length = t.length := by
  unfold setSecret; split <;> simp

theorem setSecret_self {t : SecretTree} {x : Nat} (s : Bytes) (h : x < t.length) :
    (setSecret t x s)[x]? = some (some s) := by
  unfold setSecret; simp [h]

theorem setSecret_other {t : SecretTree} {x y : Nat} (s : Bytes) (h : y ≠ x) : (setSecret t x s)[y]? = t[y]? := by
  unfold setSecret
  split
  · rw [List.getElem?_set_ne (fun h' => h h'.symm)]
  · rfl

theorem secretAt_iff {t : SecretTree} {x : Nat} {s : Bytes} : secretAt t x = .ok s ↔ t[x]? = some (some s) := by
  unfold secretAt
  split
  · next h => rw [h]; exact ⟨(nomatch ·), (nomatch ·)⟩
  · next h => rw [h]; exact ⟨(nomatch ·), (nomatch ·)⟩
  · next h => rw [h]; exact ⟨fun h => by cases h; rfl, fun h => by cases h; rfl⟩

/-- What a successful call does: it fills the subtree, with the secrets of the RFC, and touches nothing else. -/
theorem derive_children_spec {P : CryptoProvider} {cs : CipherSuite} {h : Hpke} (hp : P.hpke cs = .ok h)
    (hs : Sizes h) (es : Bytes) (K : Nat) : ∀ (k i fuel : Nat) (t t' : SecretTree) (s : Bytes), k < 32 →
    t[node k i]? = some (some s) → NodeSecret h es K k i s → (∀ l j, Under k i l j → node l j < t.length) →
    derive_children P cs fuel t (node k i) = .ok t' →
    t'.length = t.length ∧
    (∀ l j, Under k i l j → ∃ s', t'[node l j]? = some (some s') ∧ NodeSecret h es K l j s') ∧
    (∀ l j, ¬ Under k i l j → t'[node l j]? = t[node l j]?) := by
  intro k
  induction k with
  | zero =>
    intro i fuel t t' s _ ht hn _ hd
    cases fuel with
    | zero => cases hd
    | succ fuel =>
      rw [derive_children, NodeIndex.children_zero] at hd
      cases hd
      refine ⟨rfl, ?_, fun _ _ _ => rfl⟩
      intro l j hu
      obtain ⟨rfl, rfl⟩ := under_zero.1 hu
      exact ⟨s, ht, hn⟩
  | succ k ih =>
    intro i fuel t t' s hk ht hn hr hd
    cases fuel with
    | zero => cases hd
    | succ fuel =>
      rw [derive_children, NodeIndex.children_succ i hk] at hd
      simp only [Res.ok_bind] at hd
      rw [secretAt_iff.2 ht, hp] at hd
      simp only [Res.ok_bind, Res.bind_ok_iff] at hd
      obtain ⟨a, ha, b, hb, t1, h1, h2⟩ := hd
      rw [expand_with_label_iff hp _ _ _ hs.1, text_tree, text_left] at ha
      rw [expand_with_label_iff hp _ _ _ hs.1, text_tree, text_right] at hb
      have hlr : node k (2 * i) ≠ node k (2 * i + 1) := fun h => by have := (node_inj h).2; omega
      have hrl : node k (2 * i) < t.length := hr _ _ (under_succ.2 (.inr (.inl (under_self ..))))
      have hrr : node k (2 * i + 1) < t.length := hr _ _ (under_succ.2 (.inr (.inr (under_self ..))))
      have e1 : (setSecret (setSecret t (node k (2 * i)) a) (node k (2 * i + 1)) b)[node k (2 * i)]? = some (some a) := by
        rw [setSecret_other _ hlr, setSecret_self _ hrl]
      have e2 : (setSecret (setSecret t (node k (2 * i)) a) (node k (2 * i + 1)) b)[node k (2 * i + 1)]? =
          some (some b) := by
        rw [setSecret_self _ (by rw [setSecret_length]; exact hrr)]
      obtain ⟨l1, f1, g1⟩ := ih (2 * i) fuel _ t1 a (by omega) e1 (.left hn ha)
        (fun l j hu => by rw [setSecret_length, setSecret_length]; exact hr l j (under_succ.2 (.inr (.inl hu)))) h1
      rw [setSecret_length, setSecret_length] at l1
      have e3 : t1[node k (2 * i + 1)]? = some (some b) := by
        rw [g1 _ _ (fun hu => under_disjoint hu (under_self ..)), e2]
      obtain ⟨l2, f2, g2⟩ := ih (2 * i + 1) fuel t1 t' b (by omega) e3 (.right hn hb)
        (fun l j hu => by rw [l1]; exact hr l j (under_succ.2 (.inr (.inr hu)))) h2
      have keep : ∀ l j, ¬ Under k (2 * i) l j → ¬ Under k (2 * i + 1) l j → t'[node l j]? = t[node l j]? := by
        intro l j hu hu'
        rw [g2 _ _ hu', g1 _ _ hu]
        rw [setSecret_other, setSecret_other]
        · intro he; obtain ⟨rfl, rfl⟩ := node_inj he; exact hu (under_self ..)
        · intro he; obtain ⟨rfl, rfl⟩ := node_inj he; exact hu' (under_self ..)
      refine ⟨by rw [l2, l1], ?_, ?_⟩
      · intro l j hu
        rcases under_succ.1 hu with ⟨rfl, rfl⟩ | hu | hu
        · refine ⟨s, ?_, hn⟩
          rw [keep _ _ (fun h => by have := h.1; omega) (fun h => by have := h.1; omega), ht]
        · obtain ⟨s', h3, h4⟩ := f1 l j hu
          refine ⟨s', ?_, h4⟩
          rw [g2 _ _ (fun hu' => under_disjoint hu hu'), h3]
        · exact f2 l j hu
      · intro l j hu
        exact keep l j (fun h => hu (under_succ.2 (.inr (.inl h)))) (fun h => hu (under_succ.2 (.inr (.inr h))))

theorem size_le (h : Hpke) : (UInt16.ofNat h.kdf_extract_size).toNat ≤ 255 * h.kdf_extract_size := by
  rw [UInt16.toNat_ofNat']
  have := Nat.mod_le h.kdf_extract_size (2 ^ 16)
  omega

theorem expand_total {P : CryptoProvider} {cs : CipherSuite} {h : Hpke} (hp : P.hpke cs = .ok h) (ht : Expander h)
    (s l c : Bytes) (hs : h.kdf_extract_size ≤ s.length) (hl : l.length < 2 ^ 20) (hc : c.length < 2 ^ 20) :
    ∃ out, P.expand_with_label cs s l c (UInt16.ofNat h.kdf_extract_size) = .ok out ∧ h.kdf_extract_size ≤ out.length := by
  generalize hn : UInt16.ofNat h.kdf_extract_size = n
  obtain ⟨o, ho⟩ := ht.expands s (kdfLabel n.toNat l c).bytes n hs (hn ▸ size_le h)
  refine ⟨o, ?_, ht.long _ _ _ (hn ▸ ho)⟩
  unfold CryptoProvider.expand_with_label
  rw [writes_bind_iff (kdfLabel_w n l c), hp]
  refine ⟨⟨trivial, ⟨trivial, ?_⟩, ⟨trivial, ?_⟩⟩, ho⟩
  · simp only [Enc.bytes, List.length_append, show (text "MLS 1.0 ").length = 8 from rfl]; omega
  · simp only [Enc.bytes]; omega

/-- If no parent of the subtree is out of range, the call succeeds and leaves everything outside alone. -/
theorem derive_children_total {P : CryptoProvider} {cs : CipherSuite} {h : Hpke} (hp : P.hpke cs = .ok h)
    (hT : Expander h) : ∀ (k i fuel : Nat) (t : SecretTree), k < 32 → k < fuel →
    (node k i < t.length → ∃ s, t[node k i]? = some (some s) ∧ h.kdf_extract_size ≤ s.length) →
    (∀ l j, Under k i (l + 1) j → node (l + 1) j < t.length) →
    ∃ t', derive_children P cs fuel t (node k i) = .ok t' ∧ t'.length = t.length ∧
      (∀ l j, ¬ Under k i l j → t'[node l j]? = t[node l j]?) := by
  intro k
  induction k with
  | zero =>
    intro i fuel t _ hf ht _
    obtain ⟨fuel, rfl⟩ : ∃ f, fuel = f + 1 := ⟨fuel - 1, by omega⟩
    refine ⟨t, ?_, rfl, fun _ _ _ => rfl⟩
    rw [derive_children, NodeIndex.children_zero]
    rfl
  | succ k ih =>
    intro i fuel t hk hf ht hr
    obtain ⟨fuel, rfl⟩ : ∃ f, fuel = f + 1 := ⟨fuel - 1, by omega⟩
    obtain ⟨s, ht, hlen⟩ := ht (hr k i (under_self ..))
    obtain ⟨a, ha, hal⟩ := expand_total hp hT s (ascii "tree") (ascii "left") hlen
      (by decide) (by decide)
    obtain ⟨b, hb, hbl⟩ := expand_total hp hT s (ascii "tree") (ascii "right") hlen
      (by decide) (by decide)
    have hlr : node k (2 * i) ≠ node k (2 * i + 1) := fun h => by have := (node_inj h).2; omega
    obtain ⟨t1, h1, l1, g1⟩ := ih (2 * i) fuel (setSecret (setSecret t (node k (2 * i)) a) (node k (2 * i + 1)) b)
      (by omega) (by omega)
      (fun hr => ⟨a, by
        rw [setSecret_length, setSecret_length] at hr
        rw [setSecret_other _ hlr, setSecret_self _ hr], hal⟩)
      (fun l j hu => by rw [setSecret_length, setSecret_length]; exact hr l j (under_succ.2 (.inr (.inl hu))))
    rw [setSecret_length, setSecret_length] at l1
    obtain ⟨t2, h2, l2, g2⟩ := ih (2 * i + 1) fuel t1 (by omega) (by omega)
      (fun hr => ⟨b, by
        rw [g1 _ _ (fun hu => under_disjoint hu (under_self ..)),
          setSecret_self _ (by rw [setSecret_length, ← l1]; exact hr)], hbl⟩)
      (fun l j hu => by rw [l1]; exact hr l j (under_succ.2 (.inr (.inr hu))))
    refine ⟨t2, ?_, by rw [l2, l1], ?_⟩
    · rw [derive_children, NodeIndex.children_succ i hk]
      simp only [Res.ok_bind]
      rw [secretAt_iff.2 ht, hp]
      simp only [Res.ok_bind, Res.bind_ok_iff]
      exact ⟨a, ha, b, hb, t1, h1, h2⟩
    · intro l j hu
      have hu1 : ¬ Under k (2 * i) l j := fun h => hu (under_succ.2 (.inr (.inl h)))
      have hu2 : ¬ Under k (2 * i + 1) l j := fun h => hu (under_succ.2 (.inr (.inr h)))
      rw [g2 _ _ hu2, g1 _ _ hu1, setSecret_other, setSecret_other]
      · intro he; obtain ⟨rfl, rfl⟩ := node_inj he; exact hu1 (under_self ..)
      · intro he; obtain ⟨rfl, rfl⟩ := node_inj he; exact hu2 (under_self ..)

/-- If some parent of the subtree is out of range, the call fails. -/
theorem derive_children_error {P : CryptoProvider} {cs : CipherSuite} {h : Hpke} (hp : P.hpke cs = .ok h)
    (hT : Expander h) : ∀ (k i fuel : Nat) (t : SecretTree), k < 32 → k < fuel →
    (node k i < t.length → ∃ s, t[node k i]? = some (some s) ∧ h.kdf_extract_size ≤ s.length) →
    (∃ l j, Under k i (l + 1) j ∧ t.length ≤ node (l + 1) j) →
    derive_children P cs fuel t (node k i) = .err .InvalidParentNode := by
  intro k
  induction k with
  | zero =>
    rintro i fuel t _ _ _ ⟨l, j, hu, _⟩
    have := (under_zero.1 hu).1
    omega
  | succ k ih =>
    rintro i fuel t hk hf ht ⟨l, j, hu, hlj⟩
    obtain ⟨fuel, rfl⟩ : ∃ f, fuel = f + 1 := ⟨fuel - 1, by omega⟩
    rw [derive_children, NodeIndex.children_succ i hk]
    simp only [Res.ok_bind]
    by_cases hin : node (k + 1) i < t.length
    · obtain ⟨s, ht, hlen⟩ := ht hin
      obtain ⟨a, ha, hal⟩ := expand_total hp hT s (ascii "tree") (ascii "left") hlen
        (by decide) (by decide)
      obtain ⟨b, hb, hbl⟩ := expand_total hp hT s (ascii "tree") (ascii "right") hlen
        (by decide) (by decide)
      have hlr : node k (2 * i) ≠ node k (2 * i + 1) := fun h => by have := (node_inj h).2; omega
      rw [secretAt_iff.2 ht, hp]
      simp only [Res.ok_bind]
      rw [ha, Res.ok_bind, hb, Res.ok_bind]
      have hleft : node k (2 * i) <
          (setSecret (setSecret t (node k (2 * i)) a) (node k (2 * i + 1)) b).length →
          ∃ s, (setSecret (setSecret t (node k (2 * i)) a) (node k (2 * i + 1)) b)[node k (2 * i)]? =
            some (some s) ∧ h.kdf_extract_size ≤ s.length := fun hr => ⟨a, by
        rw [setSecret_length, setSecret_length] at hr
        rw [setSecret_other _ hlr, setSecret_self _ hr], hal⟩
      by_cases hl : ∃ l j, Under k (2 * i) (l + 1) j ∧ t.length ≤ node (l + 1) j
      · rw [ih (2 * i) fuel _ (by omega) (by omega) hleft
          (by rw [setSecret_length, setSecret_length]; exact hl)]
        rfl
      · obtain ⟨t1, h1, l1, g1⟩ := derive_children_total hp hT k (2 * i) fuel
          (setSecret (setSecret t (node k (2 * i)) a) (node k (2 * i + 1)) b) (by omega) (by omega) hleft
          (fun l j hu => by
            rw [setSecret_length, setSecret_length]
            exact Nat.lt_of_not_le fun h => hl ⟨l, j, hu, h⟩)
        rw [setSecret_length, setSecret_length] at l1
        rw [h1, Res.ok_bind]
        refine ih (2 * i + 1) fuel t1 (by omega) (by omega) (fun hr => ⟨b, ?_, hbl⟩) ⟨l, j, ?_, by rw [l1]; exact hlj⟩
        · rw [g1 _ _ (fun hu => under_disjoint hu (under_self ..)),
            setSecret_self _ (by rw [setSecret_length, ← l1]; exact hr)]
        · rcases under_succ.1 hu with ⟨hk1, rfl⟩ | hu | hu
          · rw [hk1] at hlj
            omega
          · exact absurd ⟨l, j, hu, hlj⟩ hl
          · exact hu
    · have : secretAt t (node (k + 1) i) = .err .InvalidParentNode := by
        unfold secretAt
        rw [List.getElem?_eq_none (by omega)]
      rw [this]
      rfl

theorem new_eq {P : CryptoProvider} {cs : CipherSuite} {n : Nat} (h0 : 0 < n) (hn : n ≤ 2 ^ 31) (es : Bytes) :
    new P cs n es = derive_children P cs 33
      (setSecret (List.replicate (2 * (n - 1) + 1) none) (node (NumLeaves.height n) 0) es)
      (node (NumLeaves.height n) 0) := by
  unfold new
  rw [NumLeaves.width_eq h0 hn, Res.ok_bind, NumLeaves.root_eq h0 hn, Res.ok_bind]

theorem height_pow (K : Nat) : NumLeaves.height (2 ^ K) = K := by
  have hp := Nat.two_pow_pos K
  obtain ⟨h1, h2⟩ := NumLeaves.height_bounds hp
  have h3 : K ≤ NumLeaves.height (2 ^ K) := (Nat.pow_le_pow_iff_right (by omega)).1 h2
  have h4 : 2 ^ NumLeaves.height (2 ^ K) < 2 ^ (K + 1) := by rw [Nat.pow_succ]; omega
  have h5 := (Nat.pow_lt_pow_iff_right (by omega)).1 h4
  omega

theorem root_lt {n : Nat} (h0 : 0 < n) : node (NumLeaves.height n) 0 < 2 * (n - 1) + 1 := by
  have h1 := node_add_one (NumLeaves.height n) 0
  have h2 := (NumLeaves.height_bounds h0).1
  omega

end SecretTree

theorem nodeSecret_long {h : Hpke} (hT : Expander h) {es : Bytes} (hes : h.kdf_extract_size ≤ es.length) {K k i : Nat}
    {s : Bytes} (hn : NodeSecret h es K k i s) : h.kdf_extract_size ≤ s.length := by
  cases hn with
  | root => exact hes
  | left _ h => exact hT.long _ _ _ h.2.2
  | right _ h => exact hT.long _ _ _ h.2.2

theorem nodeSecret_unique {h : Hpke} {es : Bytes} {K k i : Nat} {a b : Bytes} (ha : NodeSecret h es K k i a)
    (hb : NodeSecret h es K k i b) : a = b := by
  have hle : ∀ {k i s}, NodeSecret h es K k i s → k ≤ K := by
    intro k i s h
    induction h with
    | root => exact Nat.le_refl _
    | left _ _ ih => omega
    | right _ _ ih => omega
  induction ha generalizing b with
  | root =>
    generalize hj : 0 = j at hb
    cases hb with
    | root => rfl
    | left h => have := hle h; omega
    | right h => omega
  | left h1 e1 ih =>
    generalize hj : 2 * _ = j at hb
    cases hb with
    | root => have := hle h1; omega
    | left h2 e2 =>
      obtain rfl := Nat.eq_of_mul_eq_mul_left (by omega) hj
      obtain rfl := ih h2
      have := e1.2.2.symm.trans e2.2.2
      cases this; rfl
    | right h2 e2 => omega
  | right h1 e1 ih =>
    generalize hj : 2 * _ + 1 = j at hb
    cases hb with
    | root => omega
    | left h2 e2 => omega
    | right h2 e2 =>
      obtain rfl := Nat.eq_of_mul_eq_mul_left (by omega) (Nat.add_right_cancel hj)
      obtain rfl := ih h2
      have := e1.2.2.symm.trans e2.2.2
      cases this; rfl

/-! ### Ratchets -/

theorem derive_tree_secret_iff {P : CryptoProvider} {cs : CipherSuite} {h : Hpke} (hp : P.hpke cs = .ok h)
    (s l : Bytes) (g : UInt32) {n : Nat} (hn : n < 2 ^ 16) (out : Bytes) :
    derive_tree_secret P cs s l g (UInt16.ofNat n) = .ok out ↔ TreeDerives h s l g.toNat n out := by
  unfold derive_tree_secret TreeDerives
  rw [writes_bind_iff (writes_u32 g), expand_with_label_iff hp _ _ _ hn]
  exact ⟨fun h => ⟨g.toNat_lt, h.2⟩, fun h => ⟨trivial, h.2⟩⟩

theorem text_key : ascii "key" = text "key" := by decide
theorem text_nonce : ascii "nonce" = text "nonce" := by decide
theorem text_secret : ascii "secret" = text "secret" := by decide

namespace RatchetSecret

theorem derive_key_iff {P : CryptoProvider} {cs : CipherSuite} {h : Hpke} (hp : P.hpke cs = .ok h) (hs : Sizes h)
    (x : RatchetSecret) (out : Bytes) :
    x.derive_key P cs = .ok out ↔ TreeDerives h x.secret (text "key") x.generation.toNat h.aead_key_size out := by
  unfold derive_key
  rw [hp, Res.ok_bind, derive_tree_secret_iff hp _ _ _ hs.2.2, text_key]

theorem derive_nonce_iff {P : CryptoProvider} {cs : CipherSuite} {h : Hpke} (hp : P.hpke cs = .ok h) (hs : Sizes h)
    (x : RatchetSecret) (out : Bytes) :
    x.derive_nonce P cs = .ok out ↔
      TreeDerives h x.secret (text "nonce") x.generation.toNat h.aead_nonce_size out := by
  unfold derive_nonce
  rw [hp, Res.ok_bind, derive_tree_secret_iff hp _ _ _ hs.2.1, text_nonce]

theorem derive_next_iff {P : CryptoProvider} {cs : CipherSuite} {h : Hpke} (hp : P.hpke cs = .ok h) (hs : Sizes h)
    (x y : RatchetSecret) :
    x.derive_next P cs = .ok y ↔
      x.generation.toNat + 1 = y.generation.toNat ∧
      TreeDerives h x.secret (text "secret") x.generation.toNat h.kdf_extract_size y.secret := by
  unfold derive_next
  rw [hp, Res.ok_bind, Res.bind_ok_iff]
  simp only [derive_tree_secret_iff hp _ _ _ hs.1, text_secret]
  have hy := y.generation.toNat_lt
  by_cases hg : x.generation = 4294967295
  · simp only [hg, if_true]
    constructor
    · rintro ⟨_, _, h⟩; cases h
    · rintro ⟨h, _⟩
      have : (4294967295 : UInt32).toNat = 4294967295 := rfl
      omega
  · simp only [if_neg hg]
    have hlt : x.generation.toNat < 4294967295 := by
      have h1 := x.generation.toNat_lt
      have h2 : x.generation.toNat ≠ 4294967295 := fun h => hg (UInt32.toNat_inj.1 h)
      omega
    have hadd : (x.generation + 1).toNat = x.generation.toNat + 1 := by
      rw [UInt32.toNat_add]
      have : (1 : UInt32).toNat = 1 := rfl
      omega
    constructor
    · rintro ⟨s, h1, h2⟩
      cases h2
      exact ⟨hadd.symm, h1⟩
    · rintro ⟨h1, h2⟩
      refine ⟨_, h2, ?_⟩
      rw [← hadd] at h1
      rw [UInt32.toNat_inj.1 h1]
      rfl

end RatchetSecret

/-! ### Reuse guards -/

theorem xorGuard_length : ∀ n g : Bytes, (xorGuard n g).length = n.length
  | _, [] => by simp [xorGuard]
  | [], _ :: _ => rfl
  | _ :: n, _ :: g => by simp [xorGuard, xorGuard_length n g]

theorem xorGuard_get : ∀ (n g : Bytes) (i : Nat),
    (xorGuard n g)[i]? = n[i]?.map fun x => x ^^^ (g[i]?.getD 0)
  | n, [], i => by cases h : n[i]? <;> simp [xorGuard, h]
  | [], _ :: _, i => by simp [xorGuard]
  | x :: n, y :: g, 0 => by simp [xorGuard]
  | x :: n, y :: g, i + 1 => by simp [xorGuard, xorGuard_get n g i]

end Rmls
