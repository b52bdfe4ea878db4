import Verif.Spec.Grease
import Verif.Props.Extensions
/-
Property C105: values that nobody knows do not get in the way.
-/
namespace Rmls
open Spec Spec.Enc RatchetTree

/-! ## Reading -/

private theorem vector_map {α β : Type} (f : α → Enc) (g : β → α) (h : β → Enc) (e : ∀ x, f (g x) = h x) (xs : List β) :
    vector f (xs.map g) = vector h xs := by
  unfold vector
  congr 1
  induction xs with
  | nil => rfl
  | cons x xs ih => simp only [List.map_cons, List.foldr_cons, ih, e]

/-- The capabilities with these numbers. -/
private def capsOf (vs ss es ps cs : List UInt16) : Capabilities :=
  ⟨vs.map .ofU16, ss.map .ofU16, es.map .ofU16, ps.map .ofU16, cs.map .ofU16⟩

/-- C105: capabilities are read whatever numbers the five lists hold, known or not; the numbers are kept, in order; and
the value is written as the same bytes. -/
theorem C105_read (vs ss es ps cs : List UInt16) (hf : (rawCapabilities vs ss es ps cs).fits) :
    ∃ c : Capabilities, (∀ rest, Capabilities.deserialize ((rawCapabilities vs ss es ps cs).bytes ++ rest) = .ok (c, rest)) ∧
      c.serialize = .ok (rawCapabilities vs ss es ps cs).bytes ∧
      c.versions.map (·.toU16) = vs ∧ c.cipher_suites.map (·.toU16) = ss ∧ c.extensions.map (·.toU16) = es ∧
      c.proposals.map (·.toU16) = ps ∧ c.credentials.map (·.toU16) = cs := by
  have henc : capabilities (capsOf vs ss es ps cs) = rawCapabilities vs ss es ps cs := by
    unfold capabilities capsOf rawCapabilities
    simp only [List.map_cons, List.map_nil]
    rw [vector_map version .ofU16 (fun v => uint 2 v.toNat), vector_map cipherSuite .ofU16 (fun v => uint 2 v.toNat),
      vector_map extensionType .ofU16 (fun v => uint 2 v.toNat), vector_map proposalType .ofU16 (fun v => uint 2 v.toNat),
      vector_map credentialType .ofU16 (fun v => uint 2 v.toNat)]
    · intro v; unfold CredentialType.ofU16; repeat' split
      all_goals first | rfl | (subst_vars; rfl)
    · intro v; unfold ProposalType.ofU16; repeat' split
      all_goals first | rfl | (subst_vars; rfl)
    · intro v; unfold ExtensionType.ofU16; repeat' split
      all_goals first | rfl | (subst_vars; rfl)
    · intro v; unfold CipherSuite.ofU16; repeat' split
      all_goals first | rfl | (subst_vars; rfl)
    · intro v; unfold ProtocolVersion.ofU16; repeat' split
      all_goals first | rfl | (subst_vars; rfl)
  have hw : (capsOf vs ss es ps cs).WF := by
    refine ⟨?_, ?_, ?_, ?_, ?_⟩ <;> intro e he <;> obtain ⟨v, _, rfl⟩ := List.mem_map.1 he
    · exact ProtocolVersion.wf_of v
    · exact CipherSuite.wf_of v
    · exact ExtensionType.wf_of v
    · exact ProposalType.wf_of v
    · exact CredentialType.wf_of v
  have hm : (⟨"Capabilities", _, Capabilities.deserialize, Capabilities.serialize, Capabilities.WF,
    fun _ => True, capabilities⟩ : Codec) ∈ wireCodecs := by simp [wireCodecs]
  have hc := (codec_content hm (x := capsOf vs ss es ps cs) trivial hw (by dsimp only; rw [henc]; exact hf)).1
  simp only [henc] at hc
  refine ⟨capsOf vs ss es ps cs, fun rest => C02_round_trip _ hm _ _ rest hw hc, hc, ?_, ?_, ?_, ?_, ?_⟩ <;>
    simp only [capsOf, List.map_map] <;> refine (List.map_congr_left ?_).trans (List.map_id _) <;> intro v _
  · exact ProtocolVersion.to_of v
  · exact CipherSuite.to_of v
  · exact ExtensionType.to_of v
  · exact ProposalType.to_of v
  · exact CredentialType.to_of v

/-- A reserved value in each list. -/
example : (rawCapabilities [1, 0x0a0a] [1, 0x1a1a] [0x2a2a] [0x3a3a, 1] [1, 0x4a4a]).fits ∧
    (rawCapabilities [1, 0x0a0a] [1, 0x1a1a] [0x2a2a] [0x3a3a, 1] [1, 0x4a4a]).bytes =
      [4, 0, 1, 0x0a, 0x0a, 4, 0, 1, 0x1a, 0x1a, 2, 0x2a, 0x2a, 4, 0x3a, 0x3a, 0, 1, 4, 0, 1, 0x4a, 0x4a] :=
  ⟨by simp [rawCapabilities, vector, struct, fits, bytes, digits], by decide +kernel⟩

/-! ## Validating -/

private theorem mixed_mem {α : Type} {new : α → Prop} {xs ys : List α} (h : Mixed new xs ys) :
    (∀ x ∈ xs, x ∈ ys) ∧ ∀ y ∈ ys, y ∈ xs ∨ new y := by
  induction h with
  | nil => exact ⟨fun _ h => h, fun _ h => Or.inl h⟩
  | keep _ ih => grind
  | put _ _ ih => grind

private theorem mixed_count {α : Type} [BEq α] [LawfulBEq α] {new : α → Prop} {xs ys : List α} (h : Mixed new xs ys) {a : α}
    (ha : ¬ new a) : ys.count a = xs.count a := by
  induction h with
  | nil => rfl
  | keep _ ih => simp only [List.count_cons, ih]
  | @put y xs ys hy _ ih =>
    rw [List.count_cons_of_ne (by rintro rfl; exact ha hy), ih]

private theorem credTypeOf_known (c : Credential) : ¬ unknownCredential (credTypeOf c) := by
  rintro ⟨v, h⟩
  cases c <;> cases h

private theorem leaf_kept {P : CryptoProvider} {l m : LeafNode} {cs : CipherSuite} {g g' : Bytes} {i i' : LeafIndex}
    {S S' : CredentialType → Prop} {now : Int} (h : GreasedLeaf l m) (hs : LeafSigned P cs m g' i')
    (hS : ∀ ct, ¬ unknownCredential ct → S ct → S' ct) (hv : LeafValid P l cs g i S now) :
    LeafValid P m cs g' i' S' now := by
  refine ⟨hs, ?_, ?_, ?_⟩
  · rw [h.credential]; exact hS _ (credTypeOf_known _) hv.credential
  · intro lt hlt hn
    have := h.source
    rw [hlt] at this
    cases hsrc : l.payload.leaf_node_source with
    | KeyPackage a => rw [hsrc] at this; cases this; exact hv.lifetime _ hsrc hn
    | Update => rw [hsrc] at this; exact this.elim
    | Commit _ => rw [hsrc] at this; exact this.elim
  · intro e he
    rcases (mixed_mem h.extensions).2 e he with h1 | h1
    · exact (mixed_mem h.capabilities.extensions).1 _ (hv.extensions e h1)
    · exact h1.2

/-- C105: a leaf that passes still passes with unknown values put in, as soon as it is signed. -/
theorem C105_leaf (P : CryptoProvider) (l m : LeafNode) (o : LeafNodeVerifyOptions) (h : GreasedLeaf l m)
    (hs : LeafSigned P o.cipher_suite m o.group_id o.leaf_index) (hv : l.verify P o = .ok ()) : m.verify P o = .ok () := by
  rw [C44_leaf] at hv ⊢
  exact ⟨leaf_kept h hs (fun _ _ h => h) hv.1, by rw [h.signature_key]; exact hv.2.1,
    by rw [h.encryption_key]; exact hv.2.2⟩

/-- C105: the same for key packages; package and leaf may be extended, the package has to be signed again. -/
theorem C105_key_package (P : CryptoProvider) (x y : KeyPackage) (ctx : GroupContext)
    (hv : y.payload.version = x.payload.version) (hc : y.payload.cipher_suite = x.payload.cipher_suite)
    (hi : y.payload.init_key = x.payload.init_key) (h : GreasedLeaf x.payload.leaf_node y.payload.leaf_node)
    (hs : KeyPackageSigned P y) (hok : x.verify P ctx = .ok ()) : y.verify P ctx = .ok () := by
  rw [C44_key_package] at hok ⊢
  obtain ⟨h1, h2, ⟨lt, h3⟩, _, h5⟩ := hok
  refine ⟨hv.trans h1, hc.trans h2, ?_, hs, by rw [h.encryption_key, hi]; exact h5⟩
  have := h.source
  rw [h3] at this
  cases hy : y.payload.leaf_node.payload.leaf_node_source with
  | KeyPackage a => exact ⟨a, rfl⟩
  | Update => rw [hy] at this; exact this.elim
  | Commit _ => rw [hy] at this; exact this.elim

private theorem greased_leafOf {a b : Option Node} (h : GreasedNode a b) :
    match leafOf a, leafOf b with
    | none, none => True
    | some l, some m => GreasedLeaf l m
    | _, _ => False := by
  rcases a with _ | a | a <;> rcases b with _ | b | b <;> first | exact h | exact trivial | exact h.elim

private theorem members_kept {f g : Nat → Option Node} (h : ∀ x, GreasedNode (f x) (g x)) (ct : CredentialType)
    (hct : ¬ unknownCredential ct) (n : Nat) :
    credCount (members g n) ct = credCount (members f n) ct ∧ (members g n).length = (members f n).length := by
  unfold credCount members
  induction List.range n with
  | nil => exact ⟨rfl, rfl⟩
  | cons i is ih =>
    have := greased_leafOf (h (node 0 i))
    simp only [List.filterMap_cons]
    cases hf : leafOf (f (node 0 i)) with
    | none =>
      cases hg : leafOf (g (node 0 i)) with
      | none => simpa using ih
      | some m => rw [hf, hg] at this; exact this.elim
    | some l =>
      cases hg : leafOf (g (node 0 i)) with
      | none => rw [hf, hg] at this; exact this.elim
      | some m =>
        rw [hf, hg] at this
        simp only [Option.map_some, List.map_cons, List.sum_cons, List.length_cons,
          mixed_count this.capabilities.credentials hct, ih.1, ih.2, and_self]

private theorem supported_kept {f g : Nat → Option Node} (h : ∀ x, GreasedNode (f x) (g x)) (ct : CredentialType)
    (hct : ¬ unknownCredential ct) (n : Nat) : SupportedCred g n ct ↔ SupportedCred f n ct := by
  unfold SupportedCred
  rw [(members_kept h ct hct n).1, (members_kept h ct hct n).2]

/-- C105: the known credential types that count as supported by all members are the same. -/
theorem C105_creds (t u : RatchetTree) (hl : t.length < 2 ^ 32) (hlen : u.length = t.length)
    (h : ∀ x, GreasedNode (t.get x) (u.get x)) :
    ∃ r s, t.supported_creds = .ok r ∧ u.supported_creds = .ok s ∧
      ∀ ct, ¬ unknownCredential ct → (ct ∈ s ↔ ct ∈ r) := by
  obtain ⟨r, h1, h2⟩ := C25_exact t hl
  obtain ⟨s, h3, h4⟩ := C25_exact u (hlen ▸ hl)
  refine ⟨r, s, h1, h3, fun ct hct => ?_⟩
  rw [h2, h4, show u.num_leaves = t.num_leaves by simp only [RatchetTree.num_leaves, hlen]]
  exact supported_kept h ct hct _

private theorem greased_leaf {a b : Option Node} (h : GreasedNode a b) {m : LeafNode} (hb : b = some (.Leaf m)) :
    ∃ l, a = some (.Leaf l) ∧ GreasedLeaf l m := by
  subst hb
  rcases a with _ | a | a
  · exact h.elim
  · exact ⟨_, rfl, h⟩
  · exact h.elim

private theorem greased_parent {a b : Option Node} (h : GreasedNode a b) {q : ParentNode} (hb : b = some (.Parent q)) :
    ∃ p, a = some (.Parent p) ∧ q.encryption_key = p.encryption_key ∧ q.unmerged_leaves = p.unmerged_leaves := by
  subst hb
  rcases a with _ | a | a
  · exact h.elim
  · exact h.elim
  · exact ⟨_, rfl, h⟩

private theorem hasKey_kept {f g : Nat → Option Node} (h : ∀ x, GreasedNode (f x) (g x)) {x : Nat} {key : HPKEPublicKey}
    (hk : HasKey g x key) : HasKey f x key := by
  rcases hk with ⟨i, m, rfl, h1, h2⟩ | ⟨q, h1, h2⟩
  · obtain ⟨l, h3, h4⟩ := greased_leaf (h _) h1
    exact Or.inl ⟨i, l, rfl, h3, h4.encryption_key.symm.trans h2⟩
  · obtain ⟨p, h3, h4, _⟩ := greased_parent (h _) h1
    exact Or.inr ⟨p, h3, h4.symm.trans h2⟩

/-- C105: a tree that passes still passes with unknown values put into its leaves, as soon as its own hashes and
signatures are right. -/
theorem C105_tree (P : CryptoProvider) (t u : RatchetTree) (ctx ctx' : GroupContext) (now : Int) (Hs : Hash)
    (hP : P.hash ctx.cipher_suite = .ok Hs) (h0 : 0 < t.length) (hl : t.length < 2 ^ 32) (K : Nat)
    (hK : IsHeight ((t.length + 1) / 2) K) (hin : ∀ x n, t.get x = some n → x < 2 ^ (K + 1) - 1)
    (hlen : u.length = t.length) (h : ∀ x, GreasedNode (t.get x) (u.get x))
    (hcs : ctx'.cipher_suite = ctx.cipher_suite)
    (hdef : HashDefined Hs.digest u.get K 0) (hhash : treeHash Hs.digest u.get K 0 = ctx'.tree_hash)
    (hpar : ∀ k i p, u.get (node (k + 1) i) = some (.Parent p) → ParentHashValid Hs.digest u.get k i p)
    (hsig : ∀ i l, u.get (node 0 i) = some (.Leaf l) → LeafSigned P ctx'.cipher_suite l ctx'.group_id (UInt32.ofNat i))
    (hok : verify_integrity P t ctx now = .ok ()) : verify_integrity P u ctx' now = .ok () := by
  rw [C19_exact P t ctx now Hs hP h0 hl K hK hin] at hok
  have hin' : ∀ x n, u.get x = some n → x < 2 ^ (K + 1) - 1 := by
    intro x n hn
    have hx := h x
    rw [hn] at hx
    cases ht : t.get x with
    | none => rw [ht] at hx; cases n <;> exact hx.elim
    | some a => exact hin x a ht
  rw [C19_exact P u ctx' now Hs (hcs ▸ hP) (by omega) (by omega) K (hlen ▸ hK) hin']
  refine ⟨hdef, hhash, hpar, ?_, ?_, ?_, ?_⟩
  · intro i m hm
    obtain ⟨l, h1, h2⟩ := greased_leaf (h _) hm
    have hv := hok.leaves i l h1
    rw [← hcs] at hv
    refine leaf_kept h2 (hsig i m hm) (fun ct hct hS => ?_) hv
    rw [hlen]
    exact (supported_kept h ct hct _).2 hS
  · intro i j m n hm hn he
    obtain ⟨l, h1, h2⟩ := greased_leaf (h _) hm
    obtain ⟨l', h3, h4⟩ := greased_leaf (h _) hn
    exact hok.signature_keys i j l l' h1 h3 (h2.signature_key.symm.trans (he.trans h4.signature_key))
  · exact fun x y key hx hy => hok.encryption_keys x y key (hasKey_kept h hx) (hasKey_kept h hy)
  · intro k i q hq v hv
    obtain ⟨p, h1, _, h3⟩ := greased_parent (h _) hq
    rw [h3] at hv
    have hu := hok.unmerged k i p h1 v hv
    refine ⟨hu.below, fun m r h1m h2m hr => ?_⟩
    obtain ⟨p', h4, _, h5⟩ := greased_parent (h _) hr
    rw [h5]
    exact hu.between m p' h1m h2m h4

/-! ### A greased tree -/

/-- The leaf of `signedLeaf` with a reserved value in each list of its capabilities and an extension of a reserved type. -/
private def greasedSigned (k : UInt8) (source : LeafNodeSource) : LeafNode :=
  let payload := { (toyLeaf k).payload with
    leaf_node_source := source
    capabilities := { versions := [.MLS10, .Unsupported 0x0a0a], cipher_suites := [.Unknown 0x1a1a],
                      extensions := [.Unknown 0x2a2a], proposals := [.Unknown 0x3a3a],
                      credentials := [.Unknown 0x4a4a, .Basic] }
    extensions := [⟨.Unknown 0x2a2a, [1]⟩] }
  { payload, signature := [k, k] ++ (labelled (text "LeafNodeTBS")
      (leafNodeTBS payload [7] (UInt32.ofNat k.toNat)).bytes).bytes }

/-- `goodTree`, greased at the first two members. -/
private def greasedTree : RatchetTree :=
  let two := some (.Leaf (signedLeaf 2 .Update))
  let root : ParentNode := ⟨[9], [], [1]⟩
  let h := (parentHashEnc root (treeHash id (fun x => if x = 4 then two else none) 1 1)).bytes
  let left : ParentNode := ⟨[8], h, [1]⟩
  let g := (parentHashEnc left (treeHash id (fun _ => none) 0 1)).bytes
  [some (.Leaf (greasedSigned 0 (.Commit g))), some (.Parent left), some (.Leaf (greasedSigned 1 .Update)),
    some (.Parent root), two, none, none]

private theorem mixed_self {α : Type} {new : α → Prop} (xs : List α) : Mixed new xs xs := by
  induction xs with
  | nil => exact .nil
  | cons x xs ih => exact .keep ih

private theorem greasedSigned_ok (k : UInt8) {s s' : LeafNodeSource} (h : SameSource s s') :
    GreasedLeaf (signedLeaf k s) (greasedSigned k s') :=
  ⟨rfl, rfl, rfl, h,
    ⟨.keep (.put ⟨_, rfl⟩ .nil), .put ⟨_, rfl⟩ .nil, .put ⟨_, rfl⟩ .nil, .put ⟨_, rfl⟩ .nil, .put ⟨_, rfl⟩ (.keep .nil)⟩,
    .put ⟨⟨_, rfl⟩, List.mem_cons_self ..⟩ .nil⟩

/-- The two trees stand in the relation of `C105_tree`. -/
example : ∀ x, GreasedNode (goodTree.get x) (greasedTree.get x)
  | 0 => greasedSigned_ok 0 trivial
  | 1 => ⟨rfl, rfl⟩
  | 2 => greasedSigned_ok 1 trivial
  | 3 => ⟨rfl, rfl⟩
  | 4 => ⟨rfl, rfl, rfl, trivial, ⟨mixed_self _, mixed_self _, mixed_self _, mixed_self _, mixed_self _⟩, mixed_self _⟩
  | 5 => trivial
  | 6 => trivial
  | _ + 7 => trivial

set_option maxRecDepth 100000 in
/-- And the greased one is accepted. -/
example : verify_integrity toyProvider greasedTree (contextOf greasedTree) 0 = .ok () := by decide +kernel

end Rmls
