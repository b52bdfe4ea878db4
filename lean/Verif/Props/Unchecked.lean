import Verif.Spec.Unchecked
import Verif.Props.Robust
import Verif.Props.Public
import Verif.Props.Group
/-
Properties C85 (what a commit adds, updates and removes is checked), C86 (a path is encrypted to the group), C88 (other
entries of a welcome do not get in the way), C89 (who may send what).
-/
namespace Rmls
open Spec Spec.Enc MessageProtection PassiveClient RatchetTree

private abbrev suite1 : CipherSuite := .MLS_128_DHKEMX25519_AES128GCM_SHA256_Ed25519

/-! ## C85 -/

theorem verifyProposal_same (total : Nat) (c : LeafIndex) (s : ProposalSets) {p q : Proposal} (h : SameInList p q)
    (l : LeafIndex) : verifyProposal total c s p l = verifyProposal total c s q l := by
  cases h <;> first | rfl | (simp only [verifyProposal]; simp only [*])

theorem verifyProposals_same (total : Nat) (c : LeafIndex) : ∀ {ps qs : List Proposal}, SameInLists ps qs →
    ∀ (ss : List LeafIndex) (s : ProposalSets),
      verifyProposals total c s (ps.zip ss) = verifyProposals total c s (qs.zip ss) := by
  intro ps qs h
  induction h with
  | nil => intro ss s; rfl
  | cons h _ ih =>
    intro ss s
    cases ss with
    | nil => rfl
    | cons l ss =>
      simp only [List.zip_cons_cons, verifyProposals]
      rw [verifyProposal_same total c s h l]
      exact congrArg _ (funext fun s' => ih ss s')

/-- C85: the check of the proposals sees of a key package only the signature key, and nothing of a leaf that is updated, of
the members of the group, or of its context. -/
theorem C85_blind (ps qs : List Proposal) (h : SameInLists ps qs) (ss : List LeafIndex) (c : LeafIndex) :
    verify_proposal_list ps ss c = verify_proposal_list qs ss c := by
  unfold verify_proposal_list
  have hl : ps.length = qs.length := by
    induction h with
    | nil => rfl
    | cons _ _ ih => rw [List.length_cons, List.length_cons, ih]
  rw [hl, verifyProposals_same _ c h]

/-- The keys in a list of adds. -/
theorem adds_valid (kps : List KeyPackage) (c : LeafIndex)
    (hd : (kps.map (·.payload.leaf_node.payload.signature_key)).Nodup) :
    ProposalsValid ((kps.map fun x => Proposal.Add ⟨x⟩).map fun p => (p, c)) c := by
  have key : ∀ {β : Type} (f : Proposal × LeafIndex → Option β), (∀ x : KeyPackage, f (.Add ⟨x⟩, c) = none) →
      ((kps.map fun x => Proposal.Add ⟨x⟩).map fun p => (p, c)).filterMap f = [] := by
    intro β f hf
    rw [List.filterMap_eq_nil_iff]
    intro a ha
    obtain ⟨p, hp, rfl⟩ := List.mem_map.1 ha
    obtain ⟨x, _, rfl⟩ := List.mem_map.1 hp
    exact hf x
  have hadd : ((kps.map fun x => Proposal.Add ⟨x⟩).map fun p => (p, c)).filterMap addedKey =
      kps.map (·.payload.leaf_node.payload.signature_key) := by
    rw [List.map_map, List.filterMap_map]
    induction kps with
    | nil => rfl
    | cons x xs ih =>
      simp only [List.map_cons, List.nodup_cons] at hd
      rw [List.filterMap_cons]
      simp only [Function.comp_apply, addedKey, List.map_cons]
      exact congrArg _ (ih hd.2 fun f hf => by
        rw [List.filterMap_eq_nil_iff]
        intro a ha
        obtain ⟨p, hp, rfl⟩ := List.mem_map.1 ha
        obtain ⟨x, _, rfl⟩ := List.mem_map.1 hp
        exact hf x)
  refine ⟨by rw [hadd]; exact hd, by rw [key touchedLeaf fun _ => rfl]; exact List.nodup_nil,
    by rw [key touchedLeaf fun _ => rfl]; exact List.not_mem_nil, by rw [key pskOf fun _ => rfl]; exact List.nodup_nil,
    by rw [key contextExtensionsOf fun _ => rfl]; exact Nat.zero_le _, fun p s hm => ?_, fun p s hm => ?_⟩
  all_goals
    obtain ⟨q, hq, he⟩ := List.mem_map.1 hm
    obtain ⟨x, _, rfl⟩ := List.mem_map.1 hq
    cases he

theorem adds_only : ∀ (kps : List KeyPackage) (ss : List LeafIndex),
    updatesOf ((kps.map fun x => Proposal.Add ⟨x⟩).zip ss) = [] ∧ removesOf (kps.map fun x => Proposal.Add ⟨x⟩) = [] ∧
    (addsOf (kps.map fun x => Proposal.Add ⟨x⟩)).length = kps.length := by
  intro kps
  induction kps with
  | nil => intro ss; exact ⟨rfl, rfl, rfl⟩
  | cons x kps ih =>
    intro ss
    obtain ⟨_, h2, h3⟩ := ih ss
    refine ⟨?_, h2, by rw [List.map_cons, addsOf, List.length_cons, h3, List.length_cons]⟩
    cases ss with
    | nil => rfl
    | cons s ss => exact (ih ss).1

/-- C85 is false in general: the client accepts a member's commit that adds whatever key packages, if their signature keys
differ from each other: unsigned, for another suite or version, with the keys of a member. -/
theorem C85_any (P : CryptoProvider) (cs : CipherSuite) (h : Hpke) (hp : P.hpke cs = .ok h) (hs : Sizes h)
    (s : State) (hd : ∀ i j l m, s.tree.get (2 * i) = some (.Leaf l) → s.tree.get (2 * j) = some (.Leaf m) →
      l.payload.signature_key = m.payload.signature_key → i = j)
    (c : LeafIndex) (l : LeafNode) (hc : s.tree.get (2 * c.toNat) = some (.Leaf l))
    (kps : List KeyPackage) (h0 : kps ≠ []) (hroom : 2 * s.tree.length + 4 * kps.length + 3 < 2 ^ 31)
    (hk : (kps.map (·.payload.leaf_node.payload.signature_key)).Nodup)
    (m : PublicMessage) (he : m.content.epoch = s.group_info.group_context.epoch) (hsend : m.content.sender = .Member c)
    (hcontent : m.content.content = .Commit ⟨kps.map fun x => .Proposal (.Add ⟨x⟩), none⟩)
    (hsig : ContentSigned P cs l.payload.signature_key .PublicMessage m.content s.group_info.group_context m.auth.signature)
    (key tag : Bytes) (hkey : Derives h s.epoch_secret (text "membership") key) (ht : m.membership_tag = some tag)
    (hfit : (authenticatedContentTBM m.content m.auth s.group_info.group_context).fits)
    (hmac : MacOf P cs key (authenticatedContentTBM m.content m.auth s.group_info.group_context).bytes tag) :
    ∃ nt, handleCommit P cs s m = .ok (nt, s.tree) := by
  let ps : List Proposal := kps.map fun x => .Add ⟨x⟩
  have hv := adds_valid kps c hk
  have hz : ps.zip (List.replicate ps.length c) = ps.map fun p => (p, c) := zip_replicate ps c
  have hpsks : PsksFit (ps.map fun p => (p, c)) := by
    intro id hid
    obtain ⟨a, ha, he⟩ := List.mem_filterMap.1 hid
    obtain ⟨q, hq, rfl⟩ := List.mem_map.1 ha
    obtain ⟨x, _, rfl⟩ := List.mem_map.1 hq
    cases he
  have hlist : verify_proposal_list ps (List.replicate ps.length c) c = .ok () :=
    (C26_exact _ _ _).2 ⟨by rw [List.length_replicate], by rw [hz]; exact hv, by rw [hz]; exact hpsks⟩
  obtain ⟨hu, hr, hal⟩ := adds_only kps (List.replicate ps.length c)
  obtain ⟨nt, hnt⟩ := C84_commit_partial s.tree ps _ c (by rw [hal]; exact hroom) hlist (by rw [hc]; nofun)
    (by rw [hu]; nofun) (by rw [hr]; nofun)
  refine ⟨nt, (C68_exact_partial P cs h hp hs s (by omega) hd m (by rw [ht]; nofun) nt s.tree).2
    ⟨c, ps, none, ⟨he, hsend, ⟨l, hc, hsig⟩, ⟨key, tag, hkey, ht, hfit, hmac⟩, ?_, hv, ?_, ?_, nofun⟩, hnt,
      fun _ => rfl, nofun⟩⟩
  · rw [hcontent, List.map_map]; rfl
  · intro k hk
    obtain ⟨x, _, hx⟩ := List.mem_map.1 hk
    cases hx
  · intro _
    refine ⟨fun h => h0 (List.map_eq_nil_iff.1 h), fun p hp => ?_⟩
    obtain ⟨x, _, rfl⟩ := List.mem_map.1 hp
    exact .inl ⟨_, rfl⟩

/-- C85, what is checked: the committer is a member and stays one, those added have different signature keys, nobody is
touched twice, and the leaf of the path is valid in its place.  Missing: all else that is added, updated or removed. -/
theorem C85_partial (P : CryptoProvider) (cs : CipherSuite) (h : Hpke) (hp : P.hpke cs = .ok h) (hs : Sizes h)
    (s : State) (hl : s.tree.length < 2 ^ 32)
    (hd : ∀ i j l m, s.tree.get (2 * i) = some (.Leaf l) → s.tree.get (2 * j) = some (.Leaf m) →
      l.payload.signature_key = m.payload.signature_key → i = j)
    (m : PublicMessage) (hm : m.membership_tag ≠ none) (nt t' : RatchetTree)
    (hh : handleCommit P cs s m = .ok (nt, t')) :
    ∃ (c : UInt32) (ps : List Proposal) (path : Option UpdatePath), m.content.sender = .Member c ∧ m.content.content = .Commit ⟨ps.map .Proposal, path⟩ ∧
      (∃ l, s.tree.get (2 * c.toNat) = some (.Leaf l) ∧
        ContentSigned P cs l.payload.signature_key .PublicMessage m.content s.group_info.group_context m.auth.signature) ∧
      ((ps.map fun p => (p, c)).filterMap addedKey).Nodup ∧ ((ps.map fun p => (p, c)).filterMap touchedLeaf).Nodup ∧
      c ∉ (ps.map fun p => (p, c)).filterMap touchedLeaf ∧
      ∀ p, path = some p → LeafValid P p.leaf_node cs s.group_info.group_context.group_id c
        (SupportedCred s.tree.get ((s.tree.length + 1) / 2)) 0 := by
  obtain ⟨c, ps, path, hc, _⟩ := (C68_exact_partial P cs h hp hs s hl hd m hm nt t').1 hh
  exact ⟨c, ps, path, hc.sender, hc.content, hc.signed, hc.proposals.adds, hc.proposals.leaves, hc.proposals.committer,
    fun p hpath => (hc.path p hpath).valid⟩

section examples

/-- A commit of the first member of `joinState` without a path. -/
def plainCommit (ps : List Proposal) : PublicMessage :=
  let ctx := joinInfo.group_context
  let c : FramedContent := ⟨[7], 3, .Member 0, [], .Commit ⟨ps.map .Proposal, none⟩⟩
  let auth : FramedContentAuthData := ⟨[0, 0] ++ (labelled (text "FramedContentTBS")
    (framedContentTBS .MLS10 .PublicMessage c ctx).bytes).bytes, []⟩
  ⟨c, auth, some (List.replicate 4 1 ++ (authenticatedContentTBM c auth ctx).bytes)⟩

/-- A package that its owner has not signed, with the keys of the first member, for another suite. -/
def forgedPackage : KeyPackage :=
  ⟨⟨.MLS10, .MLS_128_DHKEMP256_AES128GCM_SHA256_P256, [4], { toyLeaf 0 with signature := [] }, []⟩, []⟩

def forgedTree : RatchetTree := joinTree ++ [none, some (.Leaf forgedPackage.payload.leaf_node), none, none]

set_option maxRecDepth 100000 in
/-- C85 is false: the client, who has just joined, accepts a commit by which a key package is added that does not verify,
and arrives at a tree that nobody who joins accepts, whatever the group context says.  There is no confirmation tag either. -/
theorem C85_refuted : ∃ (s : State) (kp : KeyPackage) (m : PublicMessage) (nt : RatchetTree),
    join toyProvider suite1 joinWelcome joinPackage [3] [([0], [9]), ([1], [5])] none = .ok s ∧
    m.content.content = .Commit ⟨[.Proposal (.Add ⟨kp⟩)], none⟩ ∧ m.auth.confirmation_tag = [] ∧
    handleCommit toyProvider suite1 s m = .ok (nt, s.tree) ∧ nt.get_leaf 2 = .ok (some kp.payload.leaf_node) ∧
    kp.verify toyProvider s.group_info.group_context ≠ .ok () ∧ kp.verify_signature toyProvider ≠ .ok () ∧
    kp.payload.leaf_node.verify_signature toyProvider suite1 .KeyPackage = .ok false ∧
    ∀ ctx now, nt.verify_integrity toyProvider ctx now ≠ .ok () := by
  refine ⟨joinState, forgedPackage, plainCommit [.Add ⟨forgedPackage⟩], forgedTree, joinState_join, rfl, rfl,
    by decide +kernel, by decide +kernel, by decide +kernel, by decide +kernel, by decide +kernel, ?_⟩
  intro ctx now hv
  have := (C19_exact toyProvider forgedTree ctx now toyHash rfl (by decide) (by decide) 2 goodTree_height
    (fun x n hx => by have := lt_of_get hx; simpa [forgedTree, joinTree] using this)).1 hv
  have := this.signature_keys 0 2 _ _ rfl rfl rfl
  omega

/-- A path of the third member of `goodTree`. -/
def blankPath : UpdatePath := ⟨newLeaf 2 (parentHash id goodTree.get 2 2 ⟨[44], [], []⟩), [⟨[44], []⟩]⟩

set_option maxRecDepth 100000 in
/-- C85 is false of removals: in a valid tree, the client accepts the removal of a member that does not exist. -/
theorem C85_remove_refuted : ∃ (s : State) (m : PublicMessage) (r : RatchetTree × RatchetTree) (path : UpdatePath),
    s.tree.verify_integrity toyProvider s.group_info.group_context 0 = .ok () ∧
    m.content.content = .Commit ⟨[.Proposal (.Remove ⟨3⟩)], some path⟩ ∧ s.tree.get_leaf 3 = .ok none ∧
    handleCommit toyProvider suite1 s m = .ok r :=
  ⟨goodState, commitOf 2 [.Remove ⟨3⟩] blankPath (contextOf goodTree), _, blankPath, by decide +kernel, rfl,
    by decide +kernel, (by decide +kernel : handleCommit toyProvider suite1 goodState
      (commitOf 2 [.Remove ⟨3⟩] blankPath (contextOf goodTree)) = .ok (goodTree.set 3 none, 
        (goodTree.take 3) ++ [some (.Parent ⟨[44], [], []⟩), some (.Leaf blankPath.leaf_node), none, none]))⟩

set_option maxRecDepth 100000 in
/-- The hypotheses of `C85_any` can be met: `forgedPackage` is added to `joinState` by its first member. -/
example : ∃ nt, handleCommit toyProvider suite1 joinState (plainCommit [.Add ⟨forgedPackage⟩]) = .ok (nt, joinTree) := by
  have hkey : Derives toyHpke joinState.epoch_secret (text "membership") (List.replicate 4 1) :=
    (derive_secret_iff (P := toyProvider) (cs := suite1) rfl toy_sizes _ _ _).1 (by decide +kernel)
  exact C85_any toyProvider suite1 toyHpke rfl toy_sizes joinState joinState_tree.2 0 (signedLeaf 0 .Update) (by decide +kernel)
    [forgedPackage] (by simp) (by decide +kernel) (by simp) (plainCommit [.Add ⟨forgedPackage⟩]) rfl rfl rfl
    ((AuthenticatedContent.verify_signature_iff toyProvider suite1
      ⟨.PublicMessage, (plainCommit [.Add ⟨forgedPackage⟩]).content, (plainCommit [.Add ⟨forgedPackage⟩]).auth⟩ _ _).1
      (by decide +kernel)) _ _ hkey rfl (by decide +kernel) ((verify_mac_iff toyProvider suite1 _ _ _).1 (by decide +kernel))

/-- The proposals that `C85_blind` does not tell apart. -/
example (c : LeafIndex) : verify_proposal_list [.Add ⟨thirdPackage⟩, .Update ⟨toyLeaf 1⟩] [c, 1] c =
    verify_proposal_list [.Add ⟨{ thirdPackage with signature := [] }⟩, .Update ⟨toyLeaf 0⟩] [c, 1] c :=
  C85_blind _ _ (.cons (.add _ _ rfl) (.cons (.update _ _) .nil)) _ _

end examples

/-! ## C86 -/

theorem setPath_same (t : RatchetTree) : ∀ (ns : List Nat) (ps qs : List UpdatePathNode),
    ps.map (·.encryption_key) = qs.map (·.encryption_key) → t.setPath (ns.zip ps) = t.setPath (ns.zip qs) := by
  intro ns
  induction ns generalizing t with
  | nil => intros; rfl
  | cons n ns ih =>
    intro ps qs h
    cases ps with
    | nil =>
      cases qs with
      | nil => rfl
      | cons _ _ => cases h
    | cons p ps =>
      cases qs with
      | nil => cases h
      | cons q qs =>
        simp only [List.map_cons, List.cons.injEq] at h
        simp only [List.zip_cons_cons, setPath, h.1]
        exact ih _ ps qs h.2

/-- C86 is false in general: merging a path does not depend on its ciphertexts, neither on what is in them nor on how many
there are. -/
theorem C86_blind (P : CryptoProvider) (cs : CipherSuite) (t : RatchetTree) (j : Nat) (p q : UpdatePath)
    (h : SamePublic p q) : t.merge_update_path P cs j p = t.merge_update_path P cs j q := by
  obtain ⟨h1, h2⟩ := h
  have h3 : p.nodes.length = q.nodes.length := by
    have := congrArg List.length h2
    simpa using this
  unfold merge_update_path
  rw [h1, h3]
  simp only [setPath_same _ _ p.nodes q.nodes h2]

/-- C86, what is true: there is a node for each ancestor that is to have one, so that there is a place for the ciphertexts.
Missing: the ciphertexts. -/
theorem C86_partial (P : CryptoProvider) (cs : CipherSuite) (Hs : Hash) (hP : P.hash cs = .ok Hs) (t t' : RatchetTree)
    (K j : Nat) (h : MergePlace t K j) (path : UpdatePath) (hm : t.merge_update_path P cs j path = (t', .ok ())) :
    ∀ i k : Nat, (filteredLevels t.get K j)[i]? = some k → ∃ n, path.nodes[i]? = some n ∧
      ∃ ph, t'.get (anc j k) = some (.Parent ⟨n.encryption_key, ph, []⟩) ∧
      resolution t.get (k - 1) (sib j (k - 1)) ≠ [] := by
  obtain ⟨_, _, _, h4, _⟩ := C22_effect P cs Hs hP t t' K j h path hm
  intro i k hik
  obtain ⟨n, ph, h5, h6⟩ := h4 i k hik
  refine ⟨n, h5, ph, h6, ?_⟩
  obtain ⟨a, ha, rfl⟩ := List.mem_map.1 (List.mem_of_getElem? hik)
  have := (List.mem_filter.1 ha).2
  intro he
  rw [Nat.add_sub_cancel] at he
  rw [he] at this
  cases this

section examples

set_option maxRecDepth 100000 in
/-- C86 is false: the client accepts a commit with a path that is encrypted to nobody, though it is in the group. -/
theorem C86_refuted : ∃ (s : State) (m : PublicMessage) (ps : List ProposalOrRef) (path : UpdatePath)
    (r : RatchetTree × RatchetTree),
    join toyProvider suite1 joinWelcome joinPackage [3] [([0], [9]), ([1], [5])] none = .ok s ∧
    m.content.content = .Commit ⟨ps, some path⟩ ∧ handleCommit toyProvider suite1 s m = .ok r ∧
    (∀ n ∈ path.nodes, n.encrypted_path_secret = []) ∧ ¬ Encrypted s.tree.get 1 0 path := by
  refine ⟨joinState, commitOf 0 [.GroupContextExtensions ⟨[]⟩] rootPath joinInfo.group_context, _, rootPath, _,
    joinState_join, rfl, (by decide +kernel : handleCommit toyProvider suite1 joinState
      (commitOf 0 [.GroupContextExtensions ⟨[]⟩] rootPath joinInfo.group_context) =
      .ok (joinTree, [some (.Leaf rootPath.leaf_node), some (.Parent ⟨[41], [], []⟩), some (.Leaf joinLeaf)])),
    by decide +kernel, ?_⟩
  intro h
  obtain ⟨n, h1, h2⟩ := h 0 1 (by decide +kernel)
  cases h1
  revert h2
  decide +kernel

/-- Paths with and without ciphertexts. -/
example : SamePublic rootPath ⟨rootPath.leaf_node, [⟨[41], [⟨[1], [2]⟩]⟩]⟩ := ⟨rfl, rfl⟩

set_option maxRecDepth 100000 in
/-- A path that is encrypted to the other member. -/
example : Encrypted joinTree.get 1 0 ⟨rootPath.leaf_node, [⟨[41], [⟨[1], [2]⟩]⟩]⟩ := by
  have hf : filteredLevels joinTree.get 1 0 = [1] := by decide +kernel
  intro i k h
  rw [hf] at h
  match i, h with
  | 0, h =>
    cases h
    exact ⟨_, rfl, by decide +kernel⟩

end examples

/-! ## C88 -/

/-- C88 is false in general: an entry in front of that of the client, that names something in the store that is not a key
package, makes the join fail, for instance the public key of a leaf or the init key of the client, which everyone knows. -/
theorem C88_blocked (P : CryptoProvider) (s : MemoryKeyStore) (w : Welcome) (before after : List EncryptedGroupSecrets)
    (o : EncryptedGroupSecrets) (raw : Bytes) (hw : w.secrets = before ++ o :: after)
    (hb : ∀ b ∈ before, s.retrieve b.new_member = none) (ho : s.retrieve o.new_member = some raw)
    (hn : ∀ x, ¬ Packs raw x) : ∀ g, (Group.from_welcome P s w).1 ≠ .ok g := by
  intro g hg
  obtain ⟨e, x, ref, ⟨raw', h1, h2⟩, _⟩ := (C46_succeeds P s w).1 ⟨g, hg⟩
  have := firstKnown_unique h1 ⟨before, after, hw, ho, hb⟩
  rw [this] at h2
  exact hn x h2

/-- C88, what is true: entries that name nothing in the store do not matter.  Missing: entries that do. -/
theorem C88_partial (P : CryptoProvider) (s : MemoryKeyStore) (w w' : Welcome)
    (h : w'.secrets.filter (fun e => (s.retrieve e.new_member).isSome) =
      w.secrets.filter fun e => (s.retrieve e.new_member).isSome) :
    Group.from_welcome P s w' = Group.from_welcome P s w := by
  have key : ∀ es : List EncryptedGroupSecrets,
      Group.findPackage s es = Group.findPackage s (es.filter fun e => (s.retrieve e.new_member).isSome) := by
    intro es
    induction es with
    | nil => rfl
    | cons e es ih =>
      rw [List.filter_cons]
      cases hr : s.retrieve e.new_member with
      | none => simp only [Group.findPackage, hr]; exact ih
      | some raw => simp [Group.findPackage, hr]
  unfold Group.from_welcome
  rw [key w'.secrets, h, ← key w.secrets]

section examples

/-- The welcome of `toyWelcome` with an entry in front that names the init key of the package. -/
def blockedWelcome : Welcome :=
  { toyWelcome with secrets := ⟨toyPackage.payload.init_key, ⟨[], []⟩⟩ :: toyWelcome.secrets }

set_option maxRecDepth 100000 in
/-- C88 is false: a welcome that the client can join with is no longer one when an entry is put in front. -/
theorem C88_refuted : ∃ (s : MemoryKeyStore) (w : Welcome) (o : EncryptedGroupSecrets) (g : Group) (e : Error),
    (Group.from_welcome toyProvider s w).1 = .ok g ∧
    (Group.from_welcome toyProvider s { w with secrets := o :: w.secrets }).1 = .err e :=
  ⟨toyStore, toyWelcome, ⟨toyPackage.payload.init_key, ⟨[], []⟩⟩, Group.default, .BufferTooSmall, by decide +kernel,
    by decide +kernel⟩

set_option maxRecDepth 100000 in
/-- The hypotheses of `C88_blocked` can be met. -/
example : (∀ x, ¬ Packs (opq [1]).bytes x) ∧ toyStore.retrieve toyPackage.payload.init_key = some (opq [1]).bytes := by
  refine ⟨fun x => ?_, by decide +kernel⟩
  rw [← packs_iff]
  have h2 : deserialize_exact KeyPackage.deserialize (opq [1]).bytes = .err .BufferTooSmall := by decide +kernel
  rw [h2]
  nofun

set_option maxRecDepth 100000 in
/-- Those of `C88_partial`: an entry for somebody else goes away. -/
example : ([⟨toyRef, ⟨[], []⟩⟩] : List EncryptedGroupSecrets).filter (fun e => (toyStore.retrieve e.new_member).isSome) =
    toyWelcome.secrets.filter fun e => (toyStore.retrieve e.new_member).isSome := by decide +kernel

end examples

/-! ## C89 -/

section examples

set_option maxRecDepth 100000 in
/-- C89 is false: the checks of a public message accept a commit and application data of an external sender, the removal of
somebody by one who wants to join, and application data of one who is joining. -/
theorem C89_refuted : ∀ c ∈ [(Sender.External 0, Content.Commit ⟨[.Proposal (.Remove ⟨1⟩)], none⟩),
      (.External 0, .Application [1]), (.NewMemberProposal, .Proposal (.Remove ⟨1⟩)), (.NewMemberCommit, .Application [1])],
    ¬ MaySend c.1 c.2 ∧ ∃ P cs ctx pub mkey raw m, receivePublic P cs ctx pub mkey raw = .ok m ∧ m.content.sender = c.1 ∧
      m.content.content = c.2 := by
  have key : ∀ (sd : Sender) (ct : Content), (⟨[7], 3, sd, [], ct⟩ : FramedContent).WF →
      (sendPublic toyProvider suite1 toyContext [9] [4] ⟨[7], 3, sd, [], ct⟩ >>= fun m =>
        MLSMessage.serialize ⟨.MLS10, .PublicMessage m⟩ >>= fun _ => Res.ok ()) = .ok () →
      ∃ P cs ctx pub mkey raw m, receivePublic P cs ctx pub mkey raw = .ok m ∧ m.content.sender = sd ∧
        m.content.content = ct := by
    intro sd ct hw hb
    obtain ⟨m, h1, hb⟩ := Res.bind_ok_iff.1 hb
    obtain ⟨b, h2, _⟩ := Res.bind_ok_iff.1 hb
    have h3 := C80_delivers toyProvider suite1 toyContext [9] [9] [4] (toy_pair _) _ hw m h1 b [] h2
    exact ⟨_, _, _, _, _, _, m, h3.1, by rw [h3.2], by rw [h3.2]⟩
  intro c hc
  simp only [List.mem_cons, List.not_mem_nil, or_false] at hc
  rcases hc with rfl | rfl | rfl | rfl
  · exact ⟨nofun, key _ _ (by exact ⟨by intro p hp; cases List.mem_singleton.1 hp; trivial, nofun⟩) (by decide +kernel)⟩
  · exact ⟨nofun, key _ _ (by trivial) (by decide +kernel)⟩
  · exact ⟨nofun, key _ _ (by trivial) (by decide +kernel)⟩
  · exact ⟨nofun, key _ _ (by trivial) (by decide +kernel)⟩

end examples

/-- C89, what is true: what comes out of a private message is a member's. -/
theorem C89_private_partial (P : CryptoProvider) (cs : CipherSuite) (ctx : GroupContext) (pub sds : Bytes)
    (secret : RatchetSecret) (m : PrivateMessage) (sd : SenderData) (a : AuthenticatedContent)
    (h : decrypt_private_message P cs ctx pub sds secret m = .ok (sd, a)) :
    a.content.sender = .Member sd.leaf_index ∧ MaySend a.content.sender a.content.content := by
  unfold decrypt_private_message at h
  simp only [Res.bind_ok_iff] at h
  obtain ⟨sd', _, x, _, c, _, _, _, h⟩ := h
  cases h
  exact ⟨rfl, trivial⟩

/-- C89, what is true: what the client takes for a commit is a member's. -/
theorem C89_client_partial (P : CryptoProvider) (cs : CipherSuite) (s : State) (m : PublicMessage)
    (r : RatchetTree × RatchetTree) (h : handleCommit P cs s m = .ok r) :
    (∃ c, m.content.sender = .Member c) ∧ MaySend m.content.sender m.content.content := by
  unfold handleCommit at h
  simp only [Res.bind_ok_iff] at h
  obtain ⟨_, _, h⟩ := h
  split at h
  · next c hc => rw [hc]; exact ⟨⟨c, rfl⟩, trivial⟩
  · cases h

end Rmls
