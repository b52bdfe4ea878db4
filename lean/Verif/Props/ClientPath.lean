import Verif.Props.MergeExact
import Verif.Props.Robust
import Verif.Props.History
import Verif.Props.Client
/-
C68, for clients that have joined: the commits with a path that they accept, and the tree they arrive at, in terms of the
specification.
-/
namespace Rmls
open Spec PassiveClient RatchetTree

theorem sib_top {K j k : Nat} (hj : j < 2 ^ K) (hk : k < K) : sib j k / 2 ^ (K - k) = 0 := by
  have h3 : j / 2 ^ k < 2 ^ (K - k) := by
    rw [Nat.div_lt_iff_lt_mul (Nat.two_pow_pos k), ← Nat.pow_add, Nat.sub_add_cancel (by omega)]; exact hj
  have h5 : 2 ^ (K - k) = 2 * 2 ^ (K - k - 1) := by rw [← Nat.pow_succ']; congr 1; omega
  have h6 := Nat.two_pow_pos (K - k - 1)
  refine Nat.div_eq_of_lt ?_
  unfold sib siblingPos
  generalize j / 2 ^ k = a at *
  split <;> omega

/-- C68, after a join: a commit is accepted exactly if it passes the checks, its proposals can be applied, and there is a
tree that has its path (sections 7.5 and 7.9); this tree is the second result.  Missing: the path is merged into the tree
without the proposals, see `C68_refuted`, and the first result is in terms of the code, see C65. -/
theorem C68_client_partial (P : CryptoProvider) (cs : CipherSuite) (hcs : cs.WF) (h : Hpke) (hp : P.hpke cs = .ok h)
    (hs : Sizes h) (Hs : Hash) (hP : P.hash cs = .ok Hs) (hd : ∀ b, (Hs.digest b).length < 2 ^ 30) (w : Welcome)
    (hw : w.cipher_suite = cs) (kp : KeyPackage) (hkw : kp.WF) (hkc : kp.payload.cipher_suite = cs) (priv : Bytes)
    (external : List (Bytes × Bytes)) (given : Option Bytes) (s : State) (hn : s.group_secrets.psk_ids.length < 2 ^ 16)
    (hj : join P cs w kp priv external given = .ok s) (m : PublicMessage) (hm : m.membership_tag ≠ none)
    (hkey : ∀ ps path, m.content.content = .Commit ⟨ps, some path⟩ → ∀ n ∈ path.nodes, n.encryption_key.length < 2 ^ 30)
    (nt t' : RatchetTree) :
    ∃ K, s.tree.length + 1 = 2 ^ (K + 1) ∧
    (handleCommit P cs s m = .ok (nt, t') ↔ ∃ c ps path, CommitChecked P h cs s m c ps path ∧
      s.tree.apply ps (List.replicate ps.length c) = .ok nt ∧ (path = none → t' = s.tree) ∧
      ∀ p, path = some p → t'.length = s.tree.length ∧ PathMerged Hs.digest K c.toNat p s.tree.get t'.get) := by
  obtain ⟨hl, hu⟩ := C68_joined P cs hcs h hp hs Hs hP w hw kp hkw hkc priv external given s hn hj
  rw [C66_exact P cs hcs h hp hs Hs hP w hw kp hkw hkc priv external given s hn] at hj
  obtain ⟨K, hK, hv⟩ := hj.valid
  obtain ⟨raw, rest, _, hr⟩ := hj.tree
  have hPs : P.hash s.group_info.group_context.cipher_suite = .ok Hs := by rw [hj.suite, hkc]; exact hP
  have hpos := Nat.two_pow_pos K
  have h2 : 2 ^ (K + 1) = 2 * 2 ^ K := by rw [Nat.pow_succ]; omega
  have hsm := accepted_small hPs (by omega) hl ((verify_read hPs hr 0).2 ⟨K, hK, hv⟩)
  refine ⟨K, hK, (C68_exact_partial P cs h hp hs s hl hu m hm nt t').trans ?_⟩
  have key : ∀ c ps path, CommitChecked P h cs s m c ps path → ∀ p, path = some p →
      (s.tree.merge_update_path P cs c.toNat p = (t', .ok ()) ↔
        t'.length = s.tree.length ∧ PathMerged Hs.digest K c.toNat p s.tree.get t'.get) := by
    intro c ps path hc p hpath
    obtain ⟨l, hcl, _⟩ := hc.signed
    have hlt : 2 * c.toNat < s.tree.length := lt_of_get hcl
    have hin : MergeInput s.tree K c.toNat :=
      ⟨⟨hl, by rw [show (s.tree.length + 1) / 2 = 2 ^ K by omega]; exact pow_isHeight K, hlt⟩, hsm⟩
    refine C22_exact P cs Hs hP s.tree t' K c.toNat hin p (fun k hk => ?_) hd
      (hkey _ p (by rw [hc.content, hpath]))
    obtain ⟨k1, k2, _⟩ := filteredLevels_mem.1 hk
    exact hashDefined_sub (a := K - (k - 1)) hv.defined (by omega) (sib_top hin.sender (by omega))
  constructor
  · rintro ⟨c, ps, path, a1, a2, a3, a4⟩
    exact ⟨c, ps, path, a1, a2, a3, fun p hp => (key c ps path a1 p hp).1 (a4 p hp)⟩
  · rintro ⟨c, ps, path, a1, a2, a3, a4⟩
    exact ⟨c, ps, path, a1, a2, a3, fun p hp => (key c ps path a1 p hp).2 (a4 p hp)⟩

/-! ## C95 -/

private theorem byValue_reference {l : List ProposalOrRef} {r : Bytes} (h : .Reference r ∈ l) : byValue l = .err .Other := by
  induction l with
  | nil => cases h
  | cons x xs ih =>
    cases x with
    | Reference _ => rfl
    | Proposal p =>
      cases h with
      | tail _ h => unfold byValue; rw [ih h]; rfl

/-- C95, commits: an authentic commit with a proposal by reference, and a commit whose sender is not a member or has no leaf, are
refused with an error that says nothing else, and not with that of another check. -/
theorem C95_commit (P : CryptoProvider) (cs : CipherSuite) (s : State) (m : PublicMessage)
    (he : m.content.epoch = s.group_info.group_context.epoch) :
    ((∀ c, m.content.sender ≠ .Member c) → handleCommit P cs s m = .err .Other) ∧
    ∀ c, m.content.sender = .Member c →
      (s.tree.get_leaf c.toNat = .ok none → handleCommit P cs s m = .err .Other) ∧
      ∀ l key cm r, s.tree.get_leaf c.toNat = .ok (some l) →
        m.authenticated_content.verify_signature P cs l.payload.signature_key s.group_info.group_context = .ok () →
        P.derive_secret cs s.epoch_secret SECRET_LABEL_MEMBERSHIP = .ok key →
        m.verify_membership_tag P cs key s.group_info.group_context = .ok () → m.content.content = .Commit cm →
        .Reference r ∈ cm.proposals → handleCommit P cs s m = .err .Other := by
  unfold handleCommit
  rw [he]
  refine ⟨fun h => ?_, fun c hc => ⟨fun h => ?_, fun l key cm r h1 h2 h3 h4 h5 h6 => ?_⟩⟩
  · cases hx : m.content.sender with
    | Member c => exact absurd hx (h c)
    | _ => simp [assert]
  · rw [hc]; simp [assert, h]
  · rw [hc]
    simp [assert, assertOk, h1, h2, h3, h4, h5, byValue_reference h6]
    rfl

section examples
private abbrev suite1 : CipherSuite := .MLS_128_DHKEMX25519_AES128GCM_SHA256_Ed25519

private def sumInfo : GroupInfo :=
  let x := { joinInfo with group_context := { joinInfo.group_context with tree_hash := treeHash sumHash.digest joinTree.get 1 0 } }
  { x with signature := [0, 0] ++ (labelled (text "GroupInfoTBS") (groupInfoTBS x).bytes).bytes }
private def sumSealed : Bytes := List.replicate 16 1 ++ List.replicate 12 1 ++ (groupInfo sumInfo).bytes
private def sumWelcome : Welcome := ⟨suite1, [⟨sumHash.digest joinRef,
  ⟨[6], [3] ++ (labelled (text "Welcome") sumSealed).bytes ++ (groupSecrets joinSecrets).bytes⟩⟩], sumSealed⟩
private def sumRootPath : UpdatePath :=
  ⟨newLeaf 0 (parentHash sumHash.digest joinTree.get 0 1 ⟨[41], [], []⟩), [⟨[41], []⟩]⟩

set_option maxRecDepth 100000 in
/-- The hypotheses of `C68_client_partial` are met by a client that joins with a PSK, and a commit with a path that it
accepts. -/
example : ∃ s r, join sumProvider suite1 sumWelcome joinPackage [3] [([0], [9]), ([1], [5])] none = .ok s ∧
    s.group_secrets.psk_ids.length < 2 ^ 16 ∧ (∀ b, (sumHash.digest b).length < 2 ^ 30) ∧
    handleCommit sumProvider suite1 s (commitOf 0 [.GroupContextExtensions ⟨[]⟩] sumRootPath sumInfo.group_context) = .ok r ∧
    r.2.get 1 = some (.Parent ⟨[41], [], []⟩) := by
  have hok : (match join sumProvider suite1 sumWelcome joinPackage [3] [([0], [9]), ([1], [5])] none with
    | .ok s => match handleCommit sumProvider suite1 s
          (commitOf 0 [.GroupContextExtensions ⟨[]⟩] sumRootPath sumInfo.group_context) with
        | .ok r => decide (s.group_secrets.psk_ids.length < 2 ^ 16 ∧ r.2.get 1 = some (.Parent ⟨[41], [], []⟩))
        | _ => false
    | _ => false) = true := by decide +kernel
  revert hok
  split
  · next s hs =>
    split
    · next r hr => exact fun h => ⟨s, r, hs, (of_decide_eq_true h).1, fun b => (sumHash_size b).2, hr, (of_decide_eq_true h).2⟩
    · nofun
  · nofun

/-- A commit of the first member to the group of `joinState` with a proposal by reference. -/
private def refCommit : PublicMessage :=
  let ctx := joinInfo.group_context
  let c : FramedContent := ⟨[7], 3, .Member 0, [], .Commit ⟨[.Proposal (.GroupContextExtensions ⟨[]⟩), .Reference [5]], some rootPath⟩⟩
  let auth : FramedContentAuthData :=
    ⟨[0, 0] ++ (labelled (text "FramedContentTBS") (framedContentTBS .MLS10 .PublicMessage c ctx).bytes).bytes, []⟩
  ⟨c, auth, some (List.replicate 4 1 ++ (authenticatedContentTBM c auth ctx).bytes)⟩

set_option maxRecDepth 100000 in
/-- Such a commit is refused by `C95_commit`. -/
example : handleCommit toyProvider suite1 joinState refCommit = .err .Other :=
  ((C95_commit toyProvider suite1 joinState refCommit rfl).2 0 rfl).2 (signedLeaf 0 .Update) (List.replicate 4 1) _ [5]
    (by decide +kernel) (by decide +kernel) (by decide +kernel) (by decide +kernel) rfl (.tail _ (.head _))

end examples
end Rmls
