import Verif.Props.Joiner
import Verif.Props.History
/-
C79: unmerged leaves in accepted trees are sorted (RFC 9420 section 7.1), and where they are not.
-/
namespace Rmls
open Spec Enc RatchetTree

/-- Four members; leaves 1 and 3 are unmerged at the root, and the list there is given. -/
def sortTree (us : List LeafIndex) : RatchetTree :=
  let two := some (.Leaf (signedLeaf 2 .Update))
  let root : ParentNode := ⟨[9], [], us⟩
  let h := (parentHashEnc root (treeHash id (fun x => if x = 4 then two else none) 1 1)).bytes
  let left : ParentNode := ⟨[8], h, [1]⟩
  let g := (parentHashEnc left (treeHash id (fun _ => none) 0 1)).bytes
  [some (.Leaf (signedLeaf 0 (.Commit g))), some (.Parent left), some (.Leaf (signedLeaf 1 .Update)), some (.Parent root), two, none,
    some (.Leaf (signedLeaf 3 .Update))]

set_option maxRecDepth 100000 in
/-- C79 is false: trees are accepted in which the unmerged leaves of the root are not in order, or in which one of them is there
twice, and then twice in the resolution of the root. -/
theorem C79_refuted :
    (∃ t ctx p, verify_integrity toyProvider t ctx 0 = .ok () ∧ t.get (node 2 0) = some (.Parent p) ∧
      p.unmerged_leaves = [3, 1]) ∧
    ∃ t ctx p, verify_integrity toyProvider t ctx 0 = .ok () ∧ t.get (node 2 0) = some (.Parent p) ∧
      p.unmerged_leaves = [1, 3, 1] ∧ t.resolve (node 2 0) = .ok [node 2 0, node 0 1, node 0 3, node 0 1] :=
  ⟨⟨sortTree [3, 1], contextOf (sortTree [3, 1]), _, by decide +kernel, rfl, rfl⟩,
    sortTree [1, 3, 1], contextOf (sortTree [1, 3, 1]), _, by decide +kernel, rfl, rfl, by decide +kernel⟩

/-- C79, what is true: the tree that a new member reads from a group, whatever its history, has sorted lists of unmerged leaves,
which are members below the parent.  Missing: trees that are made up (`C79_refuted`). -/
theorem C79_read_partial (P : CryptoProvider) (cs : CipherSuite) (l : LeafNode) (t : RatchetTree) (evs : List TreeEvent)
    (b rest : Bytes) (hs : RoomSteps P cs [some (.Leaf l)] evs t) (h0 : t ≠ []) (hw : t.NodesWF)
    (hb : RatchetTree.serialize t = .ok b) :
    ∃ u, RatchetTree.deserialize (b ++ rest) = .ok (u, rest) ∧ ∀ k i p, u.get (node k i) = some (.Parent p) →
      p.unmerged_leaves.Pairwise (fun a b => a.toNat < b.toNat) ∧
      ∀ x ∈ p.unmerged_leaves, below k i x.toNat ∧ ∃ m, u.get (node 0 x.toNat) = some (.Leaf m) := by
  obtain ⟨u, h1, h2⟩ := C64_read P cs l t evs b rest hs h0 hw hb
  have hg := (C64_agree P cs l t u evs hs h2).1
  refine ⟨u, h1, fun k i p hp => ?_⟩
  obtain ⟨k1, k2⟩ := C16_reachable P cs l t evs hs.steps k i p (by rw [hg]; exact hp)
  refine ⟨k1, fun x hx => ?_⟩
  obtain ⟨k3, m, k4⟩ := k2 x hx
  exact ⟨k3, m, by rw [← hg]; exact k4⟩

private abbrev suite1 : CipherSuite := .MLS_128_DHKEMX25519_AES128GCM_SHA256_Ed25519

set_option maxRecDepth 100000 in
/-- The hypotheses are met by a group with a path and a member who has come in after it. -/
example : ∃ evs b, RoomSteps sumProvider suite1 [some (.Leaf (signedLeaf 0 .Update))] evs sumFour ∧ sumFour ≠ [] ∧
    sumFour.NodesWF ∧ RatchetTree.serialize sumFour = .ok b ∧
    sumFour.get (node 2 0) = some (.Parent { sumRoot with unmerged_leaves := [3] }) := by
  have hm : sumThree.merge_update_path sumProvider suite1 0 sumPath = (sumFour.take 3 ++ [some (.Parent sumRoot)] ++
    (sumFour.drop 4).take 2 ++ [none], .ok ()) := by decide +kernel
  have hb : (RatchetTree.serialize sumFour).isOk = .ok true := by decide +kernel
  obtain ⟨b, hb⟩ := isOk_true.1 hb
  refine ⟨[.add (signedLeaf 1 .Update), .add (signedLeaf 2 .Update), .merge 0 sumPath, .add (signedLeaf 3 .Update)], b,
    .cons ⟨.inr (by decide), rfl⟩ (.inr (by decide)) <| .cons (t' := sumThree) ⟨.inr (by decide), rfl⟩ (.inr (by decide)) <|
    .cons ⟨by decide, .inl hm⟩ trivial <| .cons ⟨.inl ⟨3, by decide, by decide⟩, by decide +kernel⟩ (.inr (by decide)) <|
    .nil _, nofun, ?_, hb, rfl⟩
  intro n hn
  simp only [sumFour, List.mem_cons, Option.some.injEq, List.not_mem_nil, or_false, reduceCtorEq, false_or] at hn
  rcases hn with rfl | rfl | rfl | rfl | rfl | rfl
  · exact toyLeaf_wf 0
  · trivial
  · exact toyLeaf_wf 1
  · trivial
  · exact toyLeaf_wf 2
  · exact toyLeaf_wf 3

end Rmls
