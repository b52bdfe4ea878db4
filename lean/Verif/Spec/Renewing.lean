import Verif.Spec.Client
import Verif.Spec.Sending
/-
Renewing one's keys: the commit with a path that a member writes, after RFC 9420, sections 7.5 and 12.4.  The library has no
function that makes it.
-/
namespace Rmls.Spec
open Enc

/-- Section 7.5: the leaf that the owner of `l` puts into a path: a new encryption key, the parent hash, and a new signature. -/
def renewedLeaf (l : LeafNode) (key out sig : Bytes) : LeafNode :=
  ⟨{ l.payload with encryption_key := key, leaf_node_source := .Commit out }, sig⟩

/-- Section 12.4: the commit with this leaf and these nodes of the path, and the proposals in it. -/
def renewal (ctx : GroupContext) (c : LeafIndex) (ad : Bytes) (ps : List Proposal) (l : LeafNode) (key : Bytes)
    (nodes : List UpdatePathNode) (out sig : Bytes) : FramedContent :=
  ⟨ctx.group_id, ctx.epoch, .Member c, ad, .Commit ⟨ps.map .Proposal, some ⟨renewedLeaf l key out sig, nodes⟩⟩⟩

/-- The commit, without the parent hash and the signature of the leaf, has an encoding that leaves room for these and for the
signature of the message. -/
def Renewable (ctx : GroupContext) (c : LeafIndex) (ad : Bytes) (ps : List Proposal) (l : LeafNode) (key : Bytes)
    (nodes : List UpdatePathNode) : Prop :=
  (framedContentTBS .MLS10 .PublicMessage (renewal ctx c ad ps l key nodes [] []) ctx).fits ∧
  (framedContentTBS .MLS10 .PublicMessage (renewal ctx c ad ps l key nodes [] []) ctx).bytes.length + 2048 < 2 ^ 30

end Rmls.Spec
