import Verif.Model.ApplyWork
import Verif.Model.Basic
import Verif.Model.Client
import Verif.Model.Compare
import Verif.Model.Config
import Verif.Model.Crypto
import Verif.Model.Enums
import Verif.Model.Epochs
import Verif.Model.Framing
import Verif.Model.Group
import Verif.Model.KeyPackage
import Verif.Model.KeySchedule
import Verif.Model.KeyStore
import Verif.Model.LeafNode
import Verif.Model.MergeWork
import Verif.Model.MessageWork
import Verif.Model.Proposal
import Verif.Model.RatchetTree
import Verif.Model.Receiver
import Verif.Model.Release
import Verif.Model.SecretTree
import Verif.Model.Serde
import Verif.Model.Suites
import Verif.Model.Tables
import Verif.Model.Threads
import Verif.Model.TreeMath
import Verif.Model.Vectors
import Verif.Model.Welcome
import Verif.Model.Wire
import Verif.Model.Work
import Verif.Spec.Agree
import Verif.Spec.ArraySize
import Verif.Spec.Authenticator
import Verif.Spec.Author
import Verif.Spec.Building
import Verif.Spec.Chain
import Verif.Spec.Client
import Verif.Spec.Codecs
import Verif.Spec.Commit
import Verif.Spec.Compare
import Verif.Spec.Contents
import Verif.Spec.Defects
import Verif.Spec.Derivation
import Verif.Spec.Extensions
import Verif.Spec.Forgery
import Verif.Spec.Framing
import Verif.Spec.Grease
import Verif.Spec.Group
import Verif.Spec.Hidden
import Verif.Spec.History
import Verif.Spec.Integrity
import Verif.Spec.Invite
import Verif.Spec.Joiner
import Verif.Spec.KeySchedule
import Verif.Spec.KeyStore
import Verif.Spec.Knowledge
import Verif.Spec.Labels
import Verif.Spec.LeafNode
import Verif.Spec.Lockout
import Verif.Spec.Merge
import Verif.Spec.Newcomers
import Verif.Spec.Onward
import Verif.Spec.Orderly
import Verif.Spec.Passive
import Verif.Spec.PathSize
import Verif.Spec.PrivateMessage
import Verif.Spec.Proposal
import Verif.Spec.Public
import Verif.Spec.RatchetTree
import Verif.Spec.Reasons
import Verif.Spec.Receiver
import Verif.Spec.Release
import Verif.Spec.Renewing
import Verif.Spec.Robust
import Verif.Spec.Secrecy
import Verif.Spec.Sending
import Verif.Spec.Stream
import Verif.Spec.Suites
import Verif.Spec.Tables
import Verif.Spec.Tag
import Verif.Spec.Threads
import Verif.Spec.Tree
import Verif.Spec.TreeChecks
import Verif.Spec.TreeHash
import Verif.Spec.Turns
import Verif.Spec.Unchecked
import Verif.Spec.Varint
import Verif.Spec.Vectors
import Verif.Spec.Welcome
import Verif.Spec.WellFormed
import Verif.Spec.Wire
import Verif.Spec.Work
import Verif.Proofs.ApplyWork
import Verif.Proofs.Codec
import Verif.Proofs.Codecs
import Verif.Proofs.Cut
import Verif.Proofs.Defects
import Verif.Proofs.Framing
import Verif.Proofs.Group
import Verif.Proofs.History
import Verif.Proofs.Inj
import Verif.Proofs.Integrity
import Verif.Proofs.Invariant
import Verif.Proofs.Joiner
import Verif.Proofs.KeySchedule
import Verif.Proofs.KeyStore
import Verif.Proofs.Labels
import Verif.Proofs.LeafNode
import Verif.Proofs.Merge
import Verif.Proofs.MergeWork
import Verif.Proofs.MessageWork
import Verif.Proofs.Onward
import Verif.Proofs.PathSize
import Verif.Proofs.PrivateMessage
import Verif.Proofs.Proposal
import Verif.Proofs.RatchetTree
import Verif.Proofs.RatchetWire
import Verif.Proofs.ReadErrors
import Verif.Proofs.Release
import Verif.Proofs.Resolve
import Verif.Proofs.Robust
import Verif.Proofs.SecretTree
import Verif.Proofs.Serde
import Verif.Proofs.Tables
import Verif.Proofs.Threads
import Verif.Proofs.TreeChecks
import Verif.Proofs.TreeHash
import Verif.Proofs.TreeMath
import Verif.Proofs.WireFault
import Verif.Proofs.WireLaw
import Verif.Proofs.WireSpec
import Verif.Proofs.Work
import Verif.Props.Admit
import Verif.Props.Agree
import Verif.Props.ApplyWork
import Verif.Props.ArraySize
import Verif.Props.Authenticator
import Verif.Props.Author
import Verif.Props.Builder
import Verif.Props.Building
import Verif.Props.Chain
import Verif.Props.Client
import Verif.Props.ClientPath
import Verif.Props.Codec
import Verif.Props.Commit
import Verif.Props.Compare
import Verif.Props.Config
import Verif.Props.Contents
import Verif.Props.Depth
import Verif.Props.Derivation
import Verif.Props.Extensions
import Verif.Props.Forgery
import Verif.Props.Framing
import Verif.Props.Grease
import Verif.Props.Group
import Verif.Props.Hidden
import Verif.Props.History
import Verif.Props.Integrity
import Verif.Props.Invariant
import Verif.Props.Invite
import Verif.Props.Joiner
import Verif.Props.KeySchedule
import Verif.Props.KeyStore
import Verif.Props.Knowledge
import Verif.Props.Labels
import Verif.Props.LeafNode
import Verif.Props.Lockout
import Verif.Props.Members
import Verif.Props.Merge
import Verif.Props.MergeExact
import Verif.Props.MergeWork
import Verif.Props.MessageWork
import Verif.Props.Newcomers
import Verif.Props.Onward
import Verif.Props.Order
import Verif.Props.Orderly
import Verif.Props.Passive
import Verif.Props.PathSize
import Verif.Props.PrivateMessage
import Verif.Props.Proposal
import Verif.Props.Providers
import Verif.Props.Public
import Verif.Props.Reasons
import Verif.Props.Receiver
import Verif.Props.Release
import Verif.Props.Renewing
import Verif.Props.Resolve
import Verif.Props.Retained
import Verif.Props.Robust
import Verif.Props.Secrecy
import Verif.Props.SecretTree
import Verif.Props.Sending
import Verif.Props.Size
import Verif.Props.Sizes
import Verif.Props.Sorted
import Verif.Props.Suites
import Verif.Props.Tables
import Verif.Props.Tag
import Verif.Props.Threads
import Verif.Props.Toy
import Verif.Props.TreeChecks
import Verif.Props.TreeHash
import Verif.Props.TreeMath
import Verif.Props.Truncated
import Verif.Props.Turns
import Verif.Props.Unchecked
import Verif.Props.Vectors
import Verif.Props.VectorsGroup
import Verif.Props.VectorsIgnored
import Verif.Props.VectorsKeys
import Verif.Props.VectorsTree
import Verif.Props.Welcome
import Verif.Props.Work
import Verif.Exec.Crypto
import Verif.Exec.Follow
import Verif.Exec.Run
