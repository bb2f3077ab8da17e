import Verif.Model.SessionCipher
import Verif.Model.Group
import Verif.Proofs.Protos
import Verif.Props.Cipher
import Verif.Props.Hkdf
import Verif.Props.Messages
import Verif.Props.Persist
import Verif.Props.KeyIds
import Verif.Spec.History
import Verif.Proofs.Chains
import Verif.Proofs.Decrypt
import Verif.Proofs.Reach
import Verif.Props.Session
import Verif.Props.Builder
import Verif.Proofs.Shape
import Verif.Props.Records
import Verif.Props.PreKeys
import Verif.Proofs.Spine
import Verif.Spec.Setup
import Verif.Proofs.Setup
import Verif.Proofs.Contact
import Verif.Props.Setup
import Verif.Proofs.KeyExchange
import Verif.Props.KeyExchange
import Verif.Spec.Conversation
import Verif.Proofs.Conversation
import Verif.Proofs.ConvWorld
import Verif.Props.Conversation
import Verif.Spec.Receive
import Verif.Proofs.ChainInv
import Verif.Proofs.Replay
import Verif.Props.Replay
import Verif.Spec.Schedule
import Verif.Props.Schedule
import Verif.Props.Announce
import Verif.Spec.Sending
import Verif.Proofs.NoReuse
import Verif.Props.NoReuse
import Verif.Proofs.SeedFree
import Verif.Props.Crash
import Verif.Props.Concurrent
import Verif.Proofs.Group
import Verif.Proofs.GroupSteps
import Verif.Spec.Group
import Verif.Props.Group
import Verif.Props.GroupDelivery
import Verif.Props.Names
import Verif.Spec.ByteStore
import Verif.Proofs.Stored
import Verif.Props.ByteStore
import Verif.Spec.Format
import Verif.Props.Format
import Verif.Props.Randomness
import Verif.Spec.Ratchet
import Verif.Props.Ratchet
import Verif.Props.SetupState
import Verif.Props.Pinning
import Verif.Spec.Verdict
import Verif.Props.Verdict
import Verif.Spec.Calls
import Verif.Props.Calls
import Verif.Spec.Grammar
import Verif.Props.Grammar
import Verif.Spec.GroupCalls
import Verif.Props.GroupCalls
import Verif.Spec.Storage
import Verif.Props.Storage
import Verif.Spec.Application
import Verif.Props.Application
import Verif.Props.Size
import Verif.Model.InMemory
import Verif.Spec.InMemory
import Verif.Props.InMemory
import Verif.Spec.MessageSize
import Verif.Props.MessageSize
import Verif.Spec.GroupMemory
import Verif.Props.GroupSize
import Verif.Model.Steps
import Verif.Spec.Interleave
import Verif.Spec.Locked
import Verif.Proofs.Interleave
import Verif.Proofs.Locked
import Verif.Props.Interleave
import Verif.Props.Locked
import Verif.Spec.Fault
import Verif.Props.Fault
import Verif.Spec.Sessions
import Verif.Proofs.Sessions
import Verif.Props.Sessions
import Verif.Model.Live
import Verif.Spec.Live
import Verif.Proofs.Live
import Verif.Proofs.LiveGroup
import Verif.Props.Live
import Verif.Spec.Room
import Verif.Proofs.Room
import Verif.Props.Room
import Verif.Model.Helpers
import Verif.Spec.Helpers
import Verif.Props.Helpers
import Verif.Real.Instance
import Verif.Real.Vectors
import Verif.Props.Primitives
import Verif.Props.Version2
import Verif.Props.Erasure
import Verif.Props.Findings
import Verif.Props.Objects
import Verif.Props.Rewrapped
import Verif.Props.Reencoded
import Verif.Props.Active
import Verif.Props.System
import Verif.Props.Society
import Verif.Spec.Secrecy
import Verif.Proofs.Derive
import Verif.Proofs.Secrecy
import Verif.Props.Secrecy
import Verif.Spec.GroupSecrecy
import Verif.Proofs.GroupDerive
import Verif.Proofs.GroupKept
import Verif.Props.GroupSecrecy
import Verif.Spec.Deniable
import Verif.Props.Deniable
import Verif.Spec.Restore
import Verif.Proofs.Restore
import Verif.Props.Restore
import Verif.Spec.GroupBackup
import Verif.Proofs.GroupBackup
import Verif.Props.GroupBackup
import Verif.Spec.Content
import Verif.Spec.GroupContent
import Verif.Proofs.Content
import Verif.Props.Content
import Verif.Props.GroupContent
import Verif.Spec.Forge
import Verif.Proofs.Forge
import Verif.Proofs.Craft
import Verif.Props.Forge
import Verif.Props.GroupForge
import Verif.Spec.FirstUse
import Verif.Proofs.FirstUse
import Verif.Props.FirstUse
import Verif.Spec.RecordTheft
import Verif.Props.ActiveSecrecy
import Verif.Spec.Takeover
import Verif.Props.Takeover
import Verif.Spec.EndToEnd
import Verif.Props.EndToEnd
import Verif.Spec.Recovery
import Verif.Props.Recovery
import Verif.Spec.Renewal
import Verif.Spec.RenewalForge
import Verif.Proofs.Renewal
import Verif.Props.Renewal
import Verif.Props.RenewalForge
import Verif.Spec.Removal
import Verif.Props.Removal
import Verif.Spec.FirstSociety
import Verif.Props.FirstSociety
import Verif.Spec.TheftSociety
import Verif.Props.TheftSociety
import Verif.Model.Work
import Verif.Spec.Work
import Verif.Proofs.Work
import Verif.Proofs.WorkBound
import Verif.Props.Work
import Verif.Props.GroupWork
import Verif.Spec.Trace
import Verif.Spec.Timing
import Verif.Proofs.Retell
import Verif.Proofs.Trace
import Verif.Props.Trace
import Verif.Proofs.Timing
import Verif.Props.Timing
import Verif.Spec.Draws
import Verif.Proofs.Draws
import Verif.Props.Draws
import Verif.Spec.Signing
import Verif.Proofs.Signing
import Verif.Props.Signing
import Verif.Props.GroupSigners
import Verif.Spec.Agreements
import Verif.Proofs.Agreements
import Verif.Props.Agreements
import Verif.Props.OurKeys
import Verif.Props.Ciphering
import Verif.Props.Hashing
import Verif.Props.Steps
import Verif.Props.Steps2
