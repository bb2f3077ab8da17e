import Verif.Spec.Session

/-!
# Vocabulary for receive chains

What a stored session state knows about one ratchet key of the peer, read directly off the stored fields.
-/

namespace Axolotl.Spec

/-- The receive chain stored for the peer's ratchet key `key`. -/
def recvChain (s : SessionS) (key : ECPub) : Option ChainS :=
  s.receiverChains.find? fun c => c.senderRatchetKey == some (5 :: key)

/-- The counter a receive chain expects next. -/
def position (c : ChainS) : Nat := ((c.chainKey.map fun k => k.index.getD 0)).getD 0

/-- The current chain key of a receive chain. -/
def chainKeyBytes (c : ChainS) : Bytes := ((c.chainKey.map fun k => k.key.getD [])).getD []

/-- The counters of the skipped messages whose keys are stored. -/
def storedCounters (c : ChainS) : List Nat := c.messageKeys.map fun e => e.index.getD 0

/-- Message number `n` under ratchet key `key` has been used up: its number is behind the chain, and no key is
stored for it. -/
def Consumed (s : SessionS) (key : ECPub) (n : Nat) : Prop :=
  ∃ c, recvChain s key = some c ∧ n < position c ∧ n ∉ storedCounters c

/-- A receive chain as the library keeps it. -/
structure GoodChain (c : ChainS) : Prop where
  key : ∃ k : Bytes, c.senderRatchetKey = some (5 :: k) ∧ k.length = 32
  chain : ∃ (k : Bytes) (i : Nat), c.chainKey = some { key := some k, index := some i } ∧ i < 2 ^ 32
  below : ∀ n ∈ storedCounters c, n < position c
  distinct : (storedCounters c).Nodup

/-- All receive chains are as the library keeps them, with different ratchet keys. -/
structure GoodChains (s : SessionS) : Prop where
  good : ∀ c ∈ s.receiverChains, GoodChain c
  keys : (s.receiverChains.map fun c => c.senderRatchetKey).Nodup

end Axolotl.Spec

namespace Axolotl.Spec
variable [C : Crypto]

/-- What the library does to a session state that it keeps. -/
inductive StateStep (s : SessionS) : SessionS → Prop
  /-- nothing -/
  | same : StateStep s s
  /-- a message was encrypted with it -/
  | encrypt {pt : Bytes} {c : Ciphertext} {s' : SessionS} :
      SessionCipher.encryptWithState s pt = .ok (c, s') → StateStep s s'
  /-- a message was decrypted with it -/
  | decrypt {m : WhisperMessage} {seed pt : Bytes} {s' : SessionS} :
      SessionCipher.decryptWithSessionState s m seed = .ok (pt, s') → StateStep s s'
  /-- our half of a key exchange was remembered in it -/
  | pending {q : Nat} {base ratchet identity : KeyPair} {s' : SessionS} :
      SessionState.setPendingKeyExchange s q base ratchet identity = .ok s' → StateStep s s'

/-- The session that was in state `s` in the stores `w` is, some calls later, in state `s'` in the stores `w'`,
and its receive chain for `key` was there all the time. -/
inductive KeptSession (a : Address) (key : ECPub) (w : World) (s : SessionS) : World → SessionS → Prop
  | refl : KeptSession a key w s w s
  | step {w1 : World} {s1 s2 : SessionS} {call : Call} {r : SessionRecord} : KeptSession a key w s w1 s1 →
      (call.next w1).sessions a = some r → s2 ∈ states r → StateStep s1 s2 → recvChain s2 key ≠ none →
      KeptSession a key w s (call.next w1) s2

/-- The last eight bytes of the message are the MAC under this key for the identities of the session. -/
def Authentic (s : SessionS) (m : WhisperMessage) (macKey : Bytes) : Prop :=
  ∃ (rid lid body : Bytes), s.remoteIdentityPublic = some (5 :: rid) ∧ rid.length = 32 ∧
    s.localIdentityPublic = some (5 :: lid) ∧ lid.length = 32 ∧
    m.serialized = body ++ (C.hmac macKey ((5 :: rid) ++ (5 :: lid) ++ body)).take 8

/-- What is stored for skipped message number `n`, `d` steps after the chain key `k`. -/
def skippedEntry (k : Bytes) (d n : Nat) : MessageKeyS :=
  { index := some n, cipherKey := some (cipherKeyOf (chainAt k d)), macKey := some (macKeyOf (chainAt k d)),
    iv := some (ivOf (chainAt k d)) }

end Axolotl.Spec
