import Verif.Spec.Format
import Verif.Spec.Receive
import Verif.Spec.Setup

/-!
# The double ratchet as a transition of stored states

Exactly which state follows which when a message is accepted, and exactly which state setup creates, written as values
of the stored structure.  No function of `Model/SessionState.lean`, `Model/Ratchet.lean` or `Model/SessionCipher.lean` is
used.
-/

namespace Axolotl.Spec
variable [C : Crypto]

/-- The five newest receive chains. -/
def newestFive (cs : List ChainS) : List ChainS := cs.drop (cs.length - 5)

/-- A chain at position 0 with this chain key. -/
def startOf (chainKey : Bytes) : Option ChainKeyS := some { key := some chainKey, index := some 0 }

/-- The state before message keys are looked up: the state itself if the ratchet key `eph` is known, otherwise the state
after a ratchet step with `eph` and the new key pair drawn from `seed`. -/
inductive Opened (s : SessionS) (eph : ECPub) (seed : Bytes) : SessionS → Prop
  | known {c : ChainS} : c ∈ s.receiverChains → KeyOf c.senderRatchetKey eph → Opened s eph seed s
  | ratchet {c : ChainS} {d1 d2 : Bytes} : (∀ x ∈ s.receiverChains, ¬ KeyOf x.senderRatchetKey eph) →
      s.senderChain = some c → C.dh (c.senderRatchetKeyPrivate.getD []) eph = some d1 →
      C.dh (C.genPriv seed) eph = some d2 →
      Opened s eph seed { s with
        rootKey := some (ratchetRoot (ratchetRoot (s.rootKey.getD []) d1) d2)
        receiverChains := newestFive (s.receiverChains ++
          [{ senderRatchetKey := some (5 :: eph), chainKey := startOf (ratchetChain (s.rootKey.getD []) d1) }])
        previousCounter := some (sendCounter s - 1)
        senderChain := some { c with
          senderRatchetKey := some (5 :: C.genPub (C.genPriv seed))
          senderRatchetKeyPrivate := some (C.genPriv seed)
          chainKey := startOf (ratchetChain (ratchetRoot (s.rootKey.getD []) d1) d2) } }

/-- A receive chain gives out the cipher key, MAC key and IV of message number `n`, and what is left of it. -/
inductive Yields (c : ChainS) (n : Nat) : Bytes → Bytes → Bytes → ChainS → Prop
  /-- from the keys stored for skipped messages -/
  | stored {x y : List MessageKeyS} {e : MessageKeyS} : n < position c → c.messageKeys = x ++ e :: y →
      e.index.getD 0 = n → (∀ z ∈ x, z.index.getD 0 ≠ n) →
      Yields c n (e.cipherKey.getD []) (e.macKey.getD []) (e.iv.getD []) { c with messageKeys := x ++ y }
  /-- by stepping the chain, storing the keys of the messages skipped -/
  | ahead {k : Bytes} : position c ≤ n → n ≤ position c + 2000 → n + 1 < 2 ^ 32 →
      k = chainAt (chainKeyBytes c) (n - position c) →
      Yields c n (cipherKeyOf k) (macKeyOf k) (ivOf k) { c with
        messageKeys := c.messageKeys ++
          (List.range (n - position c)).map fun d => skippedEntry (chainKeyBytes c) d (position c + d)
        chainKey := some { key := some (chainAt (chainKeyBytes c) (n - position c + 1)), index := some (n + 1) } }

/-- State `s` accepts the message with this plaintext, and becomes `s'`. -/
inductive Accepts (s : SessionS) (m : WhisperMessage) (seed pt : Bytes) : SessionS → Prop
  | intro {s1 : SessionS} {x y : List ChainS} {c c' : ChainS} {cipherKey macKey iv them me body : Bytes} :
      s.senderChain.isSome → m.messageVersion = 3 →
      Opened s m.senderRatchetKey seed s1 →
      s1.receiverChains = x ++ c :: y → KeyOf c.senderRatchetKey m.senderRatchetKey →
      (∀ z ∈ x, ¬ KeyOf z.senderRatchetKey m.senderRatchetKey) →
      Yields c m.counter cipherKey macKey iv c' →
      KeyOf s.remoteIdentityPublic them → KeyOf s.localIdentityPublic me →
      m.serialized = body ++ (C.hmac macKey ((5 :: them) ++ (5 :: me) ++ body)).take 8 →
      (cipherKey.length = 16 ∨ cipherKey.length = 24 ∨ cipherKey.length = 32) ∧ iv.length = 16 →
      CbcDecryption cipherKey iv m.ciphertext pt →
      Accepts s m seed pt { s1 with receiverChains := x ++ c' :: y, pendingPreKey := none }

/-- The initiator's new state: it can receive on the first chain of the key material `okm` under the peer's ratchet key
`rk`, and sends after a ratchet step with the key pair drawn from `seed`, `secret` being the agreement of the two. -/
def initiatorState (me them : ECPub) (okm : Bytes) (rk : ECPub) (seed secret : Bytes) : SessionS :=
  { sessionVersion := some 3
    localIdentityPublic := some (5 :: me)
    remoteIdentityPublic := some (5 :: them)
    rootKey := some (ratchetRoot (okm.take 32) secret)
    receiverChains := [{ senderRatchetKey := some (5 :: rk), chainKey := startOf (okm.drop 32) }]
    senderChain := some
      { senderRatchetKey := some (5 :: C.genPub (C.genPriv seed)), senderRatchetKeyPrivate := some (C.genPriv seed),
        chainKey := startOf (ratchetChain (okm.take 32) secret) } }

omit C in
/-- The answering side's new state: it sends on the first chain under its ratchet key pair. -/
def answererState (me them : ECPub) (okm : Bytes) (ratchet : KeyPair) : SessionS :=
  { sessionVersion := some 3
    localIdentityPublic := some (5 :: me)
    remoteIdentityPublic := some (5 :: them)
    rootKey := some (okm.take 32)
    senderChain := some
      { senderRatchetKey := some (5 :: ratchet.pub), senderRatchetKeyPrivate := some ratchet.priv,
        chainKey := startOf (okm.drop 32) } }

/-- The key material of setup as the answering side computes it: its identity `b`, signed prekey `spk` and one-time
prekey `otk` (private) against the initiator's identity and base key. -/
def AnswerMaterial (b spk : ECPriv) (otk : Option ECPriv) (idA base : ECPub) (okm : Bytes) : Prop :=
  ∃ d1 d2 d3 d4, C.dh spk idA = some d1 ∧ C.dh b base = some d2 ∧ C.dh spk base = some d3 ∧
    otk.elim (d4 = []) (fun k => C.dh k base = some d4) ∧
    okm = hkdf [] (List.replicate 32 0xFF ++ d1 ++ d2 ++ d3 ++ d4) textInfo 64

/-- The record after a new session `s` was set up: what was there is archived, newest first, forty at most. -/
def withNewSession (old : Option SessionRecord) (s : SessionS) (new : SessionRecord) : Prop :=
  new.sessionState = s ∧ new.previousStates = (match old with | none => [] | some r => (states r).take 40)

omit C in
/-- The key pair stored in these two fields. -/
def PairOf (pub priv : Option Bytes) (k : KeyPair) : Prop := KeyOf pub k.pub ∧ priv.getD [] = k.priv

omit C in
/-- The `i`th four bytes of a key as a signed big-endian number. -/
def word (k : ECPub) (i : Nat) : Int :=
  let n := (((k.drop (4 * i)).take 4).foldl (fun n (b : UInt8) => 256 * n + b.toNat) 0 : Nat)
  if n < 2 ^ 31 then (n : Int) else (n : Int) - 2 ^ 32

omit C in
/-- The order on base keys that decides who takes the initiator's role in a key exchange. -/
def SmallerKey (a b : ECPub) : Prop := ∃ i, i < 8 ∧ word a i < word b i ∧ ∀ j, j < i → word a j = word b j

/-- The state a key exchange creates from our identity, base and ratchet key pairs and the peer's public keys: the side
with the smaller base key takes the initiator's role and draws its sending key from `seed`. -/
inductive Exchanged (identity base ratchet : KeyPair) (theirIdentity theirBase theirRatchet : ECPub) (seed : Bytes) :
    SessionS → Prop
  | initiator {okm secret : Bytes} : SmallerKey base.pub theirBase →
      SetupMaterial identity.priv base.priv theirIdentity theirBase none okm →
      C.dh (C.genPriv seed) theirRatchet = some secret →
      Exchanged identity base ratchet theirIdentity theirBase theirRatchet seed
        (initiatorState identity.pub theirIdentity okm theirRatchet seed secret)
  | answerer {okm : Bytes} : ¬ SmallerKey base.pub theirBase →
      AnswerMaterial identity.priv base.priv none theirIdentity theirBase okm →
      Exchanged identity base ratchet theirIdentity theirBase theirRatchet seed
        (answererState identity.pub theirIdentity okm ratchet)

omit C in
/-- The current state's pending key exchange. -/
def pendingOf (old : Option SessionRecord) : Option PendingKeyExchangeS := old.bind fun r => r.sessionState.pendingKeyExchange

omit C in
/-- The three key pairs kept for a pending key exchange. -/
structure PendingKeys (p : PendingKeyExchangeS) (identity base ratchet : KeyPair) : Prop where
  identity : PairOf p.localIdentityKey p.localIdentityKeyPrivate identity
  base : PairOf p.localBaseKey p.localBaseKeyPrivate base
  ratchet : PairOf p.localRatchetKey p.localRatchetKeyPrivate ratchet

end Axolotl.Spec
