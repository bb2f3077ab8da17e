import Verif.Spec.Ratchet

/-!
# The outcome of reading a session message

Every case, refusals included, in terms of stored values.
-/

namespace Axolotl.Spec
variable [C : Crypto]

omit C in
/-- The first receive chain with this ratchet key, with the chains before and after it. -/
structure FirstChain (s : SessionS) (eph : ECPub) (x : List ChainS) (c : ChainS) (y : List ChainS) : Prop where
  split : s.receiverChains = x ++ c :: y
  key : KeyOf c.senderRatchetKey eph
  first : ∀ z ∈ x, ¬ KeyOf z.senderRatchetKey eph

/-- The state can look at the message: it belongs to a session, the versions agree, and `c` is the receive chain the
message belongs to, after a ratchet step if its ratchet key is new. -/
structure Reads (s : SessionS) (m : WhisperMessage) (seed : Bytes) (s1 : SessionS) (x : List ChainS) (c : ChainS)
    (y : List ChainS) : Prop where
  session : s.senderChain.isSome
  version : m.messageVersion = 3
  opened : Opened s m.senderRatchetKey seed s1
  chain : FirstChain s1 m.senderRatchetKey x c y

/-- What one session state says to a message: the plaintext and the state that follows, or the exception. -/
inductive Verdict (s : SessionS) (m : WhisperMessage) (seed : Bytes) : Except Err (Bytes × SessionS) → Prop
  /-- no session -/
  | empty : s.senderChain = none → Verdict s m seed (.error .invalidMessage)
  /-- another protocol version -/
  | version : s.senderChain.isSome → m.messageVersion ≠ 3 → Verdict s m seed (.error .invalidMessage)
  /-- a new ratchet key with which no agreement can be computed -/
  | noAgreement {c : ChainS} : s.senderChain = some c → m.messageVersion = 3 →
      (∀ z ∈ s.receiverChains, ¬ KeyOf z.senderRatchetKey m.senderRatchetKey) →
      C.dh (c.senderRatchetKeyPrivate.getD []) m.senderRatchetKey = none ∨ C.dh (C.genPriv seed) m.senderRatchetKey = none →
      Verdict s m seed (.error .valueError)
  /-- the key was used before -/
  | used {s1 : SessionS} {x y : List ChainS} {c : ChainS} : Reads s m seed s1 x c y → m.counter < position c →
      m.counter ∉ storedCounters c → Verdict s m seed (.error .duplicateMessage)
  /-- too far ahead -/
  | tooFar {s1 : SessionS} {x y : List ChainS} {c : ChainS} : Reads s m seed s1 x c y → position c + 2000 < m.counter →
      Verdict s m seed (.error .invalidMessage)
  /-- the position after this message is no 32-bit number -/
  | last {s1 : SessionS} {x y : List ChainS} {c : ChainS} : Reads s m seed s1 x c y → position c ≤ m.counter →
      m.counter ≤ position c + 2000 → 2 ^ 32 ≤ m.counter + 1 → Verdict s m seed (.error .valueError)
  /-- not authentic -/
  | badMac {s1 : SessionS} {x y : List ChainS} {c c' : ChainS} {cipherKey macKey iv them me : Bytes} :
      Reads s m seed s1 x c y → Yields c m.counter cipherKey macKey iv c' →
      KeyOf s.remoteIdentityPublic them → KeyOf s.localIdentityPublic me →
      (∀ body, m.serialized ≠ body ++ (C.hmac macKey ((5 :: them) ++ (5 :: me) ++ body)).take 8) →
      Verdict s m seed (.error .invalidMessage)
  /-- authentic, but the body is not the encryption of anything -/
  | badBody {s1 : SessionS} {x y : List ChainS} {c c' : ChainS} {cipherKey macKey iv them me body : Bytes} :
      Reads s m seed s1 x c y → Yields c m.counter cipherKey macKey iv c' →
      KeyOf s.remoteIdentityPublic them → KeyOf s.localIdentityPublic me →
      m.serialized = body ++ (C.hmac macKey ((5 :: them) ++ (5 :: me) ++ body)).take 8 →
      (∀ pt, ¬ CbcDecryption cipherKey iv m.ciphertext pt) → Verdict s m seed (.error .valueError)
  /-- read -/
  | plaintext {pt : Bytes} {s' : SessionS} : Accepts s m seed pt s' → Verdict s m seed (.ok (pt, s'))

/-- What a record says: the current state decides, unless it refuses the message with `InvalidMessageException`; then the
archived ones are asked, newest first.  The state that reads the message becomes the current one. -/
inductive RecordVerdict (r : SessionRecord) (m : WhisperMessage) (seed : Bytes) (seeds : Nat → Bytes) :
    Except Err (Bytes × SessionRecord) → Prop
  | current {pt : Bytes} {s' : SessionS} : Verdict r.sessionState m seed (.ok (pt, s')) →
      RecordVerdict r m seed seeds (.ok (pt, { r with sessionState := s' }))
  | currentStops {e : Err} : Verdict r.sessionState m seed (.error e) → e ≠ .invalidMessage →
      RecordVerdict r m seed seeds (.error e)
  | archived {k : Nat} {p : SessionS} {pt : Bytes} {s' : SessionS} :
      Verdict r.sessionState m seed (.error .invalidMessage) →
      (∀ j q, j < k → r.previousStates[j]? = some q → Verdict q m (seeds j) (.error .invalidMessage)) →
      r.previousStates[k]? = some p → Verdict p m (seeds k) (.ok (pt, s')) →
      RecordVerdict r m seed seeds (.ok (pt,
        { r with sessionState := s', previousStates := r.sessionState :: r.previousStates.eraseIdx k }))
  | archivedStops {k : Nat} {p : SessionS} {e : Err} :
      Verdict r.sessionState m seed (.error .invalidMessage) →
      (∀ j q, j < k → r.previousStates[j]? = some q → Verdict q m (seeds j) (.error .invalidMessage)) →
      r.previousStates[k]? = some p → Verdict p m (seeds k) (.error e) → e ≠ .invalidMessage →
      RecordVerdict r m seed seeds (.error e)
  | nobody : Verdict r.sessionState m seed (.error .invalidMessage) →
      (∀ j q, r.previousStates[j]? = some q → Verdict q m (seeds j) (.error .invalidMessage)) →
      RecordVerdict r m seed seeds (.error .invalidMessage)

end Axolotl.Spec
