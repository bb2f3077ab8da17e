import Verif.Spec.Verdict
import Verif.Spec.History

/-!
# The whole session API as a relation on stored values

For every call: which store writes it makes and what it returns or raises, in every case.  No function of
`Model/SessionState.lean`, `Model/Ratchet.lean`, `Model/RatchetingSession.lean` or `Model/SessionCipher.lean` is used (only
the types of calls, messages and outcomes).
-/

namespace Axolotl.Spec
variable [C : Crypto]

/-! ## Sending -/

/-- The state after the message under the current sending chain key was sent. -/
def afterSending (s : SessionS) (c : ChainS) : SessionS :=
  { s with senderChain := some { c with
      chainKey := some { key := some (C.hmac (sendKey s) [2]), index := some (sendCounter s + 1) } } }

/-- The session message a state sends: `ct` is the body, `me` and `you` the two identities. -/
def sentMessage (s : SessionS) (ratchetKey me you : ECPub) (ct : Bytes) : WhisperMessage :=
  let body := sessionMessage ratchetKey (sendCounter s) (s.previousCounter.getD 0) ct
  { serialized := body ++ (C.hmac (macKeyOf (sendKey s)) ((5 :: me) ++ (5 :: you) ++ body)).take 8
    senderRatchetKey := ratchetKey, messageVersion := 3, counter := sendCounter s
    previousCounter := s.previousCounter.getD 0, ciphertext := ct }

/-- Encrypting `pt` with a state. -/
inductive Sends (s : SessionS) (pt : Bytes) : Except Err (Ciphertext × SessionS) → Prop
  /-- no session -/
  | empty : s.senderChain = none → Sends s pt (.error .indexError)
  /-- the counter after this message is no 32-bit number -/
  | exhausted : s.senderChain.isSome → 2 ^ 32 ≤ sendCounter s + 1 → Sends s pt (.error .valueError)
  /-- the signed prekey id to announce is negative -/
  | negative {p : PendingPreKeyS} : s.senderChain.isSome → s.pendingPreKey = some p → p.signedPreKeyId.getD 0 < 0 →
      Sends s pt (.error .valueError)
  /-- an ordinary message -/
  | message {c : ChainS} {ratchetKey me you ct : Bytes} : s.senderChain = some c → sendCounter s + 1 < 2 ^ 32 →
      s.pendingPreKey = none → KeyOf c.senderRatchetKey ratchetKey → KeyOf s.localIdentityPublic me →
      KeyOf s.remoteIdentityPublic you → CbcEncryption (cipherKeyOf (sendKey s)) (ivOf (sendKey s)) pt ct →
      Sends s pt (.ok (.whisper (sentMessage s ratchetKey me you ct), afterSending s c))
  /-- a message that announces the session -/
  | announcement {c : ChainS} {p : PendingPreKeyS} {signedId : Nat} {ratchetKey me you baseKey ct : Bytes} :
      s.senderChain = some c → sendCounter s + 1 < 2 ^ 32 →
      s.pendingPreKey = some p → p.signedPreKeyId.getD 0 = (signedId : Int) → KeyOf p.baseKey baseKey →
      KeyOf c.senderRatchetKey ratchetKey → KeyOf s.localIdentityPublic me →
      KeyOf s.remoteIdentityPublic you → CbcEncryption (cipherKeyOf (sendKey s)) (ivOf (sendKey s)) pt ct →
      Sends s pt (.ok (.preKey
        { serialized := preKeyMessage p.preKeyId baseKey me (sentMessage s ratchetKey me you ct).serialized
            (s.localRegistrationId.getD 0) signedId
          version := 3, registrationId := s.localRegistrationId.getD 0, preKeyId := p.preKeyId, signedPreKeyId := signedId
          baseKey := baseKey, identityKey := me, message := sentMessage s ratchetKey me you ct }, afterSending s c))

/-! ## Setup -/

omit C in
/-- The record after a new session `s` was set up: what was there is archived, newest first, forty at most. -/
def newRecord (old : Option SessionRecord) (s : SessionS) : SessionRecord :=
  { fresh := old.isNone, sessionState := s
    previousStates := match old with | none => [] | some r => (states r).take 40 }

omit C in
/-- A number that fits an unsigned 32-bit field. -/
def Fits (i : Int) : Prop := 0 ≤ i ∧ i < 2 ^ 32

omit C in
/-- No public key is stored here; reading it raises this. -/
inductive Unreadable (stored : Option Bytes) : Err → Prop
  | empty : stored.getD [] = [] → Unreadable stored .indexError
  | type {t : UInt8} {x : Bytes} : stored = some (t :: x) → t ≠ 5 → Unreadable stored .invalidKey

/-- The session that processing a bundle creates, or what it raises once the identity key is trusted. -/
inductive FromBundle (w : World) (b : PreKeyBundle) (baseSeed ratchetSeed : Bytes) : Except Err SessionS → Prop
  | noSignedPreKey : b.signedPreKey = none → FromBundle w b baseSeed ratchetSeed (.error .invalidKey)
  | badSignature {spk : ECPub} : b.signedPreKey = some spk →
      C.verifySig b.identityKey (5 :: spk) b.signedPreKeySignature = some false →
      FromBundle w b baseSeed ratchetSeed (.error .invalidKey)
  | unverifiable {spk : ECPub} : b.signedPreKey = some spk →
      C.verifySig b.identityKey (5 :: spk) b.signedPreKeySignature = none →
      FromBundle w b baseSeed ratchetSeed (.error .valueError)
  | noAgreement {spk : ECPub} : b.signedPreKey = some spk →
      C.verifySig b.identityKey (5 :: spk) b.signedPreKeySignature = some true →
      (∀ okm, ¬ SetupMaterial w.identityKeyPair.priv (C.genPriv baseSeed) b.identityKey spk b.preKey okm) ∨
        C.dh (C.genPriv ratchetSeed) spk = none →
      FromBundle w b baseSeed ratchetSeed (.error .valueError)
  | badNumber {spk : ECPub} : b.signedPreKey = some spk →
      C.verifySig b.identityKey (5 :: spk) b.signedPreKeySignature = some true →
      ¬ Fits w.registrationId ∨ ¬ Fits b.registrationId ∨ ¬ (-2 ^ 31 ≤ b.signedPreKeyId ∧ b.signedPreKeyId < 2 ^ 31) ∨
        (b.preKey.isSome ∧ ¬ Fits b.preKeyId) →
      FromBundle w b baseSeed ratchetSeed (.error .valueError)
  | session {spk : ECPub} {okm secret : Bytes} : b.signedPreKey = some spk →
      C.verifySig b.identityKey (5 :: spk) b.signedPreKeySignature = some true →
      SetupMaterial w.identityKeyPair.priv (C.genPriv baseSeed) b.identityKey spk b.preKey okm →
      C.dh (C.genPriv ratchetSeed) spk = some secret →
      Fits w.registrationId → Fits b.registrationId → -2 ^ 31 ≤ b.signedPreKeyId → b.signedPreKeyId < 2 ^ 31 →
      (b.preKey.isSome → Fits b.preKeyId) →
      FromBundle w b baseSeed ratchetSeed (.ok
        { initiatorState w.identityKeyPair.pub b.identityKey okm spk ratchetSeed secret with
          pendingPreKey := some { preKeyId := b.preKey.map fun _ => b.preKeyId.toNat, signedPreKeyId := some b.signedPreKeyId,
                                  baseKey := some (5 :: C.genPub (C.genPriv baseSeed)) }
          localRegistrationId := some w.registrationId.toNat
          remoteRegistrationId := some b.registrationId.toNat
          aliceBaseKey := some (5 :: C.genPub (C.genPriv baseSeed)) })

/-- The one-time prekey a prekey message names. -/
inductive OneTime (w : World) : Option Nat → Except Err (Option KeyPair) → Prop
  | unnamed : OneTime w none (.ok none)
  | missing {i : Nat} : w.preKeys i = none → OneTime w (some i) (.error .invalidKeyId)
  | unreadable {i : Nat} {p : PreKeyRecord} {e : Err} : w.preKeys i = some p → Unreadable p.publicKey e →
      OneTime w (some i) (.error e)
  | pair {i : Nat} {p : PreKeyRecord} {k : KeyPair} : w.preKeys i = some p → PairOf p.publicKey p.privateKey k →
      OneTime w (some i) (.ok (some k))

/-- The session that a prekey message with a new base key creates, or what it raises once the identity key is trusted. -/
inductive FromPreKeyMessage (w : World) (m : PreKeyWhisperMessage) : Except Err SessionS → Prop
  | noSignedPreKey : w.signedPreKeys m.signedPreKeyId = none → FromPreKeyMessage w m (.error .invalidKeyId)
  | badSignedPreKey {p : SignedPreKeyRecord} {e : Err} : w.signedPreKeys m.signedPreKeyId = some p →
      Unreadable p.publicKey e → FromPreKeyMessage w m (.error e)
  | badPreKey {p : SignedPreKeyRecord} {k : KeyPair} {e : Err} : w.signedPreKeys m.signedPreKeyId = some p →
      PairOf p.publicKey p.privateKey k → OneTime w m.preKeyId (.error e) → FromPreKeyMessage w m (.error e)
  | noAgreement {p : SignedPreKeyRecord} {k : KeyPair} {o : Option KeyPair} : w.signedPreKeys m.signedPreKeyId = some p →
      PairOf p.publicKey p.privateKey k → OneTime w m.preKeyId (.ok o) →
      (∀ okm, ¬ AnswerMaterial w.identityKeyPair.priv k.priv (o.map KeyPair.priv) m.identityKey m.baseKey okm) →
      FromPreKeyMessage w m (.error .valueError)
  | badNumber {p : SignedPreKeyRecord} {k : KeyPair} {o : Option KeyPair} : w.signedPreKeys m.signedPreKeyId = some p →
      PairOf p.publicKey p.privateKey k → OneTime w m.preKeyId (.ok o) →
      ¬ Fits w.registrationId ∨ ¬ Fits m.registrationId → FromPreKeyMessage w m (.error .valueError)
  | session {p : SignedPreKeyRecord} {k : KeyPair} {o : Option KeyPair} {okm : Bytes} :
      w.signedPreKeys m.signedPreKeyId = some p →
      PairOf p.publicKey p.privateKey k → OneTime w m.preKeyId (.ok o) →
      AnswerMaterial w.identityKeyPair.priv k.priv (o.map KeyPair.priv) m.identityKey m.baseKey okm →
      Fits w.registrationId → Fits m.registrationId →
      FromPreKeyMessage w m (.ok
        { answererState w.identityKeyPair.pub m.identityKey okm k with
          localRegistrationId := some w.registrationId.toNat
          remoteRegistrationId := some m.registrationId
          aliceBaseKey := some (5 :: m.baseKey) })

/-- The session that a key exchange with these keys creates, or what it raises. -/
inductive FromExchange (identity base ratchet : KeyPair) (m : KeyExchangeMessage) (seed : Bytes) :
    Except Err SessionS → Prop
  | badSize : base.pub.length ≠ 32 ∨ m.baseKey.length ≠ 32 → FromExchange identity base ratchet m seed (.error .structError)
  | noAgreement : base.pub.length = 32 → m.baseKey.length = 32 →
      (∀ s, ¬ Exchanged identity base ratchet m.identityKey m.baseKey m.ratchetKey seed s) →
      FromExchange identity base ratchet m seed (.error .valueError)
  | session {s : SessionS} : base.pub.length = 32 → m.baseKey.length = 32 →
      Exchanged identity base ratchet m.identityKey m.baseKey m.ratchetKey seed s →
      FromExchange identity base ratchet m seed (.ok s)

/-- Our keys for answering a request, and the flags of the answer: those of a pending exchange, or new ones. -/
inductive AnswerKeys (w : World) (a : Address) (rnd : SessionBuilder.InitiateRand) : KeyPair → KeyPair → KeyPair → Nat → Prop
  | new : pendingOf (w.sessions a) = none →
      AnswerKeys w a rnd w.identityKeyPair ⟨C.genPub (C.genPriv rnd.baseSeed), C.genPriv rnd.baseSeed⟩
        ⟨C.genPub (C.genPriv rnd.ratchetSeed), C.genPriv rnd.ratchetSeed⟩ 2
  | pending {p : PendingKeyExchangeS} {identity base ratchet : KeyPair} : pendingOf (w.sessions a) = some p →
      PendingKeys p identity base ratchet → AnswerKeys w a rnd identity base ratchet 6

omit C in
/-- A key exchange message as an object. -/
def exchangeMessage (sequence flags : Nat) (base ratchet identity : ECPub) (signature : Bytes) : KeyExchangeMessage :=
  { serialized := keyExchangeMessage sequence flags base ratchet identity signature
    version := 3, supportedVersion := 3, sequence := sequence, flags := flags, baseKey := base
    baseKeySignature := signature, ratchetKey := ratchet, identityKey := identity }

/-- The reply to a request: signed by our identity key, if the number fits. -/
inductive Answers (identity base ratchet : KeyPair) (sequence flags : Nat) (sigRand : Bytes) :
    Except Err KeyExchangeMessage → Prop
  | unsigned : C.calcSig sigRand identity.priv (5 :: base.pub) = none →
      Answers identity base ratchet sequence flags sigRand (.error .valueError)
  | tooLarge : 2 ^ 32 ≤ sequence * 32 + flags → Answers identity base ratchet sequence flags sigRand (.error .valueError)
  | message {sig : Bytes} : C.calcSig sigRand identity.priv (5 :: base.pub) = some sig → sequence * 32 + flags < 2 ^ 32 →
      Answers identity base ratchet sequence flags sigRand
        (.ok (exchangeMessage sequence flags base.pub ratchet.pub identity.pub sig))

/-- The signature on the base key of a key exchange message. -/
def exchangeSignature (m : KeyExchangeMessage) : Option Bool :=
  C.verifySig m.identityKey (5 :: m.baseKey) m.baseKeySignature

/-- A request, from a trusted identity. -/
inductive Request (w : World) (a : Address) (m : KeyExchangeMessage) (rnd : SessionBuilder.InitiateRand) :
    Outcome (Option KeyExchangeMessage) → Prop
  | badSignature : exchangeSignature m = some false → Request w a m rnd ⟨[], .error .invalidKey⟩
  | unverifiable : exchangeSignature m = none → Request w a m rnd ⟨[], .error .valueError⟩
  | noSession {identity base ratchet : KeyPair} {flags : Nat} {e : Err} : exchangeSignature m = some true →
      AnswerKeys w a rnd identity base ratchet flags →
      FromExchange identity base ratchet m rnd.sendSeed (.error e) → Request w a m rnd ⟨[], .error e⟩
  /-- the session is stored, but there is no reply -/
  | noReply {identity base ratchet : KeyPair} {flags : Nat} {s : SessionS} {e : Err} : exchangeSignature m = some true →
      AnswerKeys w a rnd identity base ratchet flags →
      FromExchange identity base ratchet m rnd.sendSeed (.ok s) →
      Answers identity base ratchet m.sequence flags rnd.sigRand (.error e) →
      Request w a m rnd ⟨[.session a (newRecord (w.sessions a) s), .identity a.1 m.identityKey], .error e⟩
  | reply {identity base ratchet : KeyPair} {flags : Nat} {s : SessionS} {x : KeyExchangeMessage} :
      exchangeSignature m = some true →
      AnswerKeys w a rnd identity base ratchet flags →
      FromExchange identity base ratchet m rnd.sendSeed (.ok s) →
      Answers identity base ratchet m.sequence flags rnd.sigRand (.ok x) →
      Request w a m rnd ⟨[.session a (newRecord (w.sessions a) s), .identity a.1 m.identityKey], .ok (some x)⟩

omit C in
/-- The pending exchange that a response belongs to. -/
def Awaited (w : World) (a : Address) (m : KeyExchangeMessage) (p : PendingKeyExchangeS) : Prop :=
  pendingOf (w.sessions a) = some p ∧ p.sequence.getD 0 = m.sequence

/-- A response, from a trusted identity. -/
inductive Response (w : World) (a : Address) (m : KeyExchangeMessage) (seed : Bytes) :
    Outcome (Option KeyExchangeMessage) → Prop
  /-- nobody waits for it -/
  | stale : (∀ p, ¬ Awaited w a m p) → m.flags / 4 % 2 = 0 → Response w a m seed ⟨[], .error .staleKeyExchange⟩
  /-- nobody waits for it, but it answers crossing requests -/
  | crossing : (∀ p, ¬ Awaited w a m p) → m.flags / 4 % 2 = 1 → Response w a m seed ⟨[], .ok none⟩
  | noSession {p : PendingKeyExchangeS} {identity base ratchet : KeyPair} {e : Err} : Awaited w a m p →
      PendingKeys p identity base ratchet → FromExchange identity base ratchet m seed (.error e) →
      Response w a m seed ⟨[], .error e⟩
  | badSignature {p : PendingKeyExchangeS} {identity base ratchet : KeyPair} {s : SessionS} : Awaited w a m p →
      PendingKeys p identity base ratchet → FromExchange identity base ratchet m seed (.ok s) →
      exchangeSignature m = some false → Response w a m seed ⟨[], .error .invalidKey⟩
  | unverifiable {p : PendingKeyExchangeS} {identity base ratchet : KeyPair} {s : SessionS} : Awaited w a m p →
      PendingKeys p identity base ratchet → FromExchange identity base ratchet m seed (.ok s) →
      exchangeSignature m = none → Response w a m seed ⟨[], .error .valueError⟩
  | done {p : PendingKeyExchangeS} {identity base ratchet : KeyPair} {s : SessionS} : Awaited w a m p →
      PendingKeys p identity base ratchet → FromExchange identity base ratchet m seed (.ok s) →
      exchangeSignature m = some true →
      Response w a m seed ⟨[.session a (newRecord (w.sessions a) s), .identity a.1 m.identityKey], .ok none⟩

/-- The record after our request was noted in it. -/
def withPending (w : World) (a : Address) (sequence : Nat) (baseSeed ratchetSeed : Bytes) : SessionRecord :=
  let pending : PendingKeyExchangeS :=
    { sequence := some sequence
      localBaseKey := some (5 :: C.genPub (C.genPriv baseSeed)), localBaseKeyPrivate := some (C.genPriv baseSeed)
      localRatchetKey := some (5 :: C.genPub (C.genPriv ratchetSeed)), localRatchetKeyPrivate := some (C.genPriv ratchetSeed)
      localIdentityKey := some (5 :: w.identityKeyPair.pub), localIdentityKeyPrivate := some w.identityKeyPair.priv }
  match w.sessions a with
  | none => { fresh := true, sessionState := { pendingKeyExchange := some pending }, previousStates := [] }
  | some r => { fresh := false, sessionState := { r.sessionState with pendingKeyExchange := some pending }
                previousStates := r.previousStates }

/-! ## All calls -/

/-- What a call does to the stores `w` and what it returns or raises. -/
inductive Does (w : World) : Call → Outcome Reply → Prop
  | encryptNothing {a : Address} {pt : Bytes} : w.sessions a = none → Does w (.encrypt a pt) ⟨[], .error .indexError⟩
  | encryptFails {a : Address} {pt : Bytes} {r : SessionRecord} {e : Err} : w.sessions a = some r →
      Sends r.sessionState pt (.error e) → Does w (.encrypt a pt) ⟨[], .error e⟩
  | encrypt {a : Address} {pt : Bytes} {r : SessionRecord} {c : Ciphertext} {s : SessionS} : w.sessions a = some r →
      Sends r.sessionState pt (.ok (c, s)) →
      Does w (.encrypt a pt) ⟨[.session a { r with fresh := false, sessionState := s }], .ok (.ciphertext c)⟩
  | readNothing {a : Address} {m : WhisperMessage} {seed : Bytes} {seeds : Nat → Bytes} : w.sessions a = none →
      Does w (.decryptMsg a m seed seeds) ⟨[], .error .noSession⟩
  | readFails {a : Address} {m : WhisperMessage} {seed : Bytes} {seeds : Nat → Bytes} {r : SessionRecord} {e : Err} :
      w.sessions a = some r → RecordVerdict { r with fresh := false } m seed seeds (.error e) →
      Does w (.decryptMsg a m seed seeds) ⟨[], .error e⟩
  | read {a : Address} {m : WhisperMessage} {seed : Bytes} {seeds : Nat → Bytes} {r r' : SessionRecord} {pt : Bytes} :
      w.sessions a = some r → RecordVerdict { r with fresh := false } m seed seeds (.ok (pt, r')) →
      Does w (.decryptMsg a m seed seeds) ⟨[.session a r'], .ok (.plaintext pt)⟩
  | preKeyUntrusted {a : Address} {m : PreKeyWhisperMessage} {seed : Bytes} {seeds : Nat → Bytes} :
      w.isTrusted a.1 m.identityKey = false → Does w (.decryptPkmsg a m seed seeds) ⟨[], .error .untrustedIdentity⟩
  /-- a known base key: the message is read with the stored record; the identity is saved in any case -/
  | preKeyAgainFails {a : Address} {m : PreKeyWhisperMessage} {seed : Bytes} {seeds : Nat → Bytes} {r : SessionRecord}
      {e : Err} : w.isTrusted a.1 m.identityKey = true → w.sessions a = some r → knowsBaseKey r m.version m.baseKey →
      RecordVerdict { r with fresh := false } m.message seed seeds (.error e) →
      Does w (.decryptPkmsg a m seed seeds) ⟨[.identity a.1 m.identityKey], .error e⟩
  | preKeyAgain {a : Address} {m : PreKeyWhisperMessage} {seed : Bytes} {seeds : Nat → Bytes} {r r' : SessionRecord}
      {pt : Bytes} : w.isTrusted a.1 m.identityKey = true → w.sessions a = some r → knowsBaseKey r m.version m.baseKey →
      RecordVerdict { r with fresh := false } m.message seed seeds (.ok (pt, r')) →
      Does w (.decryptPkmsg a m seed seeds) ⟨[.identity a.1 m.identityKey, .session a r'], .ok (.plaintext pt)⟩
  /-- a new base key: a session is set up and the message is read with it -/
  | preKeyNoSession {a : Address} {m : PreKeyWhisperMessage} {seed : Bytes} {seeds : Nat → Bytes} {e : Err} :
      w.isTrusted a.1 m.identityKey = true → (∀ r, w.sessions a = some r → ¬ knowsBaseKey r m.version m.baseKey) →
      FromPreKeyMessage w m (.error e) → Does w (.decryptPkmsg a m seed seeds) ⟨[], .error e⟩
  | preKeyNewFails {a : Address} {m : PreKeyWhisperMessage} {seed : Bytes} {seeds : Nat → Bytes} {s : SessionS} {e : Err} :
      w.isTrusted a.1 m.identityKey = true → (∀ r, w.sessions a = some r → ¬ knowsBaseKey r m.version m.baseKey) →
      FromPreKeyMessage w m (.ok s) → RecordVerdict (newRecord (w.sessions a) s) m.message seed seeds (.error e) →
      Does w (.decryptPkmsg a m seed seeds) ⟨[.identity a.1 m.identityKey], .error e⟩
  | preKeyNew {a : Address} {m : PreKeyWhisperMessage} {seed : Bytes} {seeds : Nat → Bytes} {s : SessionS}
      {r' : SessionRecord} {pt : Bytes} :
      w.isTrusted a.1 m.identityKey = true → (∀ r, w.sessions a = some r → ¬ knowsBaseKey r m.version m.baseKey) →
      FromPreKeyMessage w m (.ok s) → RecordVerdict (newRecord (w.sessions a) s) m.message seed seeds (.ok (pt, r')) →
      Does w (.decryptPkmsg a m seed seeds)
        ⟨[.identity a.1 m.identityKey, .session a r'] ++ ((consumedId m.preKeyId).map Write.removePreKey).toList,
          .ok (.plaintext pt)⟩
  | bundleUntrusted {a : Address} {b : PreKeyBundle} {baseSeed ratchetSeed : Bytes} :
      w.isTrusted a.1 b.identityKey = false → Does w (.processBundle a b baseSeed ratchetSeed) ⟨[], .error .untrustedIdentity⟩
  | bundleFails {a : Address} {b : PreKeyBundle} {baseSeed ratchetSeed : Bytes} {e : Err} :
      w.isTrusted a.1 b.identityKey = true → FromBundle w b baseSeed ratchetSeed (.error e) →
      Does w (.processBundle a b baseSeed ratchetSeed) ⟨[], .error e⟩
  | bundle {a : Address} {b : PreKeyBundle} {baseSeed ratchetSeed : Bytes} {s : SessionS} :
      w.isTrusted a.1 b.identityKey = true → FromBundle w b baseSeed ratchetSeed (.ok s) →
      Does w (.processBundle a b baseSeed ratchetSeed)
        ⟨[.session a (newRecord (w.sessions a) s), .identity a.1 b.identityKey], .ok .done⟩
  | exchangeUntrusted {a : Address} {m : KeyExchangeMessage} {rnd : SessionBuilder.InitiateRand} :
      w.isTrusted a.1 m.identityKey = false → Does w (.processKeyExchange a m rnd) ⟨[], .error .untrustedIdentity⟩
  | request {a : Address} {m : KeyExchangeMessage} {rnd : SessionBuilder.InitiateRand}
      {o : Outcome (Option KeyExchangeMessage)} : w.isTrusted a.1 m.identityKey = true → m.flags % 2 = 1 →
      Request w a m rnd o → Does w (.processKeyExchange a m rnd) (Call.mapOutcome .keyExchange o)
  | response {a : Address} {m : KeyExchangeMessage} {rnd : SessionBuilder.InitiateRand}
      {o : Outcome (Option KeyExchangeMessage)} : w.isTrusted a.1 m.identityKey = true → m.flags % 2 = 0 →
      Response w a m rnd.sendSeed o → Does w (.processKeyExchange a m rnd) (Call.mapOutcome .keyExchange o)
  | ask {a : Address} {n : Nat} {baseSeed ratchetSeed sigRand sig : Bytes} :
      C.calcSig sigRand w.identityKeyPair.priv (5 :: C.genPub (C.genPriv baseSeed)) = some sig →
      (n + 1) * 32 + 1 < 2 ^ 32 →
      Does w (.initKeyExchange a n baseSeed ratchetSeed sigRand)
        ⟨[.session a (withPending w a (n + 1) baseSeed ratchetSeed)], .ok (.keyExchange (some (exchangeMessage (n + 1) 1
          (C.genPub (C.genPriv baseSeed)) (C.genPub (C.genPriv ratchetSeed)) w.identityKeyPair.pub sig)))⟩
  /-- no signature, or a sequence number too large to store -/
  | askFails {a : Address} {n : Nat} {baseSeed ratchetSeed sigRand : Bytes} :
      C.calcSig sigRand w.identityKeyPair.priv (5 :: C.genPub (C.genPriv baseSeed)) = none ∨ 2 ^ 32 ≤ n + 1 →
      Does w (.initKeyExchange a n baseSeed ratchetSeed sigRand) ⟨[], .error .valueError⟩
  /-- a sequence number that can be stored but not sent -/
  | askUnsendable {a : Address} {n : Nat} {baseSeed ratchetSeed sigRand sig : Bytes} :
      C.calcSig sigRand w.identityKeyPair.priv (5 :: C.genPub (C.genPriv baseSeed)) = some sig → n + 1 < 2 ^ 32 →
      2 ^ 32 ≤ (n + 1) * 32 + 1 →
      Does w (.initKeyExchange a n baseSeed ratchetSeed sigRand)
        ⟨[.session a (withPending w a (n + 1) baseSeed ratchetSeed)], .error .valueError⟩

omit C in
/-- Sizes that Python guarantees: plaintexts below 2^62 bytes, and as many random bytes as were asked for. -/
def Sized : Call → Prop
  | .encrypt _ pt => pt.length < 2 ^ 62
  | .processKeyExchange _ _ rnd => rnd.baseSeed.length = 32 ∧ rnd.ratchetSeed.length = 32
  | .initKeyExchange _ _ baseSeed ratchetSeed _ => baseSeed.length = 32 ∧ ratchetSeed.length = 32
  | _ => True

/-- A whole history: calls, what they did, and the stores at the end. -/
inductive Runs : World → List Call → List (Outcome Reply) → World → Prop
  | nil {w : World} : Runs w [] [] w
  | cons {w w' : World} {c : Call} {cs : List Call} {o : Outcome Reply} {os : List (Outcome Reply)} :
      Does w c o → Runs (w.applyAll o.writes) cs os w' → Runs w (c :: cs) (o :: os) w'

end Axolotl.Spec
