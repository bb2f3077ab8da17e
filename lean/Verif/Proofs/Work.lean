import Verif.Spec.Work

/-!
# What the counted computations compute

The value of each counted computation is that of the function of the model.
-/

namespace Axolotl
namespace Logged
open Fallible
variable {L : Type} [Log L]

@[simp] theorem value_pure {α : Type} (a : α) : (pure a : Logged L α).value = .ok a := rfl

@[simp] theorem value_fail {α : Type} (e : Err) : (fail e : Logged L α).value = .error e := rfl

@[simp] theorem value_attempt {α : Type} (x : Logged L α) : (attempt x : Logged L (Res α)).value = .ok x.value := rfl

@[simp] theorem value_bind {α β : Type} (x : Logged L α) (f : α → Logged L β) :
    (x >>= f).value = x.value >>= fun a => (f a).value := by
  show (x.andThen f).value = _
  unfold andThen
  cases x.value <;> rfl

@[simp] theorem value_lift {α : Type} (r : Res α) : (Work.lift r : Logged L α).value = r := by
  cases r <;> rfl

omit [Log L] in
@[simp] theorem value_ite {α : Type} (c : Prop) [Decidable c] (x y : Logged L α) :
    (if c then x else y).value = if c then x.value else y.value := by
  split <;> rfl

theorem bind_ok {α β : Type} (a : α) (f : α → Res β) : ((Except.ok a : Res α) >>= f) = f a := rfl

theorem bind_error {α β : Type} (e : Err) (f : α → Res β) : ((Except.error e : Res α) >>= f) = .error e := rfl

end Logged

section
variable [C : Crypto] {L : Type} [Log L] {f : Op → L}
namespace Work
open Logged Fallible

attribute [local simp] Logged.bind_ok Logged.bind_error

omit [Log L] in
@[local simp] theorem value_hmac (k d : Bytes) : ((reporting f).hmac k d).value = .ok (C.hmac k d) := rfl
omit [Log L] in
@[local simp] theorem value_genPriv (r : Bytes) : ((reporting f).genPriv r).value = .ok (C.genPriv r) := rfl
omit [Log L] in
@[local simp] theorem value_genPub (r : Bytes) : ((reporting f).genPub r).value = .ok (C.genPub r) := rfl
omit [Log L] in
@[local simp] theorem value_dh (a b : Bytes) : ((reporting f).dh a b).value = .ok (C.dh a b) := rfl
omit [Log L] in
@[local simp] theorem value_verifySig (a b c : Bytes) : ((reporting f).verifySig a b c).value = .ok (C.verifySig a b c) := rfl
omit [Log L] in
@[local simp] theorem value_calcSig (a b c : Bytes) : ((reporting f).calcSig a b c).value = .ok (C.calcSig a b c) := rfl
omit [Log L] in
@[local simp] theorem value_aesEnc (a b : Bytes) : ((reporting f).aesEnc a b).value = .ok (C.aesEnc a b) := rfl
omit [Log L] in
@[local simp] theorem value_aesDec (a b : Bytes) : ((reporting f).aesDec a b).value = .ok (C.aesDec a b) := rfl

@[local simp] theorem expandLoop_value (prk info : Bytes) (n i : Nat) (mixin : Bytes) (rem : Nat) :
    (expandLoop (reporting f) prk info n i mixin rem).value = .ok (Kdf.expandLoop prk info n i mixin rem) := by
  induction n generalizing i mixin rem with
  | zero => rfl
  | succ n ih => simp -implicitDefEqProofs [expandLoop, ih, Kdf.expandLoop]

@[local simp] theorem deriveSecrets_value (k : Kdf) (ikm info : Bytes) (n : Nat) (salt : Bytes) :
    (deriveSecrets (reporting f) k ikm info n salt).value = .ok (Kdf.deriveSecrets k ikm info n salt) := by
  simp -implicitDefEqProofs [deriveSecrets, Kdf.deriveSecrets, Kdf.expand, Kdf.extract]

@[local simp] theorem generateKeyPair_value (seed : Bytes) :
    (generateKeyPair (reporting f) seed).value = .ok (Curve.generateKeyPair seed) := by
  simp -implicitDefEqProofs [generateKeyPair, Curve.generateKeyPair]

@[local simp] theorem calculateAgreement_value (a : ECPub) (b : ECPriv) :
    (calculateAgreement (reporting f) a b).value = Curve.calculateAgreement a b := by
  simp -implicitDefEqProofs [calculateAgreement, Curve.calculateAgreement, orValueError]
  cases C.dh b a <;> rfl

@[local simp] theorem verifySignature_value (k : ECPub) (d s : Bytes) :
    (verifySignature (reporting f) k d s).value = Curve.verifySignature k d s := by
  simp -implicitDefEqProofs [verifySignature, Curve.verifySignature, orValueError]
  cases C.verifySig k d s <;> rfl

@[local simp] theorem calculateSignature_value (r : Bytes) (k : ECPriv) (d : Bytes) :
    (calculateSignature (reporting f) r k d).value = Curve.calculateSignature r k d := by
  simp -implicitDefEqProofs [calculateSignature, Curve.calculateSignature, orValueError]
  cases C.calcSig r k d <;> rfl

@[local simp] theorem cbcEnc_value (key : Bytes) (n : Nat) (prev d : Bytes) :
    (cbcEnc (reporting f) key n prev d).value = .ok (AES.cbcEnc key n prev d) := by
  induction n generalizing prev d with
  | zero => rfl
  | succ n ih => simp -implicitDefEqProofs [cbcEnc, ih, AES.cbcEnc]

@[local simp] theorem cbcDec_value (key : Bytes) (n : Nat) (prev d : Bytes) :
    (cbcDec (reporting f) key n prev d).value = .ok (AES.cbcDec key n prev d) := by
  induction n generalizing prev d with
  | zero => rfl
  | succ n ih => simp -implicitDefEqProofs [cbcDec, ih, AES.cbcDec]

@[local simp] theorem aesEncrypt_value (key iv raw : Bytes) :
    (aesEncrypt (reporting f) key iv raw).value = AES.encrypt key iv raw := by
  simp -implicitDefEqProofs [aesEncrypt, AES.encrypt]

@[local simp] theorem aesDecrypt_value (key iv raw : Bytes) :
    (aesDecrypt (reporting f) key iv raw).value = AES.decrypt key iv raw := by
  simp -implicitDefEqProofs [aesDecrypt, AES.decrypt]

@[local simp] theorem getNextChainKey_value (c : ChainKey) :
    (getNextChainKey (reporting f) c).value = .ok c.getNextChainKey := by
  simp -implicitDefEqProofs [getNextChainKey, ChainKey.getNextChainKey, ChainKey.getBaseMaterial]

@[local simp] theorem getMessageKeys_value (c : ChainKey) :
    (getMessageKeys (reporting f) c).value = .ok c.getMessageKeys := by
  simp -implicitDefEqProofs [getMessageKeys, ChainKey.getMessageKeys, ChainKey.getBaseMaterial]

@[local simp] theorem createChain_value (r : RootKey) (t : ECPub) (o : KeyPair) :
    (createChain (reporting f) r t o).value = r.createChain t o := by
  simp -implicitDefEqProofs [createChain, RootKey.createChain]

@[local simp] theorem calculateDerivedKeys_value (d : Bytes) :
    (calculateDerivedKeys (reporting f) d).value = .ok (RatchetingSession.calculateDerivedKeys d) := by
  simp -implicitDefEqProofs [calculateDerivedKeys, RatchetingSession.calculateDerivedKeys]

@[local simp] theorem aliceSecrets_value (p : AliceParameters) :
    (aliceSecrets (reporting f) p).value = RatchetingSession.aliceSecrets p := by
  cases h : p.theirOneTimePreKey <;> simp -implicitDefEqProofs [aliceSecrets, RatchetingSession.aliceSecrets, h]

@[local simp] theorem initializeSessionAsAlice_value (s : SessionState) (p : AliceParameters) (seed : Bytes) :
    (initializeSessionAsAlice (reporting f) s p seed).value = RatchetingSession.initializeSessionAsAlice s p seed := by
  simp -implicitDefEqProofs [initializeSessionAsAlice, RatchetingSession.initializeSessionAsAlice]

@[local simp] theorem bobSecrets_value (p : BobParameters) :
    (bobSecrets (reporting f) p).value = RatchetingSession.bobSecrets p := by
  cases h : p.ourOneTimePreKey <;> simp -implicitDefEqProofs [bobSecrets, RatchetingSession.bobSecrets, h]

@[local simp] theorem initializeSessionAsBob_value (s : SessionState) (p : BobParameters) :
    (initializeSessionAsBob (reporting f) s p).value = RatchetingSession.initializeSessionAsBob s p := by
  simp -implicitDefEqProofs [initializeSessionAsBob, RatchetingSession.initializeSessionAsBob]

@[local simp] theorem initializeSession_value (s : SessionState) (p : SymmetricParameters) (seed : Bytes) :
    (initializeSession (reporting f) s p seed).value = RatchetingSession.initializeSession s p seed := by
  simp -implicitDefEqProofs [initializeSession, RatchetingSession.initializeSession]

@[local simp] theorem getMac_value (v : Nat) (a b : ECPub) (k d : Bytes) :
    (getMac (reporting f) v a b k d).value = .ok (WhisperMessage.getMac v a b k d) := by
  simp -implicitDefEqProofs [getMac, WhisperMessage.getMac]

@[local simp] theorem createWhisperMessage_value (v : Nat) (k : Bytes) (a : ECPub) (n pn : Nat) (ct : Bytes) (i j : ECPub) :
    (createWhisperMessage (reporting f) v k a n pn ct i j).value = WhisperMessage.create v k a n pn ct i j := by
  simp -implicitDefEqProofs [createWhisperMessage, WhisperMessage.create]

@[local simp] theorem verifyMac_value (msg : WhisperMessage) (v : Nat) (a b : ECPub) (k : Bytes) :
    (verifyMac (reporting f) msg v a b k).value = msg.verifyMac v a b k := by
  simp -implicitDefEqProofs [verifyMac, WhisperMessage.verifyMac]

@[local simp] theorem encryptWithState_value (s : SessionState) (d : Bytes) :
    (encryptWithState (reporting f) s d).value = SessionCipher.encryptWithState s d := by
  simp -implicitDefEqProofs [encryptWithState, SessionCipher.encryptWithState]

@[local simp] theorem getOrCreateChainKey_value (s : SessionState) (t : ECPub) (seed : Bytes) :
    (getOrCreateChainKey (reporting f) s t seed).value = SessionCipher.getOrCreateChainKey s t seed := by
  simp -implicitDefEqProofs [getOrCreateChainKey, SessionCipher.getOrCreateChainKey]

@[local simp] theorem skipLoop_value (t : ECPub) (n : Nat) (s : SessionState) (c : ChainKey) :
    (skipLoop (reporting f) t n s c).value = SessionCipher.skipLoop t n s c := by
  induction n generalizing s c with
  | zero => rfl
  | succ n ih => simp -implicitDefEqProofs [skipLoop, SessionCipher.skipLoop, ih]

@[local simp] theorem getOrCreateMessageKeys_value (s : SessionState) (t : ECPub) (c : ChainKey) (n : Nat) :
    (getOrCreateMessageKeys (reporting f) s t c n).value = SessionCipher.getOrCreateMessageKeys s t c n := by
  simp -implicitDefEqProofs [getOrCreateMessageKeys, SessionCipher.getOrCreateMessageKeys]

@[local simp] theorem decryptWithSessionState_value (s : SessionState) (msg : WhisperMessage) (seed : Bytes) :
    (decryptWithSessionState (reporting f) s msg seed).value = SessionCipher.decryptWithSessionState s msg seed := by
  simp -implicitDefEqProofs [decryptWithSessionState, SessionCipher.decryptWithSessionState]

@[local simp] theorem tryPrevious_value (r : SessionRecord) (msg : WhisperMessage) (seeds : Nat → Bytes) (l : List SessionState) (i : Nat) :
    (tryPrevious (reporting f) r msg seeds l i).value = SessionCipher.tryPrevious r msg seeds l i := by
  induction l generalizing i with
  | nil => rfl
  | cons p l ih =>
    simp -implicitDefEqProofs only [tryPrevious, SessionCipher.tryPrevious, value_bind, value_attempt, bind_ok, decryptWithSessionState_value]
    split <;> simp_all

@[local simp] theorem decryptWithSessionRecord_value (r : SessionRecord) (msg : WhisperMessage) (seed : Bytes) (seeds : Nat → Bytes) :
    (decryptWithSessionRecord (reporting f) r msg seed seeds).value = SessionCipher.decryptWithSessionRecord r msg seed seeds := by
  simp -implicitDefEqProofs only [decryptWithSessionRecord, SessionCipher.decryptWithSessionRecord, value_bind, value_attempt, bind_ok, decryptWithSessionState_value]
  split <;> simp_all

omit C in
@[local simp] theorem outcome_value {α : Type} (x : Logged L (List Write × α)) :
    (outcome x).value = .ok (Outcome.ofRes x.value) := by
  simp -implicitDefEqProofs [outcome]

@[local simp] theorem encrypt_value (w : World) (a : Address) (d : Bytes) :
    (encrypt (reporting f) w a d).value = .ok (SessionCipher.encrypt w a d) := by
  simp -implicitDefEqProofs [encrypt, SessionCipher.encrypt]

@[local simp] theorem decryptMsg_value (w : World) (a : Address) (msg : WhisperMessage) (seed : Bytes) (seeds : Nat → Bytes) :
    (decryptMsg (reporting f) w a msg seed seeds).value = .ok (SessionCipher.decryptMsg w a msg seed seeds) := by
  simp -implicitDefEqProofs [decryptMsg, SessionCipher.decryptMsg]

@[local simp] theorem processV3_value (w : World) (r : SessionRecord) (msg : PreKeyWhisperMessage) :
    (processV3 (reporting f) w r msg).value = SessionBuilder.processV3 w r msg := by
  cases h : msg.preKeyId <;> simp -implicitDefEqProofs [processV3, SessionBuilder.processV3, h]

@[local simp] theorem process_value (w : World) (a : Address) (r : SessionRecord) (msg : PreKeyWhisperMessage) :
    (process (reporting f) w a r msg).value = .ok (SessionBuilder.process w a r msg) := by
  simp -implicitDefEqProofs only [process, SessionBuilder.process, value_ite, value_bind, value_attempt, bind_ok, processV3_value]
  split
  · rfl
  · split <;> simp_all

@[local simp] theorem decryptPkmsg_value (w : World) (a : Address) (msg : PreKeyWhisperMessage) (seed : Bytes) (seeds : Nat → Bytes) :
    (decryptPkmsg (reporting f) w a msg seed seeds).value = .ok (SessionCipher.decryptPkmsg w a msg seed seeds) := by
  simp -implicitDefEqProofs only [decryptPkmsg, SessionCipher.decryptPkmsg, value_bind, bind_ok, process_value]
  split
  · simp_all
  · simp -implicitDefEqProofs only [value_bind, value_attempt, bind_ok, decryptWithSessionRecord_value]
    split <;> simp_all

@[local simp] theorem processPreKeyBundle_value (w : World) (a : Address) (b : PreKeyBundle) (s1 s2 : Bytes) :
    (processPreKeyBundle (reporting f) w a b s1 s2).value = .ok (SessionBuilder.processPreKeyBundle w a b s1 s2) := by
  cases h : b.signedPreKey <;> simp -implicitDefEqProofs [processPreKeyBundle, SessionBuilder.processPreKeyBundle, h]

@[local simp] theorem processInitiateState_value (w : World) (a : Address) (msg : KeyExchangeMessage) (rnd : SessionBuilder.InitiateRand) :
    (processInitiateState (reporting f) w a msg rnd).value = SessionBuilder.processInitiateState w a msg rnd := by
  simp -implicitDefEqProofs [processInitiateState, SessionBuilder.processInitiateState]

@[local simp] theorem processInitiate_value (w : World) (a : Address) (msg : KeyExchangeMessage) (rnd : SessionBuilder.InitiateRand) :
    (processInitiate (reporting f) w a msg rnd).value = .ok (SessionBuilder.processInitiate w a msg rnd) := by
  simp -implicitDefEqProofs only [processInitiate, SessionBuilder.processInitiate, value_bind, value_attempt, bind_ok, processInitiateState_value]
  split <;> simp_all

@[local simp] theorem processResponse_value (w : World) (a : Address) (msg : KeyExchangeMessage) (seed : Bytes) :
    (processResponse (reporting f) w a msg seed).value = .ok (SessionBuilder.processResponse w a msg seed) := by
  simp -implicitDefEqProofs only [processResponse, SessionBuilder.processResponse, value_ite, outcome_value]
  split
  · split <;> rfl
  · simp

@[local simp] theorem processKeyExchangeMessage_value (w : World) (a : Address) (msg : KeyExchangeMessage) (rnd : SessionBuilder.InitiateRand) :
    (processKeyExchangeMessage (reporting f) w a msg rnd).value = .ok (SessionBuilder.processKeyExchangeMessage w a msg rnd) := by
  simp -implicitDefEqProofs only [processKeyExchangeMessage, SessionBuilder.processKeyExchangeMessage, value_ite, processInitiate_value, processResponse_value,
    value_pure]
  split
  · rfl
  · split <;> rfl

@[local simp] theorem processInitKeyExchangeMessage_value (w : World) (a : Address) (n : Nat) (s1 s2 s3 : Bytes) :
    (processInitKeyExchangeMessage (reporting f) w a n s1 s2 s3).value
      = .ok (SessionBuilder.processInitKeyExchangeMessage w a n s1 s2 s3) := by
  simp -implicitDefEqProofs only [processInitKeyExchangeMessage, SessionBuilder.processInitKeyExchangeMessage, value_bind, value_attempt, bind_ok,
    generateKeyPair_value, calculateSignature_value, value_lift, value_pure]
  split <;> simp_all

/-- The counted call does what the call does. -/
theorem run_value (w : World) (c : Call) : (run (reporting f) w c).value = .ok (c.run w) := by
  cases c <;> simp -implicitDefEqProofs [run, Call.run]

@[local simp] theorem senderMessageKey_value (i : Nat) (seed : Bytes) :
    (senderMessageKey (reporting f) i seed).value = .ok (SenderMessageKey.mk' i seed) := by
  simp -implicitDefEqProofs [senderMessageKey, SenderMessageKey.mk']

@[local simp] theorem getSenderMessageKey_value (c : SenderChainKey) :
    (getSenderMessageKey (reporting f) c).value = .ok c.getSenderMessageKey := by
  simp -implicitDefEqProofs [getSenderMessageKey, SenderChainKey.getSenderMessageKey]

@[local simp] theorem getNext_value (c : SenderChainKey) : (getNext (reporting f) c).value = .ok c.getNext := by
  simp -implicitDefEqProofs [getNext, SenderChainKey.getNext]

@[local simp] theorem removeSenderMessageKey_value (s : SenderKeyState) (i : Nat) :
    (removeSenderMessageKey (reporting f) s i).value = .ok (SenderKeyState.removeSenderMessageKey s i) := by
  simp -implicitDefEqProofs only [removeSenderMessageKey, SenderKeyState.removeSenderMessageKey]
  split <;> simp_all

@[local simp] theorem createSenderKeyMessage_value (i n : Nat) (ct : Bytes) (k : ECPriv) (r : Bytes) :
    (createSenderKeyMessage (reporting f) i n ct k r).value = SenderKeyMessage.create i n ct k r := by
  simp -implicitDefEqProofs [createSenderKeyMessage, SenderKeyMessage.create]

@[local simp] theorem verifySenderKeyMessage_value (msg : SenderKeyMessage) (k : ECPub) :
    (verifySenderKeyMessage (reporting f) msg k).value = msg.verifySignature k := by
  simp -implicitDefEqProofs [verifySenderKeyMessage, SenderKeyMessage.verifySignature]

@[local simp] theorem encryptWithRecord_value (r : SenderKeyRecord) (d rand : Bytes) :
    (encryptWithRecord (reporting f) r d rand).value = GroupCipher.encryptWithRecord r d rand := by
  simp -implicitDefEqProofs [encryptWithRecord, GroupCipher.encryptWithRecord]

@[local simp] theorem groupEncrypt_value (g : GroupStore) (n : SenderKeyName) (d rand : Bytes) :
    (groupEncrypt (reporting f) g n d rand).value = .ok (GroupCipher.encrypt g n d rand) := by
  simp -implicitDefEqProofs only [groupEncrypt, GroupCipher.encrypt, value_bind, value_attempt, bind_ok, encryptWithRecord_value]
  split <;> simp_all

@[local simp] theorem groupSkipLoop_value (n : Nat) (s : SenderKeyState) (c : SenderChainKey) :
    (groupSkipLoop (reporting f) n s c).value = GroupCipher.skipLoop n s c := by
  induction n generalizing s c with
  | zero => rfl
  | succ n ih => simp -implicitDefEqProofs [groupSkipLoop, GroupCipher.skipLoop, ih]

@[local simp] theorem getSenderKey_value (s : SenderKeyState) (i : Nat) :
    (getSenderKey (reporting f) s i).value = GroupCipher.getSenderKey s i := by
  simp -implicitDefEqProofs only [getSenderKey, GroupCipher.getSenderKey, value_ite, value_bind, bind_ok, removeSenderMessageKey_value, groupSkipLoop_value,
    getNext_value, value_lift, getSenderMessageKey_value, value_fail, value_pure]
  split
  · split
    · split <;> simp_all
    · rfl
  · rfl

@[local simp] theorem getPlainText_value (iv k d : Bytes) :
    (getPlainText (reporting f) iv k d).value = GroupCipher.getPlainText iv k d := by
  simp -implicitDefEqProofs [getPlainText, GroupCipher.getPlainText]

@[local simp] theorem decryptWithRecord_value (r : SenderKeyRecord) (b : Bytes) :
    (decryptWithRecord (reporting f) r b).value = GroupCipher.decryptWithRecord r b := by
  simp -implicitDefEqProofs [decryptWithRecord, GroupCipher.decryptWithRecord]

@[local simp] theorem groupDecrypt_value (g : GroupStore) (n : SenderKeyName) (b : Bytes) :
    (groupDecrypt (reporting f) g n b).value = .ok (GroupCipher.decrypt g n b) := by
  simp -implicitDefEqProofs only [groupDecrypt, GroupCipher.decrypt, value_bind, value_attempt, bind_ok, decryptWithRecord_value]
  split <;> simp_all

@[local simp] theorem groupCreate_value (g : GroupStore) (n : SenderKeyName) (rnd : GroupSessionBuilder.CreateRand) :
    (groupCreate (reporting f) g n rnd).value = .ok (GroupSessionBuilder.create g n rnd) := by
  simp -implicitDefEqProofs only [groupCreate, GroupSessionBuilder.create, value_ite, value_bind, bind_ok, generateKeyPair_value, value_pure]
  split <;> rfl

/-- The counted call does what the call does. -/
theorem groupRun_value (g : GroupStore) (c : GroupCall) : (groupRun (reporting f) g c).value = .ok (c.run g) := by
  cases c <;> simp -implicitDefEqProofs [groupRun, GroupCall.run]

end Work
end
end Axolotl
