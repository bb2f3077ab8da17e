import Verif.Proofs.Work

/-!
# Writing down less

What is written down in one way can be translated into what is written down in another way: the computation is the same.
-/

namespace Axolotl
namespace Logged
open Fallible
variable {L M : Type} [Log L] [Log M]

/-- A translation of what is written down that keeps the order of things. -/
class Faithful (h : L → M) : Prop where
  empty : h Log.empty = Log.empty
  join : ∀ a b, h (Log.join a b) = Log.join (h a) (h b)

/-- The same computation, what was written down translated. -/
def retell {α : Type} (h : L → M) (x : Logged L α) : Logged M α := ⟨x.value, h x.work⟩

variable {h : L → M} [Faithful h]

@[simp] theorem retell_pure {α : Type} (a : α) : retell h (pure a : Logged L α) = pure a :=
  congrArg (Logged.mk (.ok a)) (Faithful.empty (h := h))

@[simp] theorem retell_fail {α : Type} (e : Err) : retell h (fail e : Logged L α) = fail e :=
  congrArg (Logged.mk (.error e)) (Faithful.empty (h := h))

omit [Faithful h] in
@[simp] theorem retell_attempt {α : Type} (x : Logged L α) : retell h (attempt x : Logged L (Res α)) = attempt (retell h x) := rfl

theorem retell_step {α β : Type} {x : Logged L α} {f : α → Logged L β} {y : Logged M α} {g : α → Logged M β}
    (hx : retell h x = y) (hf : ∀ a, retell h (f a) = g a) : retell h (x >>= f) = y >>= g := by
  subst hx
  show retell h (x.andThen f) = (retell h x).andThen g
  unfold andThen
  have hv : (retell h x).value = x.value := rfl
  rw [hv]
  cases x.value with
  | ok a =>
    simp only [← hf]
    exact congrArg (Logged.mk _) (Faithful.join (h := h) _ _)
  | error e => rfl

@[simp] theorem retell_bind {α β : Type} (x : Logged L α) (f : α → Logged L β) :
    retell h (x >>= f) = retell h x >>= fun a => retell h (f a) := retell_step rfl fun _ => rfl

@[simp] theorem retell_lift {α : Type} (r : Res α) : retell h (Work.lift r : Logged L α) = Work.lift r := by
  cases r
  · exact retell_fail _
  · exact retell_pure _

@[simp] theorem retell_orValueError {α : Type} (r : Option α) : retell h (Work.orValueError r : Logged L α) = Work.orValueError r := by
  cases r
  · exact retell_fail _
  · exact retell_pure _

omit [Log L] [Log M] [Faithful h] in
@[simp] theorem retell_ite {α : Type} (c : Prop) [Decidable c] (x y : Logged L α) :
    retell h (if c then x else y) = if c then retell h x else retell h y := by
  split <;> rfl

end Logged

section
variable [C : Crypto] {L M : Type} [Log L] [Log M] {f : Op → L} {h : L → M} [Logged.Faithful h]
namespace Work
open Logged Fallible

local macro "retelling" : tactic =>
  `(tactic| repeat' first | done | (simp; done) | (refine retell_step ?_ ?_) | (intro a) | split)

omit [Log L] [Log M] [Faithful h] in
@[local simp] theorem hmac_retell (k d : Bytes) : retell h ((reporting f).hmac k d) = (reporting fun o => h (f o)).hmac k d := rfl

omit [Log L] [Log M] [Faithful h] in
@[local simp] theorem genPriv_retell (k : Bytes) : retell h ((reporting f).genPriv k) = (reporting fun o => h (f o)).genPriv k := rfl

omit [Log L] [Log M] [Faithful h] in
@[local simp] theorem genPub_retell (k : Bytes) : retell h ((reporting f).genPub k) = (reporting fun o => h (f o)).genPub k := rfl

omit [Log L] [Log M] [Faithful h] in
@[local simp] theorem dh_retell (k d : Bytes) : retell h ((reporting f).dh k d) = (reporting fun o => h (f o)).dh k d := rfl

omit [Log L] [Log M] [Faithful h] in
@[local simp] theorem verifySig_retell (k d s : Bytes) : retell h ((reporting f).verifySig k d s) = (reporting fun o => h (f o)).verifySig k d s := rfl

omit [Log L] [Log M] [Faithful h] in
@[local simp] theorem calcSig_retell (k d s : Bytes) : retell h ((reporting f).calcSig k d s) = (reporting fun o => h (f o)).calcSig k d s := rfl

omit [Log L] [Log M] [Faithful h] in
@[local simp] theorem aesEnc_retell (k d : Bytes) : retell h ((reporting f).aesEnc k d) = (reporting fun o => h (f o)).aesEnc k d := rfl

omit [Log L] [Log M] [Faithful h] in
@[local simp] theorem aesDec_retell (k d : Bytes) : retell h ((reporting f).aesDec k d) = (reporting fun o => h (f o)).aesDec k d := rfl

@[local simp] theorem expandLoop_retell (prk info : Bytes) (x : Nat) (y : Nat) (z : Bytes) (u : Nat) :
    retell h (expandLoop (reporting f) prk info x y z u) = expandLoop (reporting fun o => h (f o)) prk info x y z u := by
  induction x generalizing y z u with
  | zero => simp [expandLoop]
  | succ x ih => simp [expandLoop, ih]

@[local simp] theorem deriveSecrets_retell (k : Kdf) (ikm info : Bytes) (outputLength : Nat) (salt : Bytes) :
    retell h (deriveSecrets (reporting f) k ikm info outputLength salt) = deriveSecrets (reporting fun o => h (f o)) k ikm info outputLength salt := by
  simp only [deriveSecrets]
  retelling

@[local simp] theorem generateKeyPair_retell (seed : Bytes) :
    retell h (generateKeyPair (reporting f) seed) = generateKeyPair (reporting fun o => h (f o)) seed := by
  simp only [generateKeyPair]
  retelling

@[local simp] theorem calculateAgreement_retell (publicKey : ECPub) (privateKey : ECPriv) :
    retell h (calculateAgreement (reporting f) publicKey privateKey) = calculateAgreement (reporting fun o => h (f o)) publicKey privateKey := by
  simp only [calculateAgreement]
  retelling

@[local simp] theorem verifySignature_retell (signingKey : ECPub) (message signature : Bytes) :
    retell h (verifySignature (reporting f) signingKey message signature) = verifySignature (reporting fun o => h (f o)) signingKey message signature := by
  simp only [verifySignature]
  retelling

@[local simp] theorem calculateSignature_retell (rand : Bytes) (signingKey : ECPriv) (message : Bytes) :
    retell h (calculateSignature (reporting f) rand signingKey message) = calculateSignature (reporting fun o => h (f o)) rand signingKey message := by
  simp only [calculateSignature]
  retelling

@[local simp] theorem cbcEnc_retell (key : Bytes) (x : Nat) (y : Bytes) (z : Bytes) :
    retell h (cbcEnc (reporting f) key x y z) = cbcEnc (reporting fun o => h (f o)) key x y z := by
  induction x generalizing y z with
  | zero => simp [cbcEnc]
  | succ x ih => simp [cbcEnc, ih]

@[local simp] theorem cbcDec_retell (key : Bytes) (x : Nat) (y : Bytes) (z : Bytes) :
    retell h (cbcDec (reporting f) key x y z) = cbcDec (reporting fun o => h (f o)) key x y z := by
  induction x generalizing y z with
  | zero => simp [cbcDec]
  | succ x ih => simp [cbcDec, ih]

@[local simp] theorem aesEncrypt_retell (key iv raw : Bytes) :
    retell h (aesEncrypt (reporting f) key iv raw) = aesEncrypt (reporting fun o => h (f o)) key iv raw := by
  simp only [aesEncrypt]
  retelling

@[local simp] theorem aesDecrypt_retell (key iv enc : Bytes) :
    retell h (aesDecrypt (reporting f) key iv enc) = aesDecrypt (reporting fun o => h (f o)) key iv enc := by
  simp only [aesDecrypt]
  retelling

@[local simp] theorem getNextChainKey_retell (c : ChainKey) :
    retell h (getNextChainKey (reporting f) c) = getNextChainKey (reporting fun o => h (f o)) c := by
  simp only [getNextChainKey]
  retelling

@[local simp] theorem getMessageKeys_retell (c : ChainKey) :
    retell h (getMessageKeys (reporting f) c) = getMessageKeys (reporting fun o => h (f o)) c := by
  simp only [getMessageKeys]
  retelling

@[local simp] theorem createChain_retell (r : RootKey) (theirRatchetKey : ECPub) (ourRatchetKey : KeyPair) :
    retell h (createChain (reporting f) r theirRatchetKey ourRatchetKey) = createChain (reporting fun o => h (f o)) r theirRatchetKey ourRatchetKey := by
  simp only [createChain]
  retelling

@[local simp] theorem calculateDerivedKeys_retell (masterSecret : Bytes) :
    retell h (calculateDerivedKeys (reporting f) masterSecret) = calculateDerivedKeys (reporting fun o => h (f o)) masterSecret := by
  simp only [calculateDerivedKeys]
  retelling

@[local simp] theorem aliceSecrets_retell (p : AliceParameters) :
    retell h (aliceSecrets (reporting f) p) = aliceSecrets (reporting fun o => h (f o)) p := by
  simp only [aliceSecrets]
  retelling

@[local simp] theorem initializeSessionAsAlice_retell (s : SessionState) (p : AliceParameters) (seed : Bytes) :
    retell h (initializeSessionAsAlice (reporting f) s p seed) = initializeSessionAsAlice (reporting fun o => h (f o)) s p seed := by
  simp only [initializeSessionAsAlice]
  retelling

@[local simp] theorem bobSecrets_retell (p : BobParameters) :
    retell h (bobSecrets (reporting f) p) = bobSecrets (reporting fun o => h (f o)) p := by
  simp only [bobSecrets]
  retelling

@[local simp] theorem initializeSessionAsBob_retell (s : SessionState) (p : BobParameters) :
    retell h (initializeSessionAsBob (reporting f) s p) = initializeSessionAsBob (reporting fun o => h (f o)) s p := by
  simp only [initializeSessionAsBob]
  retelling

@[local simp] theorem initializeSession_retell (s : SessionState) (p : SymmetricParameters) (seed : Bytes) :
    retell h (initializeSession (reporting f) s p seed) = initializeSession (reporting fun o => h (f o)) s p seed := by
  simp only [initializeSession]
  retelling

@[local simp] theorem getMac_retell (messageVersion : Nat) (senderIdentityKey receiverIdentityKey : ECPub) (macKey : Bytes) (serialized : Bytes) :
    retell h (getMac (reporting f) messageVersion senderIdentityKey receiverIdentityKey macKey serialized) = getMac (reporting fun o => h (f o)) messageVersion senderIdentityKey receiverIdentityKey macKey serialized := by
  simp only [getMac]
  retelling

@[local simp] theorem createWhisperMessage_retell (messageVersion : Nat) (macKey : Bytes) (senderRatchetKey : ECPub) (counter previousCounter : Nat) (ciphertext : Bytes) (senderIdentityKey receiverIdentityKey : ECPub) :
    retell h (createWhisperMessage (reporting f) messageVersion macKey senderRatchetKey counter previousCounter ciphertext senderIdentityKey receiverIdentityKey) = createWhisperMessage (reporting fun o => h (f o)) messageVersion macKey senderRatchetKey counter previousCounter ciphertext senderIdentityKey receiverIdentityKey := by
  simp only [createWhisperMessage]
  retelling

@[local simp] theorem verifyMac_retell (msg : WhisperMessage) (messageVersion : Nat) (senderIdentityKey receiverIdentityKey : ECPub) (macKey : Bytes) :
    retell h (verifyMac (reporting f) msg messageVersion senderIdentityKey receiverIdentityKey macKey) = verifyMac (reporting fun o => h (f o)) msg messageVersion senderIdentityKey receiverIdentityKey macKey := by
  simp only [verifyMac]
  retelling

@[local simp] theorem encryptWithState_retell (s : SessionState) (paddedMessage : Bytes) :
    retell h (encryptWithState (reporting f) s paddedMessage) = encryptWithState (reporting fun o => h (f o)) s paddedMessage := by
  simp only [encryptWithState]
  retelling

@[local simp] theorem getOrCreateChainKey_retell (s : SessionState) (theirEphemeral : ECPub) (seed : Bytes) :
    retell h (getOrCreateChainKey (reporting f) s theirEphemeral seed) = getOrCreateChainKey (reporting fun o => h (f o)) s theirEphemeral seed := by
  simp only [getOrCreateChainKey]
  retelling

@[local simp] theorem skipLoop_retell (theirEphemeral : ECPub) (x : Nat) (y : SessionState) (z : ChainKey) :
    retell h (skipLoop (reporting f) theirEphemeral x y z) = skipLoop (reporting fun o => h (f o)) theirEphemeral x y z := by
  induction x generalizing y z with
  | zero => simp [skipLoop]
  | succ x ih => simp [skipLoop, ih]

@[local simp] theorem getOrCreateMessageKeys_retell (s : SessionState) (theirEphemeral : ECPub) (chainKey : ChainKey) (counter : Nat) :
    retell h (getOrCreateMessageKeys (reporting f) s theirEphemeral chainKey counter) = getOrCreateMessageKeys (reporting fun o => h (f o)) s theirEphemeral chainKey counter := by
  simp only [getOrCreateMessageKeys]
  retelling

@[local simp] theorem decryptWithSessionState_retell (s : SessionState) (msg : WhisperMessage) (seed : Bytes) :
    retell h (decryptWithSessionState (reporting f) s msg seed) = decryptWithSessionState (reporting fun o => h (f o)) s msg seed := by
  simp only [decryptWithSessionState]
  retelling

@[local simp] theorem tryPrevious_retell (r : SessionRecord) (msg : WhisperMessage) (seeds : Nat → Bytes) (x : List SessionState) (y : Nat) :
    retell h (tryPrevious (reporting f) r msg seeds x y) = tryPrevious (reporting fun o => h (f o)) r msg seeds x y := by
  induction x generalizing y with
  | nil => simp [tryPrevious]
  | cons p x ih =>
    simp only [tryPrevious]
    retelling
    exact ih _

@[local simp] theorem decryptWithSessionRecord_retell (r : SessionRecord) (msg : WhisperMessage) (seed : Bytes) (seeds : Nat → Bytes) :
    retell h (decryptWithSessionRecord (reporting f) r msg seed seeds) = decryptWithSessionRecord (reporting fun o => h (f o)) r msg seed seeds := by
  simp only [decryptWithSessionRecord]
  retelling

omit C in
@[local simp] theorem outcome_retell {α : Type} (x : Logged L (List Write × α)) :
    retell h (outcome x) = outcome (retell h x) := by
  simp only [outcome, retell_bind, retell_attempt, retell_pure]

@[local simp] theorem encrypt_retell (w : World) (addr : Address) (paddedMessage : Bytes) :
    retell h (encrypt (reporting f) w addr paddedMessage) = encrypt (reporting fun o => h (f o)) w addr paddedMessage := by
  simp only [encrypt]
  retelling

@[local simp] theorem decryptMsg_retell (w : World) (addr : Address) (msg : WhisperMessage) (seed : Bytes) (seeds : Nat → Bytes) :
    retell h (decryptMsg (reporting f) w addr msg seed seeds) = decryptMsg (reporting fun o => h (f o)) w addr msg seed seeds := by
  simp only [decryptMsg]
  retelling

@[local simp] theorem processV3_retell (w : World) (r : SessionRecord) (msg : PreKeyWhisperMessage) :
    retell h (processV3 (reporting f) w r msg) = processV3 (reporting fun o => h (f o)) w r msg := by
  simp only [processV3]
  retelling

@[local simp] theorem process_retell (w : World) (addr : Address) (r : SessionRecord) (msg : PreKeyWhisperMessage) :
    retell h (process (reporting f) w addr r msg) = process (reporting fun o => h (f o)) w addr r msg := by
  simp only [process]
  retelling

@[local simp] theorem decryptPkmsg_retell (w : World) (addr : Address) (msg : PreKeyWhisperMessage) (seed : Bytes) (seeds : Nat → Bytes) :
    retell h (decryptPkmsg (reporting f) w addr msg seed seeds) = decryptPkmsg (reporting fun o => h (f o)) w addr msg seed seeds := by
  simp only [decryptPkmsg]
  retelling

@[local simp] theorem processPreKeyBundle_retell (w : World) (addr : Address) (b : PreKeyBundle) (baseSeed ratchetSeed : Bytes) :
    retell h (processPreKeyBundle (reporting f) w addr b baseSeed ratchetSeed) = processPreKeyBundle (reporting fun o => h (f o)) w addr b baseSeed ratchetSeed := by
  simp only [processPreKeyBundle]
  retelling

@[local simp] theorem processInitiateState_retell (w : World) (addr : Address) (msg : KeyExchangeMessage) (rnd : SessionBuilder.InitiateRand) :
    retell h (processInitiateState (reporting f) w addr msg rnd) = processInitiateState (reporting fun o => h (f o)) w addr msg rnd := by
  simp only [processInitiateState]
  retelling

@[local simp] theorem processInitiate_retell (w : World) (addr : Address) (msg : KeyExchangeMessage) (rnd : SessionBuilder.InitiateRand) :
    retell h (processInitiate (reporting f) w addr msg rnd) = processInitiate (reporting fun o => h (f o)) w addr msg rnd := by
  simp only [processInitiate]
  retelling

@[local simp] theorem processResponse_retell (w : World) (addr : Address) (msg : KeyExchangeMessage) (sendSeed : Bytes) :
    retell h (processResponse (reporting f) w addr msg sendSeed) = processResponse (reporting fun o => h (f o)) w addr msg sendSeed := by
  simp only [processResponse]
  retelling

@[local simp] theorem processKeyExchangeMessage_retell (w : World) (addr : Address) (msg : KeyExchangeMessage) (rnd : SessionBuilder.InitiateRand) :
    retell h (processKeyExchangeMessage (reporting f) w addr msg rnd) = processKeyExchangeMessage (reporting fun o => h (f o)) w addr msg rnd := by
  simp only [processKeyExchangeMessage]
  retelling

@[local simp] theorem processInitKeyExchangeMessage_retell (w : World) (addr : Address) (rnd : Nat) (baseSeed ratchetSeed sigRand : Bytes) :
    retell h (processInitKeyExchangeMessage (reporting f) w addr rnd baseSeed ratchetSeed sigRand) = processInitKeyExchangeMessage (reporting fun o => h (f o)) w addr rnd baseSeed ratchetSeed sigRand := by
  simp only [processInitKeyExchangeMessage]
  retelling

@[local simp] theorem run_retell (w : World) (x : Call) :
    retell h (run (reporting f) w x) = run (reporting fun o => h (f o)) w x := by
  cases x <;> simp only [run] <;> retelling

@[local simp] theorem senderMessageKey_retell (iteration : Nat) (seed : Bytes) :
    retell h (senderMessageKey (reporting f) iteration seed) = senderMessageKey (reporting fun o => h (f o)) iteration seed := by
  simp only [senderMessageKey]
  retelling

@[local simp] theorem getSenderMessageKey_retell (c : SenderChainKey) :
    retell h (getSenderMessageKey (reporting f) c) = getSenderMessageKey (reporting fun o => h (f o)) c := by
  simp only [getSenderMessageKey]
  retelling

@[local simp] theorem getNext_retell (c : SenderChainKey) :
    retell h (getNext (reporting f) c) = getNext (reporting fun o => h (f o)) c := by
  simp only [getNext]
  retelling

@[local simp] theorem removeSenderMessageKey_retell (s : SenderKeyState) (iteration : Nat) :
    retell h (removeSenderMessageKey (reporting f) s iteration) = removeSenderMessageKey (reporting fun o => h (f o)) s iteration := by
  simp only [removeSenderMessageKey]
  retelling

@[local simp] theorem createSenderKeyMessage_retell (keyId iteration : Nat) (ciphertext : Bytes) (signatureKey : ECPriv) (rand : Bytes) :
    retell h (createSenderKeyMessage (reporting f) keyId iteration ciphertext signatureKey rand) = createSenderKeyMessage (reporting fun o => h (f o)) keyId iteration ciphertext signatureKey rand := by
  simp only [createSenderKeyMessage]
  retelling

@[local simp] theorem verifySenderKeyMessage_retell (msg : SenderKeyMessage) (signatureKey : ECPub) :
    retell h (verifySenderKeyMessage (reporting f) msg signatureKey) = verifySenderKeyMessage (reporting fun o => h (f o)) msg signatureKey := by
  simp only [verifySenderKeyMessage]
  retelling

@[local simp] theorem encryptWithRecord_retell (record : SenderKeyRecord) (paddedPlaintext : Bytes) (rand : Bytes) :
    retell h (encryptWithRecord (reporting f) record paddedPlaintext rand) = encryptWithRecord (reporting fun o => h (f o)) record paddedPlaintext rand := by
  simp only [encryptWithRecord]
  retelling

@[local simp] theorem groupEncrypt_retell (g : GroupStore) (n : SenderKeyName) (paddedPlaintext : Bytes) (rand : Bytes) :
    retell h (groupEncrypt (reporting f) g n paddedPlaintext rand) = groupEncrypt (reporting fun o => h (f o)) g n paddedPlaintext rand := by
  simp only [groupEncrypt]
  retelling

@[local simp] theorem groupSkipLoop_retell (x : Nat) (y : SenderKeyState) (z : SenderChainKey) :
    retell h (groupSkipLoop (reporting f) x y z) = groupSkipLoop (reporting fun o => h (f o)) x y z := by
  induction x generalizing y z with
  | zero => simp [groupSkipLoop]
  | succ x ih => simp [groupSkipLoop, ih]

@[local simp] theorem getSenderKey_retell (s : SenderKeyState) (iteration : Nat) :
    retell h (getSenderKey (reporting f) s iteration) = getSenderKey (reporting fun o => h (f o)) s iteration := by
  simp only [getSenderKey]
  retelling

@[local simp] theorem getPlainText_retell (iv key ciphertext : Bytes) :
    retell h (getPlainText (reporting f) iv key ciphertext) = getPlainText (reporting fun o => h (f o)) iv key ciphertext := by
  simp only [getPlainText]
  retelling

@[local simp] theorem decryptWithRecord_retell (record : SenderKeyRecord) (bytes : Bytes) :
    retell h (decryptWithRecord (reporting f) record bytes) = decryptWithRecord (reporting fun o => h (f o)) record bytes := by
  simp only [decryptWithRecord]
  retelling

@[local simp] theorem groupDecrypt_retell (g : GroupStore) (n : SenderKeyName) (bytes : Bytes) :
    retell h (groupDecrypt (reporting f) g n bytes) = groupDecrypt (reporting fun o => h (f o)) g n bytes := by
  simp only [groupDecrypt]
  retelling

@[local simp] theorem groupCreate_retell (g : GroupStore) (n : SenderKeyName) (rnd : GroupSessionBuilder.CreateRand) :
    retell h (groupCreate (reporting f) g n rnd) = groupCreate (reporting fun o => h (f o)) g n rnd := by
  simp only [groupCreate]
  retelling

@[local simp] theorem groupRun_retell (g : GroupStore) (x : GroupCall) :
    retell h (groupRun (reporting f) g x) = groupRun (reporting fun o => h (f o)) g x := by
  cases x <;> simp only [groupRun] <;> retelling

end Work
end
end Axolotl
