import Verif.Spec.Draws
import Verif.Proofs.Trace

/-! Which random bytes a call takes. -/

namespace Axolotl
namespace Traced
open Fallible Logged Spec

/-- Only these random bytes are taken, each at most as often as it is in the list, in this order. -/
structure Draws (l : List Bytes) {α : Type} (x : Traced α) : Prop where
  sub : (draws x.work).Sublist l

/-- Nothing random is taken. -/
abbrev Still {α : Type} (x : Traced α) : Prop := Draws [] x

theorem draws_append (a b : List Op) : draws (a ++ b) = draws a ++ draws b := List.flatMap_append ..

theorem draws_bind {α β : Type} {l l' : List Bytes} {x : Traced α} {f : α → Traced β} (hx : Draws l x)
    (hf : ∀ v, x.value = .ok v → Draws l' (f v)) : Draws (l ++ l') (x >>= f) := by
  constructor
  cases h : x.value with
  | ok v => rw [work_ok h, draws_append]; exact hx.sub.append (hf v h).sub
  | error e => rw [work_error h]; exact hx.sub.trans (List.sublist_append_left ..)

theorem still_bind {α β : Type} {l : List Bytes} {x : Traced α} {f : α → Traced β} (hx : Still x)
    (hf : ∀ v, x.value = .ok v → Draws l (f v)) : Draws l (x >>= f) := draws_bind hx hf

theorem Draws.mono {α : Type} {l l' : List Bytes} {x : Traced α} (h : Draws l x) (hl : l.Sublist l') : Draws l' x := ⟨h.sub.trans hl⟩

theorem Draws.still {α : Type} {x : Traced α} (h : Still x) (l : List Bytes) : Draws l x := h.mono (List.nil_sublist _)

theorem still_pure {α : Type} {l : List Bytes} (a : α) : Draws l (pure a : Traced α) := ⟨List.nil_sublist _⟩

theorem still_fail {α : Type} {l : List Bytes} (e : Err) : Draws l (fail e : Traced α) := ⟨List.nil_sublist _⟩

theorem still_lift {α : Type} {l : List Bytes} (r : Res α) : Draws l (Work.lift r : Traced α) := by
  cases r with
  | ok a => exact still_pure a
  | error e => exact still_fail e

theorem still_attempt {α : Type} {l : List Bytes} {x : Traced α} (h : Draws l x) : Draws l (attempt x : Traced (Res α)) := ⟨h.sub⟩

theorem still_ite {α : Type} {l : List Bytes} {c : Prop} [Decidable c] {x y : Traced α} (h1 : c → Draws l x) (h2 : ¬ c → Draws l y) :
    Draws l (if c then x else y) := by
  by_cases h : c
  · rw [if_pos h]; exact h1 h
  · rw [if_neg h]; exact h2 h

end Traced

section
variable [C : Crypto]
namespace Work
open Logged Traced Fallible Spec

omit C in
theorem one_still {α : Type} {x : Traced α} {o : Op} (h : x.work = [o]) (ho : drawnBy o = []) : Still x := by
  constructor
  rw [h]
  simp [draws, ho]

theorem hmac_still (k d : Bytes) : Still (tracing.hmac k d) := one_still (o := .hmac k d) rfl rfl

theorem expandLoop_still (prk info : Bytes) (n i : Nat) (mixin : Bytes) (rem : Nat) :
    Still (expandLoop tracing prk info n i mixin rem) := by
  induction n generalizing i mixin rem with
  | zero => exact still_pure _
  | succ n ih =>
    unfold expandLoop
    exact still_bind (hmac_still ..) fun _ _ => still_bind (ih ..) fun _ _ => still_pure _

theorem deriveSecrets_still (k : Kdf) (ikm info : Bytes) (n : Nat) (salt : Bytes) :
    Still (deriveSecrets tracing k ikm info n salt) := by
  unfold deriveSecrets
  exact still_bind (hmac_still ..) fun _ _ => expandLoop_still ..

theorem calculateAgreement_still (a : ECPub) (b : ECPriv) : Still (calculateAgreement tracing a b) :=
  one_still (calculateAgreement_trace a b) rfl

theorem getNextChainKey_still (c : ChainKey) : Still (getNextChainKey tracing c) := by
  unfold getNextChainKey
  exact still_bind (hmac_still ..) fun _ _ => still_pure _

theorem getMessageKeys_still (c : ChainKey) : Still (getMessageKeys tracing c) := by
  unfold getMessageKeys
  exact still_bind (hmac_still ..) fun _ _ => still_bind (deriveSecrets_still ..) fun _ _ => still_pure _

theorem createChain_still (r : RootKey) (t : ECPub) (o : KeyPair) : Still (createChain tracing r t o) := by
  unfold createChain
  exact still_bind (calculateAgreement_still ..) fun _ _ => still_bind (deriveSecrets_still ..) fun _ _ => still_pure _

theorem skipLoop_still (t : ECPub) (n : Nat) (s : SessionState) (c : ChainKey) : Still (skipLoop tracing t n s c) := by
  induction n generalizing s c with
  | zero => exact still_pure _
  | succ n ih =>
    unfold skipLoop
    exact still_bind (getMessageKeys_still _) fun _ _ => still_bind (still_lift _) fun _ _ =>
      still_bind (getNextChainKey_still _) fun _ _ => ih ..

theorem getOrCreateMessageKeys_still (s : SessionState) (t : ECPub) (c : ChainKey) (n : Nat) :
    Still (getOrCreateMessageKeys tracing s t c n) := by
  unfold getOrCreateMessageKeys
  exact still_ite (fun _ => still_bind (still_lift _) fun _ _ => still_ite (fun _ => still_lift _) fun _ => still_fail _) fun _ =>
    still_ite (fun _ => still_fail _) fun _ => still_bind (skipLoop_still ..) fun _ _ => still_bind (getNextChainKey_still _) fun _ _ =>
    still_bind (still_lift _) fun _ _ => still_bind (getMessageKeys_still _) fun _ _ => still_pure _

theorem calculateDerivedKeys_still (d : Bytes) : Still (calculateDerivedKeys tracing d) := by
  unfold calculateDerivedKeys
  exact still_bind (deriveSecrets_still ..) fun _ _ => still_pure _

theorem bobSecrets_still (p : BobParameters) : Still (bobSecrets tracing p) := by
  unfold bobSecrets
  cases h : p.ourOneTimePreKey with
  | none =>
    exact still_bind (calculateAgreement_still ..) fun _ _ => still_bind (calculateAgreement_still ..) fun _ _ =>
      still_bind (calculateAgreement_still ..) fun _ _ => still_bind (still_pure _) fun _ _ => still_pure _
  | some k =>
    exact still_bind (calculateAgreement_still ..) fun _ _ => still_bind (calculateAgreement_still ..) fun _ _ =>
      still_bind (calculateAgreement_still ..) fun _ _ => still_bind (calculateAgreement_still ..) fun _ _ => still_pure _

theorem asBob_still (s : SessionState) (p : BobParameters) : Still (initializeSessionAsBob tracing s p) := by
  unfold initializeSessionAsBob
  exact still_bind (bobSecrets_still _) fun _ _ => still_bind (calculateDerivedKeys_still _) fun _ _ =>
    still_bind (still_lift _) fun _ _ => still_pure _

theorem processV3_still (w : World) (r : SessionRecord) (m : PreKeyWhisperMessage) : Still (processV3 tracing w r m) := by
  unfold processV3
  refine still_ite (fun _ => still_pure _) fun _ => still_bind (still_lift _) fun _ _ => still_bind (still_lift _) fun _ _ => ?_
  cases m.preKeyId with
  | none =>
    exact still_bind (still_pure _) fun _ _ => still_bind (asBob_still ..) fun _ _ => still_bind (still_lift _) fun _ _ =>
      still_bind (still_lift _) fun _ _ => still_pure _
  | some i =>
    exact still_bind (still_lift _) fun _ _ => still_bind (still_lift _) fun _ _ => still_bind (still_pure _) fun _ _ =>
      still_bind (asBob_still ..) fun _ _ => still_bind (still_lift _) fun _ _ =>
      still_bind (still_lift _) fun _ _ => still_pure _

theorem process_still (w : World) (a : Address) (r : SessionRecord) (m : PreKeyWhisperMessage) : Still (process tracing w a r m) := by
  unfold process
  refine still_ite (fun _ => still_pure _) fun _ => still_bind (still_attempt (processV3_still ..)) fun v _ => ?_
  cases v <;> exact still_pure _

theorem aliceSecrets_still (p : AliceParameters) : Still (aliceSecrets tracing p) := by
  unfold aliceSecrets
  cases h : p.theirOneTimePreKey with
  | none =>
    exact still_bind (calculateAgreement_still ..) fun _ _ => still_bind (calculateAgreement_still ..) fun _ _ =>
      still_bind (calculateAgreement_still ..) fun _ _ => still_bind (still_pure _) fun _ _ => still_pure _
  | some k =>
    exact still_bind (calculateAgreement_still ..) fun _ _ => still_bind (calculateAgreement_still ..) fun _ _ =>
      still_bind (calculateAgreement_still ..) fun _ _ => still_bind (calculateAgreement_still ..) fun _ _ => still_pure _

theorem generateKeyPair_draws (seed : Bytes) : Draws [seed] (generateKeyPair tracing seed) := by
  constructor
  unfold generateKeyPair
  rw [work_ok (value_genPriv _), work_ok (value_genPub _), work_pure]
  exact List.Sublist.refl _

theorem verifySignature_still (k : ECPub) (d s : Bytes) : Still (verifySignature tracing k d s) := one_still (verifySignature_trace k d s) rfl

theorem calculateSignature_draws (r : Bytes) (k : ECPriv) (d : Bytes) : Draws [r] (calculateSignature tracing r k d) := by
  constructor
  unfold calculateSignature
  rw [work_ok (value_calcSig _ _ _), orValueError_trace]
  exact List.Sublist.refl _

theorem cbcEnc_still (key : Bytes) (n : Nat) (prev d : Bytes) : Still (cbcEnc tracing key n prev d) := by
  induction n generalizing prev d with
  | zero => exact still_pure _
  | succ n ih =>
    unfold cbcEnc
    exact still_bind (one_still (o := .aesEnc _ _) rfl rfl) fun _ _ => still_bind (ih ..) fun _ _ => still_pure _

theorem cbcDec_still (key : Bytes) (n : Nat) (prev d : Bytes) : Still (cbcDec tracing key n prev d) := by
  induction n generalizing prev d with
  | zero => exact still_pure _
  | succ n ih =>
    unfold cbcDec
    exact still_bind (one_still (o := .aesDec _ _) rfl rfl) fun _ _ => still_bind (ih ..) fun _ _ => still_pure _

theorem aesEncrypt_still (key iv raw : Bytes) : Still (aesEncrypt tracing key iv raw) := by
  unfold aesEncrypt
  exact still_ite (fun _ => cbcEnc_still ..) fun _ => still_fail _

theorem aesDecrypt_still (key iv enc : Bytes) : Still (aesDecrypt tracing key iv enc) := by
  unfold aesDecrypt
  exact still_ite (fun _ => still_ite (fun _ => still_bind (cbcDec_still ..) fun _ _ => still_lift _) fun _ => still_fail _) fun _ => still_fail _

theorem getMac_still (v : Nat) (a b : ECPub) (k d : Bytes) : Still (getMac tracing v a b k d) := by
  unfold getMac
  exact still_bind (hmac_still ..) fun _ _ => still_pure _

theorem verifyMac_still (m : WhisperMessage) (v : Nat) (a b : ECPub) (k : Bytes) : Still (verifyMac tracing m v a b k) := by
  unfold verifyMac
  exact still_bind (getMac_still ..) fun _ _ => still_ite (fun _ => still_fail _) fun _ => still_pure _

theorem createWhisperMessage_still (v : Nat) (k : Bytes) (a : ECPub) (n pn : Nat) (ct : Bytes) (i j : ECPub) :
    Still (createWhisperMessage tracing v k a n pn ct i j) := by
  unfold createWhisperMessage
  exact still_bind (still_lift _) fun _ _ => still_bind (still_lift _) fun _ _ => still_bind (getMac_still ..) fun _ _ => still_pure _

theorem encryptWithState_still (s : SessionState) (pt : Bytes) : Still (encryptWithState tracing s pt) := by
  unfold encryptWithState
  refine still_bind (still_lift _) fun _ _ => still_bind (getMessageKeys_still _) fun _ _ => still_bind (still_lift _) fun _ _ =>
    still_bind (aesEncrypt_still ..) fun _ _ => still_bind (still_lift _) fun _ _ => still_bind (still_lift _) fun _ _ =>
    still_bind (createWhisperMessage_still ..) fun _ _ => ?_
  split
  · exact still_bind (still_lift _) fun _ _ => still_bind (still_lift _) fun _ _ => still_bind (still_pure _) fun _ _ =>
      still_bind (getNextChainKey_still _) fun _ _ => still_bind (still_lift _) fun _ _ => still_pure _
  · exact still_bind (still_pure _) fun _ _ =>
      still_bind (getNextChainKey_still _) fun _ _ => still_bind (still_lift _) fun _ _ => still_pure _

theorem getOrCreateChainKey_draws (s : SessionState) (t : ECPub) (seed : Bytes) : Draws [seed] (getOrCreateChainKey tracing s t seed) := by
  unfold getOrCreateChainKey
  refine still_bind (still_lift _) fun _ _ => still_ite (fun _ => still_bind (still_lift _) fun _ _ => still_pure _) fun _ =>
    still_bind (still_lift _) fun _ _ => still_bind (still_lift _) fun _ _ => still_bind (createChain_still ..) fun _ _ =>
    draws_bind (l' := []) (generateKeyPair_draws _) fun _ _ => still_bind (createChain_still ..) fun _ _ => still_bind (still_lift _) fun _ _ =>
    still_bind (still_lift _) fun _ _ => still_bind (still_lift _) fun _ _ => still_pure _

theorem state_draws (s : SessionState) (m : WhisperMessage) (seed : Bytes) : Draws [seed] (decryptWithSessionState tracing s m seed) := by
  unfold decryptWithSessionState
  exact still_ite (fun _ => still_fail _) fun _ => still_ite (fun _ => still_fail _) fun _ =>
    draws_bind (l' := []) (getOrCreateChainKey_draws ..) fun _ _ => still_bind (getOrCreateMessageKeys_still ..) fun _ _ =>
    still_bind (still_lift _) fun _ _ => still_bind (still_lift _) fun _ _ => still_bind (verifyMac_still ..) fun _ _ =>
    still_bind (aesDecrypt_still ..) fun _ _ => still_pure _

theorem tryPrevious_draws (r : SessionRecord) (m : WhisperMessage) (seeds : Nat → Bytes) (l : List SessionState) (i : Nat) :
    Draws ((List.range' i l.length).map seeds) (tryPrevious tracing r m seeds l i) := by
  induction l generalizing i with
  | nil => exact still_fail _
  | cons p l ih =>
    unfold tryPrevious
    refine draws_bind (l := [seeds i]) (still_attempt (state_draws ..)) fun v _ => ?_
    split
    · exact still_pure _
    · exact ih (i + 1)
    · exact still_fail _

theorem record_draws (r : SessionRecord) (m : WhisperMessage) (seed : Bytes) (seeds : Nat → Bytes) :
    Draws (seed :: (List.range r.previousStates.length).map seeds) (decryptWithSessionRecord tracing r m seed seeds) := by
  unfold decryptWithSessionRecord
  refine draws_bind (l := [seed]) (still_attempt (state_draws ..)) fun v _ => ?_
  split
  · exact still_pure _
  · rw [List.range_eq_range']; exact tryPrevious_draws ..
  · exact still_fail _

theorem asAlice_draws (s : SessionState) (p : AliceParameters) (seed : Bytes) : Draws [seed] (initializeSessionAsAlice tracing s p seed) := by
  unfold initializeSessionAsAlice
  exact draws_bind (l' := []) (generateKeyPair_draws _) fun _ _ => still_bind (aliceSecrets_still _) fun _ _ =>
    still_bind (calculateDerivedKeys_still _) fun _ _ => still_bind (createChain_still ..) fun _ _ =>
    still_bind (still_lift _) fun _ _ => still_bind (still_lift _) fun _ _ => still_pure _

theorem initializeSession_draws (s : SessionState) (p : SymmetricParameters) (seed : Bytes) : Draws [seed] (initializeSession tracing s p seed) := by
  unfold initializeSession
  exact still_bind (still_lift _) fun _ _ => still_ite (fun _ => asAlice_draws ..) fun _ => (asBob_still ..).still _

theorem bundle_draws (w : World) (a : Address) (b : PreKeyBundle) (s1 s2 : Bytes) : Draws [s1, s2] (processPreKeyBundle tracing w a b s1 s2) := by
  constructor
  unfold processPreKeyBundle
  rw [outcome_trace]
  refine Draws.sub ?_
  refine still_ite (fun _ => still_fail _) fun _ => ?_
  cases b.signedPreKey with
  | none => exact still_fail _
  | some spk =>
    exact still_bind (verifySignature_still ..) fun _ _ => still_ite (fun _ => still_fail _) fun _ =>
      draws_bind (l' := [s2]) (generateKeyPair_draws _) fun _ _ => draws_bind (l' := []) (asAlice_draws ..) fun _ _ =>
      still_bind (still_lift _) fun _ _ => still_bind (still_lift _) fun _ _ => still_bind (still_lift _) fun _ _ => still_pure _

theorem initiateState_draws (w : World) (a : Address) (m : KeyExchangeMessage) (r : SessionBuilder.InitiateRand) :
    Draws [r.baseSeed, r.ratchetSeed, r.sendSeed] (processInitiateState tracing w a m r) := by
  unfold processInitiateState
  refine still_bind (verifySignature_still ..) fun _ _ => still_ite (fun _ => still_fail _) fun _ => ?_
  refine still_ite (fun _ => ?_) fun _ => ?_
  · exact draws_bind (l' := [r.ratchetSeed, r.sendSeed]) (generateKeyPair_draws _) fun _ _ =>
      draws_bind (l' := [r.sendSeed]) (generateKeyPair_draws _) fun _ _ => still_bind (still_pure _) fun _ _ =>
      draws_bind (l' := []) (initializeSession_draws ..) fun _ _ => still_pure _
  · refine Draws.mono (l := [r.sendSeed]) ?_ (.cons _ (.cons _ (List.Sublist.refl _)))
    exact still_bind (still_lift _) fun _ _ => still_bind (still_lift _) fun _ _ => still_bind (still_lift _) fun _ _ =>
      still_bind (still_pure _) fun _ _ => draws_bind (l' := []) (initializeSession_draws ..) fun _ _ => still_pure _

theorem initiate_draws (w : World) (a : Address) (m : KeyExchangeMessage) (r : SessionBuilder.InitiateRand) :
    Draws [r.baseSeed, r.ratchetSeed, r.sendSeed, r.sigRand] (processInitiate tracing w a m r) := by
  unfold processInitiate
  refine draws_bind (l := [r.baseSeed, r.ratchetSeed, r.sendSeed]) (l' := [r.sigRand]) (still_attempt (initiateState_draws ..)) fun v _ => ?_
  split
  · exact still_pure _
  · exact draws_bind (l' := []) (still_attempt (draws_bind (l' := []) (calculateSignature_draws ..) fun _ _ => still_bind (still_lift _) fun _ _ =>
      still_pure _)) fun _ _ => still_pure _

theorem response_draws (w : World) (a : Address) (m : KeyExchangeMessage) (s : Bytes) : Draws [s] (processResponse tracing w a m s) := by
  unfold processResponse
  refine still_ite (fun _ => still_ite (fun _ => still_pure _) fun _ => still_pure _) fun _ => ?_
  constructor
  rw [outcome_trace]
  refine Draws.sub ?_
  exact still_bind (still_lift _) fun _ _ => still_bind (still_lift _) fun _ _ => still_bind (still_lift _) fun _ _ =>
    draws_bind (l' := []) (initializeSession_draws ..) fun _ _ => still_bind (verifySignature_still ..) fun _ _ =>
    still_ite (fun _ => still_fail _) fun _ => still_pure _

theorem init_draws (w : World) (a : Address) (n : Nat) (s1 s2 s3 : Bytes) :
    Draws [s1, s2, s3] (processInitKeyExchangeMessage tracing w a n s1 s2 s3) := by
  unfold processInitKeyExchangeMessage
  refine draws_bind (l' := [s2, s3]) (generateKeyPair_draws _) fun _ _ => draws_bind (l' := [s3]) (generateKeyPair_draws _) fun _ _ =>
    draws_bind (l' := []) (still_attempt (draws_bind (l' := []) (calculateSignature_draws ..) fun _ _ => still_bind (still_lift _) fun _ _ =>
      still_pure _)) fun v _ => ?_
  split <;> exact still_pure _

theorem senderMessageKey_still (i : Nat) (s : Bytes) : Still (senderMessageKey tracing i s) := by
  unfold senderMessageKey
  exact still_bind (deriveSecrets_still ..) fun _ _ => still_pure _

theorem getSenderMessageKey_still (c : SenderChainKey) : Still (getSenderMessageKey tracing c) := by
  unfold getSenderMessageKey
  exact still_bind (hmac_still ..) fun _ _ => senderMessageKey_still ..

theorem getNext_still (c : SenderChainKey) : Still (getNext tracing c) := by
  unfold getNext
  exact still_bind (hmac_still ..) fun _ _ => still_pure _

theorem groupSkipLoop_still (n : Nat) (s : SenderKeyState) (c : SenderChainKey) : Still (groupSkipLoop tracing n s c) := by
  induction n generalizing s c with
  | zero => exact still_pure _
  | succ n ih =>
    unfold groupSkipLoop
    exact still_bind (getSenderMessageKey_still _) fun _ _ => still_bind (still_lift _) fun _ _ => still_bind (getNext_still _) fun _ _ => ih ..

theorem getSenderKey_still (s : SenderKeyState) (i : Nat) : Still (getSenderKey tracing s i) := by
  unfold getSenderKey
  refine still_ite (fun _ => still_ite (fun _ => ?_) fun _ => still_fail _) fun _ => still_ite (fun _ => still_fail _) fun _ =>
    still_bind (groupSkipLoop_still ..) fun _ _ => still_bind (getNext_still _) fun _ _ => still_bind (still_lift _) fun _ _ =>
    still_bind (getSenderMessageKey_still _) fun _ _ => still_pure _
  refine still_bind ?_ fun v _ => ?_
  · unfold removeSenderMessageKey
    split
    · exact still_pure _
    · exact still_bind (senderMessageKey_still ..) fun _ _ => still_pure _
  · split
    · exact still_pure _
    · exact still_fail _

theorem groupDecrypt_still (g : GroupStore) (n : SenderKeyName) (b : Bytes) : Still (groupDecrypt tracing g n b) := by
  unfold groupDecrypt
  refine still_bind (still_attempt ?_) fun v _ => ?_
  · unfold decryptWithRecord
    refine still_ite (fun _ => still_fail _) fun _ => still_bind (still_lift _) fun _ _ => still_bind (still_lift _) fun _ _ =>
      still_bind (still_lift _) fun _ _ => still_bind ?_ fun _ _ => still_bind (getSenderKey_still ..) fun _ _ =>
      still_bind ?_ fun _ _ => still_pure _
    · unfold verifySenderKeyMessage
      exact still_bind (verifySignature_still ..) fun _ _ => still_ite (fun _ => still_pure _) fun _ => still_fail _
    · unfold getPlainText
      exact still_bind (still_attempt (aesDecrypt_still ..)) fun _ _ => still_lift _
  · split <;> exact still_pure _

theorem groupEncrypt_draws (g : GroupStore) (n : SenderKeyName) (pt rand : Bytes) : Draws [rand] (groupEncrypt tracing g n pt rand) := by
  unfold groupEncrypt
  refine draws_bind (l := [rand]) (l' := []) (still_attempt ?_) fun v _ => ?_
  · unfold encryptWithRecord
    refine still_bind (still_lift _) fun _ _ => still_bind (getSenderMessageKey_still _) fun _ _ => still_bind (aesEncrypt_still ..) fun _ _ =>
      draws_bind (l := [rand]) (l' := []) ?_ fun _ _ => still_bind (getNext_still _) fun _ _ => still_bind (still_lift _) fun _ _ => still_pure _
    unfold createSenderKeyMessage
    exact still_bind (still_lift _) fun _ _ => still_bind (still_lift _) fun _ _ =>
      draws_bind (l' := []) (calculateSignature_draws ..) fun _ _ => still_pure _
  · split <;> exact still_pure _

theorem groupCreate_draws (g : GroupStore) (n : SenderKeyName) (r : GroupSessionBuilder.CreateRand) :
    Draws [r.signSeed] (groupCreate tracing g n r) := by
  unfold groupCreate
  exact still_ite (fun _ => draws_bind (l' := []) (generateKeyPair_draws _) fun _ _ => still_pure _) fun _ => still_pure _

end Work
end
end Axolotl
