import Verif.Spec.Agreements
import Verif.Proofs.Signing

/-! Which agreements a call makes. -/

namespace Axolotl
namespace Traced
open Fallible Logged Spec
variable {Q : ECPriv → ECPub → Prop}

/-- Only these agreements are made. -/
structure Meets (Q : ECPriv → ECPub → Prop) {α : Type} (x : Traced α) : Prop where
  each : ∀ k p, Op.dh k p ∈ x.work → Q k p

theorem Meets.mono {Q' : ECPriv → ECPub → Prop} {α : Type} {x : Traced α} (h : Meets Q x) (hq : ∀ k p, Q k p → Q' k p) :
    Meets Q' x := ⟨fun k p hm => hq k p (h.each k p hm)⟩

theorem meets_bind {α β : Type} {x : Traced α} {f : α → Traced β} (hx : Meets Q x)
    (hf : ∀ v, x.value = .ok v → Meets Q (f v)) : Meets Q (x >>= f) := by
  constructor
  intro k p hm
  cases h : x.value with
  | ok v =>
    rw [work_ok h] at hm
    rcases List.mem_append.1 hm with hm | hm
    · exact hx.each k p hm
    · exact (hf v h).each k p hm
  | error e => rw [work_error h] at hm; exact hx.each k p hm

theorem meets_pure {α : Type} (a : α) : Meets Q (pure a : Traced α) := ⟨fun _ _ h => by cases h⟩

theorem meets_fail {α : Type} (e : Err) : Meets Q (fail e : Traced α) := ⟨fun _ _ h => by cases h⟩

theorem meets_lift {α : Type} (r : Res α) : Meets Q (Work.lift r : Traced α) := by
  cases r with
  | ok a => exact meets_pure a
  | error e => exact meets_fail e

theorem meets_attempt {α : Type} {x : Traced α} (h : Meets Q x) : Meets Q (attempt x : Traced (Res α)) := ⟨h.each⟩

theorem meets_ite {α : Type} {c : Prop} [Decidable c] {x y : Traced α} (h1 : c → Meets Q x)
    (h2 : ¬ c → Meets Q y) : Meets Q (if c then x else y) := by
  by_cases h : c
  · rw [if_pos h]; exact h1 h
  · rw [if_neg h]; exact h2 h

end Traced

section
variable [C : Crypto]
namespace Work
open Logged Traced Fallible Spec
variable {Q : ECPriv → ECPub → Prop}

omit C in
theorem one_meets {α : Type} {x : Traced α} {o : Op} (h : x.work = [o]) (ho : ∀ k p, o = .dh k p → Q k p) : Meets Q x := by
  constructor
  intro k p hm
  rw [h] at hm
  exact ho k p (List.mem_singleton.1 hm).symm

theorem hmac_meets (k d : Bytes) : Meets Q (tracing.hmac k d) := one_meets (o := .hmac k d) rfl fun _ _ h => by cases h

theorem generateKeyPair_meets (seed : Bytes) : Meets Q (generateKeyPair tracing seed) := by
  unfold generateKeyPair
  exact meets_bind (one_meets (o := .genPriv seed) rfl fun _ _ h => by cases h) fun v _ =>
    meets_bind (one_meets (o := .genPub v) rfl fun _ _ h => by cases h) fun _ _ => meets_pure _

theorem verifySignature_meets (k : ECPub) (d s : Bytes) : Meets Q (verifySignature tracing k d s) :=
  one_meets (verifySignature_trace k d s) fun _ _ h => by cases h

theorem calculateSignature_meets (r : Bytes) (k : ECPriv) (d : Bytes) : Meets Q (calculateSignature tracing r k d) := by
  constructor
  intro k' p hm
  unfold calculateSignature at hm
  rw [work_ok (value_calcSig _ _ _), orValueError_trace, List.append_nil] at hm
  cases List.mem_singleton.1 hm

theorem calculateAgreement_meets {a : ECPub} {b : ECPriv} (h : Q b a) : Meets Q (calculateAgreement tracing a b) :=
  one_meets (calculateAgreement_trace a b) fun _ _ e => by cases e; exact h

theorem expandLoop_meets (prk info : Bytes) (n i : Nat) (mixin : Bytes) (rem : Nat) :
    Meets Q (expandLoop tracing prk info n i mixin rem) := by
  induction n generalizing i mixin rem with
  | zero => exact meets_pure _
  | succ n ih =>
    unfold expandLoop
    exact meets_bind (hmac_meets ..) fun _ _ => meets_bind (ih ..) fun _ _ => meets_pure _

theorem deriveSecrets_meets (k : Kdf) (ikm info : Bytes) (n : Nat) (salt : Bytes) :
    Meets Q (deriveSecrets tracing k ikm info n salt) := by
  unfold deriveSecrets
  exact meets_bind (hmac_meets ..) fun _ _ => expandLoop_meets ..

theorem getNextChainKey_meets (c : ChainKey) : Meets Q (getNextChainKey tracing c) := by
  unfold getNextChainKey
  exact meets_bind (hmac_meets ..) fun _ _ => meets_pure _

theorem getMessageKeys_meets (c : ChainKey) : Meets Q (getMessageKeys tracing c) := by
  unfold getMessageKeys
  exact meets_bind (hmac_meets ..) fun _ _ => meets_bind (deriveSecrets_meets ..) fun _ _ => meets_pure _

theorem skipLoop_meets (t : ECPub) (n : Nat) (s : SessionState) (c : ChainKey) : Meets Q (skipLoop tracing t n s c) := by
  induction n generalizing s c with
  | zero => exact meets_pure _
  | succ n ih =>
    unfold skipLoop
    exact meets_bind (getMessageKeys_meets _) fun _ _ => meets_bind (meets_lift _) fun _ _ =>
      meets_bind (getNextChainKey_meets _) fun _ _ => ih ..

theorem getOrCreateMessageKeys_meets (s : SessionState) (t : ECPub) (c : ChainKey) (n : Nat) :
    Meets Q (getOrCreateMessageKeys tracing s t c n) := by
  unfold getOrCreateMessageKeys
  exact meets_ite (fun _ => meets_bind (meets_lift _) fun _ _ => meets_ite (fun _ => meets_lift _) fun _ => meets_fail _) fun _ =>
    meets_ite (fun _ => meets_fail _) fun _ => meets_bind (skipLoop_meets ..) fun _ _ => meets_bind (getNextChainKey_meets _) fun _ _ =>
    meets_bind (meets_lift _) fun _ _ => meets_bind (getMessageKeys_meets _) fun _ _ => meets_pure _

theorem calculateDerivedKeys_meets (d : Bytes) : Meets Q (calculateDerivedKeys tracing d) := by
  unfold calculateDerivedKeys
  exact meets_bind (deriveSecrets_meets ..) fun _ _ => meets_pure _

theorem cbcEnc_meets (key : Bytes) (n : Nat) (prev d : Bytes) : Meets Q (cbcEnc tracing key n prev d) := by
  induction n generalizing prev d with
  | zero => exact meets_pure _
  | succ n ih =>
    unfold cbcEnc
    exact meets_bind (one_meets (o := .aesEnc _ _) rfl fun _ _ h => by cases h) fun _ _ => meets_bind (ih ..) fun _ _ => meets_pure _

theorem cbcDec_meets (key : Bytes) (n : Nat) (prev d : Bytes) : Meets Q (cbcDec tracing key n prev d) := by
  induction n generalizing prev d with
  | zero => exact meets_pure _
  | succ n ih =>
    unfold cbcDec
    exact meets_bind (one_meets (o := .aesDec _ _) rfl fun _ _ h => by cases h) fun _ _ => meets_bind (ih ..) fun _ _ => meets_pure _

theorem aesEncrypt_meets (key iv raw : Bytes) : Meets Q (aesEncrypt tracing key iv raw) := by
  unfold aesEncrypt
  exact meets_ite (fun _ => cbcEnc_meets ..) fun _ => meets_fail _

theorem aesDecrypt_meets (key iv enc : Bytes) : Meets Q (aesDecrypt tracing key iv enc) := by
  unfold aesDecrypt
  exact meets_ite (fun _ => meets_ite (fun _ => meets_bind (cbcDec_meets ..) fun _ _ => meets_lift _) fun _ => meets_fail _) fun _ => meets_fail _

theorem getMac_meets (v : Nat) (a b : ECPub) (k d : Bytes) : Meets Q (getMac tracing v a b k d) := by
  unfold getMac
  exact meets_bind (hmac_meets ..) fun _ _ => meets_pure _

theorem verifyMac_meets (m : WhisperMessage) (v : Nat) (a b : ECPub) (k : Bytes) : Meets Q (verifyMac tracing m v a b k) := by
  unfold verifyMac
  exact meets_bind (getMac_meets ..) fun _ _ => meets_ite (fun _ => meets_fail _) fun _ => meets_pure _

theorem createWhisperMessage_meets (v : Nat) (k : Bytes) (a : ECPub) (n pn : Nat) (ct : Bytes) (i j : ECPub) :
    Meets Q (createWhisperMessage tracing v k a n pn ct i j) := by
  unfold createWhisperMessage
  exact meets_bind (meets_lift _) fun _ _ => meets_bind (meets_lift _) fun _ _ => meets_bind (getMac_meets ..) fun _ _ => meets_pure _

theorem encryptWithState_meets (s : SessionState) (pt : Bytes) : Meets Q (encryptWithState tracing s pt) := by
  unfold encryptWithState
  refine meets_bind (meets_lift _) fun _ _ => meets_bind (getMessageKeys_meets _) fun _ _ => meets_bind (meets_lift _) fun _ _ =>
    meets_bind (aesEncrypt_meets ..) fun _ _ => meets_bind (meets_lift _) fun _ _ => meets_bind (meets_lift _) fun _ _ =>
    meets_bind (createWhisperMessage_meets ..) fun _ _ => ?_
  split
  · exact meets_bind (meets_lift _) fun _ _ => meets_bind (meets_lift _) fun _ _ => meets_bind (meets_pure _) fun _ _ =>
      meets_bind (getNextChainKey_meets _) fun _ _ => meets_bind (meets_lift _) fun _ _ => meets_pure _
  · exact meets_bind (meets_pure _) fun _ _ =>
      meets_bind (getNextChainKey_meets _) fun _ _ => meets_bind (meets_lift _) fun _ _ => meets_pure _

theorem senderMessageKey_meets (i : Nat) (s : Bytes) : Meets Q (senderMessageKey tracing i s) := by
  unfold senderMessageKey
  exact meets_bind (deriveSecrets_meets ..) fun _ _ => meets_pure _

theorem getSenderMessageKey_meets (c : SenderChainKey) : Meets Q (getSenderMessageKey tracing c) := by
  unfold getSenderMessageKey
  exact meets_bind (hmac_meets ..) fun _ _ => senderMessageKey_meets ..

theorem getNext_meets (c : SenderChainKey) : Meets Q (getNext tracing c) := by
  unfold getNext
  exact meets_bind (hmac_meets ..) fun _ _ => meets_pure _

theorem groupSkipLoop_meets (n : Nat) (s : SenderKeyState) (c : SenderChainKey) : Meets Q (groupSkipLoop tracing n s c) := by
  induction n generalizing s c with
  | zero => exact meets_pure _
  | succ n ih =>
    unfold groupSkipLoop
    exact meets_bind (getSenderMessageKey_meets _) fun _ _ => meets_bind (meets_lift _) fun _ _ => meets_bind (getNext_meets _) fun _ _ => ih ..

theorem getSenderKey_meets (s : SenderKeyState) (i : Nat) : Meets Q (getSenderKey tracing s i) := by
  unfold getSenderKey
  refine meets_ite (fun _ => meets_ite (fun _ => ?_) fun _ => meets_fail _) fun _ => meets_ite (fun _ => meets_fail _) fun _ =>
    meets_bind (groupSkipLoop_meets ..) fun _ _ => meets_bind (getNext_meets _) fun _ _ => meets_bind (meets_lift _) fun _ _ =>
    meets_bind (getSenderMessageKey_meets _) fun _ _ => meets_pure _
  refine meets_bind ?_ fun v _ => ?_
  · unfold removeSenderMessageKey
    split
    · exact meets_pure _
    · exact meets_bind (senderMessageKey_meets ..) fun _ _ => meets_pure _
  · split
    · exact meets_pure _
    · exact meets_fail _

theorem groupDecrypt_meets (g : GroupStore) (n : SenderKeyName) (b : Bytes) : Meets Q (groupDecrypt tracing g n b) := by
  unfold groupDecrypt
  refine meets_bind (meets_attempt ?_) fun v _ => ?_
  · unfold decryptWithRecord
    refine meets_ite (fun _ => meets_fail _) fun _ => meets_bind (meets_lift _) fun _ _ => meets_bind (meets_lift _) fun _ _ =>
      meets_bind (meets_lift _) fun _ _ => meets_bind ?_ fun _ _ => meets_bind (getSenderKey_meets ..) fun _ _ =>
      meets_bind ?_ fun _ _ => meets_pure _
    · unfold verifySenderKeyMessage
      exact meets_bind (verifySignature_meets ..) fun _ _ => meets_ite (fun _ => meets_pure _) fun _ => meets_fail _
    · unfold getPlainText
      exact meets_bind (meets_attempt (aesDecrypt_meets ..)) fun _ _ => meets_lift _
  · split <;> exact meets_pure _

theorem groupEncrypt_meets (g : GroupStore) (n : SenderKeyName) (pt rand : Bytes) : Meets Q (groupEncrypt tracing g n pt rand) := by
  unfold groupEncrypt
  refine meets_bind (meets_attempt ?_) fun v _ => ?_
  · unfold encryptWithRecord
    refine meets_bind (meets_lift _) fun _ _ => meets_bind (getSenderMessageKey_meets _) fun _ _ => meets_bind (aesEncrypt_meets ..) fun _ _ =>
      meets_bind ?_ fun _ _ => meets_bind (getNext_meets _) fun _ _ => meets_bind (meets_lift _) fun _ _ => meets_pure _
    unfold createSenderKeyMessage
    exact meets_bind (meets_lift _) fun _ _ => meets_bind (meets_lift _) fun _ _ =>
      meets_bind (calculateSignature_meets ..) fun _ _ => meets_pure _
  · split <;> exact meets_pure _

theorem groupCreate_meets (g : GroupStore) (n : SenderKeyName) (r : GroupSessionBuilder.CreateRand) :
    Meets Q (groupCreate tracing g n r) := by
  unfold groupCreate
  exact meets_ite (fun _ => meets_bind (generateKeyPair_meets _) fun _ _ => meets_pure _) fun _ => meets_pure _

theorem createChain_meets (r : RootKey) {t : ECPub} {o : KeyPair} (h : Q o.priv t) : Meets Q (createChain tracing r t o) := by
  unfold createChain
  exact meets_bind (calculateAgreement_meets h) fun _ _ => meets_bind (deriveSecrets_meets ..) fun _ _ => meets_pure _

theorem bobSecrets_meets {p : BobParameters} (h1 : Q p.ourSignedPreKey.priv p.theirIdentityKey) (h2 : Q p.ourIdentityKey.priv p.theirBaseKey)
    (h3 : Q p.ourSignedPreKey.priv p.theirBaseKey) (h4 : ∀ k, p.ourOneTimePreKey = some k → Q k.priv p.theirBaseKey) :
    Meets Q (bobSecrets tracing p) := by
  unfold bobSecrets
  refine meets_bind (calculateAgreement_meets h1) fun _ _ => meets_bind (calculateAgreement_meets h2) fun _ _ =>
      meets_bind (calculateAgreement_meets h3) fun _ _ => ?_
  cases h : p.ourOneTimePreKey with
  | none => exact meets_bind (meets_pure _) fun _ _ => meets_pure _
  | some k => exact meets_bind (calculateAgreement_meets (h4 k h)) fun _ _ => meets_pure _

theorem asBob_meets (s : SessionState) {p : BobParameters} (h1 : Q p.ourSignedPreKey.priv p.theirIdentityKey)
    (h2 : Q p.ourIdentityKey.priv p.theirBaseKey) (h3 : Q p.ourSignedPreKey.priv p.theirBaseKey)
    (h4 : ∀ k, p.ourOneTimePreKey = some k → Q k.priv p.theirBaseKey) : Meets Q (initializeSessionAsBob tracing s p) := by
  unfold initializeSessionAsBob
  exact meets_bind (bobSecrets_meets h1 h2 h3 h4) fun _ _ => meets_bind (calculateDerivedKeys_meets _) fun _ _ =>
    meets_bind (meets_lift _) fun _ _ => meets_pure _

theorem aliceSecrets_meets {p : AliceParameters} (h1 : Q p.ourIdentityKey.priv p.theirSignedPreKey) (h2 : Q p.ourBaseKey.priv p.theirIdentityKey)
    (h3 : Q p.ourBaseKey.priv p.theirSignedPreKey) (h4 : ∀ k, p.theirOneTimePreKey = some k → Q p.ourBaseKey.priv k) :
    Meets Q (aliceSecrets tracing p) := by
  unfold aliceSecrets
  refine meets_bind (calculateAgreement_meets h1) fun _ _ => meets_bind (calculateAgreement_meets h2) fun _ _ =>
      meets_bind (calculateAgreement_meets h3) fun _ _ => ?_
  cases h : p.theirOneTimePreKey with
  | none => exact meets_bind (meets_pure _) fun _ _ => meets_pure _
  | some k => exact meets_bind (calculateAgreement_meets (h4 k h)) fun _ _ => meets_pure _

theorem asAlice_meets (s : SessionState) {p : AliceParameters} {seed : Bytes} (h1 : Q p.ourIdentityKey.priv p.theirSignedPreKey)
    (h2 : Q p.ourBaseKey.priv p.theirIdentityKey) (h3 : Q p.ourBaseKey.priv p.theirSignedPreKey)
    (h4 : ∀ k, p.theirOneTimePreKey = some k → Q p.ourBaseKey.priv k) (h5 : Q (C.genPriv seed) p.theirRatchetKey) :
    Meets Q (initializeSessionAsAlice tracing s p seed) := by
  unfold initializeSessionAsAlice
  refine meets_bind (generateKeyPair_meets _) fun k hk => meets_bind (aliceSecrets_meets h1 h2 h3 h4) fun _ _ =>
    meets_bind (calculateDerivedKeys_meets _) fun _ _ => meets_bind (createChain_meets _ ?_) fun _ _ =>
    meets_bind (meets_lift _) fun _ _ => meets_bind (meets_lift _) fun _ _ => meets_pure _
  rw [generateKeyPair_value] at hk
  obtain rfl := Except.ok.inj hk
  exact h5

theorem initializeSession_meets (s : SessionState) {p : SymmetricParameters} {seed : Bytes} (h1 : Q p.ourIdentityKey.priv p.theirBaseKey)
    (h2 : Q p.ourBaseKey.priv p.theirIdentityKey) (h3 : Q p.ourBaseKey.priv p.theirBaseKey) (h5 : Q (C.genPriv seed) p.theirRatchetKey) :
    Meets Q (initializeSession tracing s p seed) := by
  unfold initializeSession
  exact meets_bind (meets_lift _) fun _ _ => meets_ite (fun _ => asAlice_meets _ h1 h2 h3 (fun _ h => by cases h) h5) fun _ =>
    asBob_meets _ h2 h1 h3 fun _ h => by cases h

theorem getOrCreateChainKey_meets (s : SessionState) (t : ECPub) (seed : Bytes)
    (h1 : s.hasReceiverChain t = .ok false → Q (s.senderChainD.senderRatchetKeyPrivate.getD []) t)
    (h2 : s.hasReceiverChain t = .ok false → Q (C.genPriv seed) t) : Meets Q (getOrCreateChainKey tracing s t seed) := by
  unfold getOrCreateChainKey
  refine meets_bind (meets_lift _) fun b hb => meets_ite (fun _ => meets_bind (meets_lift _) fun _ _ => meets_pure _) fun hn =>
    meets_bind (meets_lift _) fun _ _ => meets_bind (meets_lift _) fun o ho => ?_
  rw [value_lift] at hb ho
  have hn : b = false := by simpa using hn
  subst hn
  refine meets_bind (createChain_meets _ ?_) fun _ _ =>
    meets_bind (generateKeyPair_meets _) fun k hk => meets_bind (createChain_meets _ ?_) fun _ _ => meets_bind (meets_lift _) fun _ _ =>
    meets_bind (meets_lift _) fun _ _ => meets_bind (meets_lift _) fun _ _ => meets_pure _
  · unfold SessionState.getSenderRatchetKeyPair at ho
    obtain ⟨pub, _, ho⟩ := bind_eq_ok.1 ho
    obtain rfl := Except.ok.inj ho
    exact h1 hb
  · rw [generateKeyPair_value] at hk
    obtain rfl := Except.ok.inj hk
    exact h2 hb

end Work

open SessionState Spec

omit C in
/-- No chain is found: there is none. -/
theorem findChain_none {key : ECPub} {l : List ChainS} {i : Nat} (h : findChain key l i = .ok none) :
    ¬ ∃ c ∈ l, KeyOf c.senderRatchetKey key := by
  induction l generalizing i with
  | nil => rintro ⟨c, hc, _⟩; cases hc
  | cons c l ih =>
    unfold findChain at h
    obtain ⟨k, hk, h⟩ := bind_eq_ok.1 h
    split at h
    · cases h
    · rename_i hne
      rintro ⟨c', hc', x, hx, hkx⟩
      rcases List.mem_cons.1 hc' with rfl | hc'
      · apply hne
        rw [hx] at hk
        have : Curve.decodePoint (5 :: x) = .ok (x.take 32) := by rfl
        rw [show (some (5 :: x)).getD [] = 5 :: x from rfl, this] at hk
        rw [← Except.ok.inj hk, hkx]
      · exact ih h ⟨c', hc', x, hx, hkx⟩

end
end Axolotl
