import Verif.Spec.Ciphering
import Verif.Proofs.Signing

/-! Which signatures a call checks, and what it encrypts and decrypts. -/

namespace Axolotl
namespace Traced
open Fallible Logged Spec

/-- Only these signatures are checked, and only these blocks are encrypted and decrypted. -/
def Permitted (V : ECPub → Bytes → Bytes → Prop) (E D : Bytes → Bytes → Prop) : Op → Prop
  | .verifySig k d s => V k d s
  | .aesEnc k b => E k b
  | .aesDec k b => D k b
  | _ => True

structure Uses (V : ECPub → Bytes → Bytes → Prop) (E D : Bytes → Bytes → Prop) {α : Type} (x : Traced α) : Prop where
  each : ∀ o ∈ x.work, Permitted V E D o

variable {V : ECPub → Bytes → Bytes → Prop} {E D : Bytes → Bytes → Prop}

theorem uses_bind {α β : Type} {x : Traced α} {f : α → Traced β} (hx : Uses V E D x)
    (hf : ∀ v, x.value = .ok v → Uses V E D (f v)) : Uses V E D (x >>= f) := by
  constructor
  intro o hm
  cases h : x.value with
  | ok v =>
    rw [work_ok h] at hm
    rcases List.mem_append.1 hm with hm | hm
    · exact hx.each o hm
    · exact (hf v h).each o hm
  | error e => rw [work_error h] at hm; exact hx.each o hm

theorem uses_pure {α : Type} (a : α) : Uses V E D (pure a : Traced α) := ⟨fun _ h => by cases h⟩

theorem uses_fail {α : Type} (e : Err) : Uses V E D (fail e : Traced α) := ⟨fun _ h => by cases h⟩

theorem uses_lift {α : Type} (r : Res α) : Uses V E D (Work.lift r : Traced α) := by
  cases r with
  | ok a => exact uses_pure a
  | error e => exact uses_fail e

theorem uses_attempt {α : Type} {x : Traced α} (h : Uses V E D x) : Uses V E D (attempt x : Traced (Res α)) := ⟨h.each⟩

theorem uses_ite {α : Type} {c : Prop} [Decidable c] {x y : Traced α} (h1 : c → Uses V E D x)
    (h2 : ¬ c → Uses V E D y) : Uses V E D (if c then x else y) := by
  by_cases h : c
  · rw [if_pos h]; exact h1 h
  · rw [if_neg h]; exact h2 h

end Traced

section
variable [C : Crypto]
namespace Work
open Logged Traced Fallible Spec
variable {V : ECPub → Bytes → Bytes → Prop} {E D : Bytes → Bytes → Prop}

omit C in
theorem one_uses {α : Type} {x : Traced α} {o : Op} (h : x.work = [o]) (ho : Permitted V E D o) : Uses V E D x := by
  constructor
  intro o' hm
  rw [h] at hm
  rw [List.mem_singleton.1 hm]
  exact ho

theorem hmac_uses (k d : Bytes) : Uses V E D (tracing.hmac k d) := one_uses (o := .hmac k d) rfl trivial

theorem generateKeyPair_uses (seed : Bytes) : Uses V E D (generateKeyPair tracing seed) := by
  unfold generateKeyPair
  exact uses_bind (one_uses (o := .genPriv seed) rfl trivial) fun v _ =>
    uses_bind (one_uses (o := .genPub v) rfl trivial) fun _ _ => uses_pure _

theorem verifySignature_uses {k : ECPub} {d s : Bytes} (h : V k d s) : Uses V E D (verifySignature tracing k d s) :=
  one_uses (verifySignature_trace k d s) h

theorem calculateSignature_uses (r : Bytes) (k : ECPriv) (d : Bytes) : Uses V E D (calculateSignature tracing r k d) := by
  constructor
  intro o hm
  unfold calculateSignature at hm
  rw [work_ok (value_calcSig _ _ _), orValueError_trace, List.append_nil] at hm
  rw [List.mem_singleton.1 hm]
  trivial

theorem calculateAgreement_uses (a : ECPub) (b : ECPriv) : Uses V E D (calculateAgreement tracing a b) :=
  one_uses (calculateAgreement_trace a b) trivial

theorem expandLoop_uses (prk info : Bytes) (n i : Nat) (mixin : Bytes) (rem : Nat) :
    Uses V E D (expandLoop tracing prk info n i mixin rem) := by
  induction n generalizing i mixin rem with
  | zero => exact uses_pure _
  | succ n ih =>
    unfold expandLoop
    exact uses_bind (hmac_uses ..) fun _ _ => uses_bind (ih ..) fun _ _ => uses_pure _

theorem deriveSecrets_uses (k : Kdf) (ikm info : Bytes) (n : Nat) (salt : Bytes) :
    Uses V E D (deriveSecrets tracing k ikm info n salt) := by
  unfold deriveSecrets
  exact uses_bind (hmac_uses ..) fun _ _ => expandLoop_uses ..

theorem getNextChainKey_uses (c : ChainKey) : Uses V E D (getNextChainKey tracing c) := by
  unfold getNextChainKey
  exact uses_bind (hmac_uses ..) fun _ _ => uses_pure _

theorem getMessageKeys_uses (c : ChainKey) : Uses V E D (getMessageKeys tracing c) := by
  unfold getMessageKeys
  exact uses_bind (hmac_uses ..) fun _ _ => uses_bind (deriveSecrets_uses ..) fun _ _ => uses_pure _

theorem skipLoop_uses (t : ECPub) (n : Nat) (s : SessionState) (c : ChainKey) : Uses V E D (skipLoop tracing t n s c) := by
  induction n generalizing s c with
  | zero => exact uses_pure _
  | succ n ih =>
    unfold skipLoop
    exact uses_bind (getMessageKeys_uses _) fun _ _ => uses_bind (uses_lift _) fun _ _ =>
      uses_bind (getNextChainKey_uses _) fun _ _ => ih ..

theorem getOrCreateMessageKeys_uses (s : SessionState) (t : ECPub) (c : ChainKey) (n : Nat) :
    Uses V E D (getOrCreateMessageKeys tracing s t c n) := by
  unfold getOrCreateMessageKeys
  exact uses_ite (fun _ => uses_bind (uses_lift _) fun _ _ => uses_ite (fun _ => uses_lift _) fun _ => uses_fail _) fun _ =>
    uses_ite (fun _ => uses_fail _) fun _ => uses_bind (skipLoop_uses ..) fun _ _ => uses_bind (getNextChainKey_uses _) fun _ _ =>
    uses_bind (uses_lift _) fun _ _ => uses_bind (getMessageKeys_uses _) fun _ _ => uses_pure _

theorem calculateDerivedKeys_uses (d : Bytes) : Uses V E D (calculateDerivedKeys tracing d) := by
  unfold calculateDerivedKeys
  exact uses_bind (deriveSecrets_uses ..) fun _ _ => uses_pure _

/-- The blocks that are encrypted. -/
theorem cbcEnc_uses (hC : C.Lawful) (key : Bytes) (n : Nat) (prev d : Bytes) (hp : prev.length = 16) (hd : d.length = 16 * n)
    (h : ∀ i < n, E key (xor16 (chained prev (AES.cbcEnc key n prev d) i) (block d i))) : Uses V E D (cbcEnc tracing key n prev d) := by
  induction n generalizing prev d with
  | zero => exact uses_pure _
  | succ n ih =>
    have hc : (C.aesEnc key (AES.xorB prev (d.take 16))).length = 16 :=
      hC.aes_len _ _ (by rw [AES.xorB_length, List.length_take]; omega)
    unfold cbcEnc
    refine uses_bind (one_uses (o := .aesEnc key (AES.xorB prev (d.take 16))) rfl (h 0 (by omega))) fun c hcv => uses_bind ?_ fun _ _ => uses_pure _
    have hcv : c = C.aesEnc key (AES.xorB prev (d.take 16)) := (Except.ok.inj hcv).symm
    subst hcv
    refine ih _ _ hc (by rw [List.length_drop]; omega) fun i hi => ?_
    have := h (i + 1) (by omega)
    unfold AES.cbcEnc at this
    simp only at this
    rw [chained_append hc, ← block_drop] at this
    exact this

theorem cbcDec_uses (key : Bytes) (n : Nat) (prev d : Bytes) (h : ∀ i < n, D key (block d i)) : Uses V E D (cbcDec tracing key n prev d) := by
  induction n generalizing prev d with
  | zero => exact uses_pure _
  | succ n ih =>
    unfold cbcDec
    refine uses_bind (one_uses (o := .aesDec key (d.take 16)) rfl (h 0 (by omega))) fun _ _ => uses_bind (ih _ _ fun i hi => ?_) fun _ _ => uses_pure _
    rw [block_drop]
    exact h (i + 1) (by omega)

theorem aesEncrypt_uses (hC : C.Lawful) {key iv raw : Bytes} (h : ∀ b, CbcInput key iv raw b → E key b) :
    Uses V E D (aesEncrypt tracing key iv raw) := by
  unfold aesEncrypt
  refine uses_ite (fun hv => ?_) fun _ => uses_fail _
  have hiv : iv.length = 16 := by
    unfold AES.validParams at hv
    simp only [Bool.and_eq_true, beq_iff_eq] at hv
    exact hv.2
  have hl : (AES.pad raw).length = 16 * ((AES.pad raw).length / 16) := by
    have := AES.pad_length raw
    omega
  refine cbcEnc_uses hC _ _ _ _ hiv hl fun i hi => h _ ⟨_, i, aes_cbc hC (key := key) (iv := iv) (p := raw) (ct := AES.cbcEnc key ((AES.pad raw).length / 16) iv (AES.pad raw)) ?_, ?_, rfl⟩
  · unfold AES.encrypt
    rw [if_pos hv]
  · rw [AES.cbcEnc_length hC _ _ _ _ hiv hl]
    omega

theorem aesDecrypt_uses {key iv enc : Bytes} (h : ∀ i, 16 * i < enc.length → D key (block enc i)) : Uses V E D (aesDecrypt tracing key iv enc) := by
  unfold aesDecrypt
  exact uses_ite (fun _ => uses_ite (fun _ => uses_bind (cbcDec_uses _ _ _ _ fun i hi => h i (by omega)) fun _ _ => uses_lift _) fun _ => uses_fail _)
    fun _ => uses_fail _

theorem getMac_uses (v : Nat) (a b : ECPub) (k d : Bytes) : Uses V E D (getMac tracing v a b k d) := by
  unfold getMac
  exact uses_bind (hmac_uses ..) fun _ _ => uses_pure _

theorem verifyMac_uses (m : WhisperMessage) (v : Nat) (a b : ECPub) (k : Bytes) : Uses V E D (verifyMac tracing m v a b k) := by
  unfold verifyMac
  exact uses_bind (getMac_uses ..) fun _ _ => uses_ite (fun _ => uses_fail _) fun _ => uses_pure _

theorem createWhisperMessage_uses (v : Nat) (k : Bytes) (a : ECPub) (n pn : Nat) (ct : Bytes) (i j : ECPub) :
    Uses V E D (createWhisperMessage tracing v k a n pn ct i j) := by
  unfold createWhisperMessage
  exact uses_bind (uses_lift _) fun _ _ => uses_bind (uses_lift _) fun _ _ => uses_bind (getMac_uses ..) fun _ _ => uses_pure _

theorem senderMessageKey_uses (i : Nat) (s : Bytes) : Uses V E D (senderMessageKey tracing i s) := by
  unfold senderMessageKey
  exact uses_bind (deriveSecrets_uses ..) fun _ _ => uses_pure _

theorem getSenderMessageKey_uses (c : SenderChainKey) : Uses V E D (getSenderMessageKey tracing c) := by
  unfold getSenderMessageKey
  exact uses_bind (hmac_uses ..) fun _ _ => senderMessageKey_uses ..

theorem getNext_uses (c : SenderChainKey) : Uses V E D (getNext tracing c) := by
  unfold getNext
  exact uses_bind (hmac_uses ..) fun _ _ => uses_pure _

theorem groupSkipLoop_uses (n : Nat) (s : SenderKeyState) (c : SenderChainKey) : Uses V E D (groupSkipLoop tracing n s c) := by
  induction n generalizing s c with
  | zero => exact uses_pure _
  | succ n ih =>
    unfold groupSkipLoop
    exact uses_bind (getSenderMessageKey_uses _) fun _ _ => uses_bind (uses_lift _) fun _ _ => uses_bind (getNext_uses _) fun _ _ => ih ..

theorem getSenderKey_uses (s : SenderKeyState) (i : Nat) : Uses V E D (getSenderKey tracing s i) := by
  unfold getSenderKey
  refine uses_ite (fun _ => uses_ite (fun _ => ?_) fun _ => uses_fail _) fun _ => uses_ite (fun _ => uses_fail _) fun _ =>
    uses_bind (groupSkipLoop_uses ..) fun _ _ => uses_bind (getNext_uses _) fun _ _ => uses_bind (uses_lift _) fun _ _ =>
    uses_bind (getSenderMessageKey_uses _) fun _ _ => uses_pure _
  refine uses_bind ?_ fun v _ => ?_
  · unfold removeSenderMessageKey
    split
    · exact uses_pure _
    · exact uses_bind (senderMessageKey_uses ..) fun _ _ => uses_pure _
  · split
    · exact uses_pure _
    · exact uses_fail _

theorem groupCreate_uses (g : GroupStore) (n : SenderKeyName) (r : GroupSessionBuilder.CreateRand) :
    Uses V E D (groupCreate tracing g n r) := by
  unfold groupCreate
  exact uses_ite (fun _ => uses_bind (generateKeyPair_uses _) fun _ _ => uses_pure _) fun _ => uses_pure _

theorem createChain_uses (r : RootKey) (t : ECPub) (o : KeyPair) : Uses V E D (createChain tracing r t o) := by
  unfold createChain
  exact uses_bind (calculateAgreement_uses ..) fun _ _ => uses_bind (deriveSecrets_uses ..) fun _ _ => uses_pure _

theorem bobSecrets_uses (p : BobParameters) : Uses V E D (bobSecrets tracing p) := by
  unfold bobSecrets
  refine uses_bind (calculateAgreement_uses ..) fun _ _ => uses_bind (calculateAgreement_uses ..) fun _ _ =>
      uses_bind (calculateAgreement_uses ..) fun _ _ => ?_
  cases p.ourOneTimePreKey with
  | none => exact uses_bind (uses_pure _) fun _ _ => uses_pure _
  | some k => exact uses_bind (calculateAgreement_uses ..) fun _ _ => uses_pure _

theorem asBob_uses (s : SessionState) (p : BobParameters) : Uses V E D (initializeSessionAsBob tracing s p) := by
  unfold initializeSessionAsBob
  exact uses_bind (bobSecrets_uses _) fun _ _ => uses_bind (calculateDerivedKeys_uses _) fun _ _ =>
    uses_bind (uses_lift _) fun _ _ => uses_pure _

theorem aliceSecrets_uses (p : AliceParameters) : Uses V E D (aliceSecrets tracing p) := by
  unfold aliceSecrets
  refine uses_bind (calculateAgreement_uses ..) fun _ _ => uses_bind (calculateAgreement_uses ..) fun _ _ =>
      uses_bind (calculateAgreement_uses ..) fun _ _ => ?_
  cases p.theirOneTimePreKey with
  | none => exact uses_bind (uses_pure _) fun _ _ => uses_pure _
  | some k => exact uses_bind (calculateAgreement_uses ..) fun _ _ => uses_pure _

theorem asAlice_uses (s : SessionState) (p : AliceParameters) (seed : Bytes) : Uses V E D (initializeSessionAsAlice tracing s p seed) := by
  unfold initializeSessionAsAlice
  exact uses_bind (generateKeyPair_uses _) fun _ _ => uses_bind (aliceSecrets_uses _) fun _ _ =>
    uses_bind (calculateDerivedKeys_uses _) fun _ _ => uses_bind (createChain_uses ..) fun _ _ =>
    uses_bind (uses_lift _) fun _ _ => uses_bind (uses_lift _) fun _ _ => uses_pure _

theorem initializeSession_uses (s : SessionState) (p : SymmetricParameters) (seed : Bytes) :
    Uses V E D (initializeSession tracing s p seed) := by
  unfold initializeSession
  exact uses_bind (uses_lift _) fun _ _ => uses_ite (fun _ => asAlice_uses ..) fun _ => asBob_uses ..

theorem getOrCreateChainKey_uses (s : SessionState) (t : ECPub) (seed : Bytes) : Uses V E D (getOrCreateChainKey tracing s t seed) := by
  unfold getOrCreateChainKey
  exact uses_bind (uses_lift _) fun _ _ => uses_ite (fun _ => uses_bind (uses_lift _) fun _ _ => uses_pure _) fun _ =>
    uses_bind (uses_lift _) fun _ _ => uses_bind (uses_lift _) fun _ _ => uses_bind (createChain_uses ..) fun _ _ =>
    uses_bind (generateKeyPair_uses _) fun _ _ => uses_bind (createChain_uses ..) fun _ _ => uses_bind (uses_lift _) fun _ _ =>
    uses_bind (uses_lift _) fun _ _ => uses_bind (uses_lift _) fun _ _ => uses_pure _

theorem processV3_uses (w : World) (r : SessionRecord) (m : PreKeyWhisperMessage) : Uses V E D (processV3 tracing w r m) := by
  unfold processV3
  refine uses_ite (fun _ => uses_pure _) fun _ => uses_bind (uses_lift _) fun _ _ => uses_bind (uses_lift _) fun _ _ => ?_
  cases m.preKeyId with
  | none => exact uses_bind (uses_pure _) fun _ _ => uses_bind (asBob_uses ..) fun _ _ => uses_bind (uses_lift _) fun _ _ =>
      uses_bind (uses_lift _) fun _ _ => uses_pure _
  | some i => exact uses_bind (uses_lift _) fun _ _ => uses_bind (uses_lift _) fun _ _ => uses_bind (uses_pure _) fun _ _ =>
      uses_bind (asBob_uses ..) fun _ _ => uses_bind (uses_lift _) fun _ _ => uses_bind (uses_lift _) fun _ _ => uses_pure _

theorem process_uses (w : World) (a : Address) (r : SessionRecord) (m : PreKeyWhisperMessage) : Uses V E D (process tracing w a r m) := by
  unfold process
  refine uses_ite (fun _ => uses_pure _) fun _ => uses_bind (uses_attempt (processV3_uses ..)) fun v _ => ?_
  cases v <;> exact uses_pure _

end Work
end
end Axolotl
