import Verif.Spec.Signing
import Verif.Spec.GroupCalls
import Verif.Proofs.Draws
import Verif.Props.NoReuse
import Verif.Props.GroupCalls

/-! Which signatures a call makes. -/

namespace Axolotl
namespace Traced
open Fallible Logged Spec

/-- Only these signatures are made. -/
structure Only (Q : Bytes → ECPriv → Bytes → Prop) {α : Type} (x : Traced α) : Prop where
  each : ∀ r k d, Op.calcSig r k d ∈ x.work → Q r k d

/-- No signature is made. -/
abbrev Mute {α : Type} (x : Traced α) : Prop := Only (fun _ _ _ => False) x

theorem Still.only {Q : Bytes → ECPriv → Bytes → Prop} {α : Type} {x : Traced α} (h : Still x) : Only Q x := by
  constructor
  intro r k d hm
  have h1 : draws x.work = [] := List.sublist_nil.1 h.sub
  have h2 : r ∈ draws x.work := List.mem_flatMap.2 ⟨_, hm, List.mem_singleton.2 rfl⟩
  rw [h1] at h2
  cases h2

theorem Only.mono {Q Q' : Bytes → ECPriv → Bytes → Prop} {α : Type} {x : Traced α} (h : Only Q x) (hq : ∀ r k d, Q r k d → Q' r k d) :
    Only Q' x := ⟨fun r k d hm => hq r k d (h.each r k d hm)⟩

theorem Mute.only {Q : Bytes → ECPriv → Bytes → Prop} {α : Type} {x : Traced α} (h : Mute x) : Only Q x := h.mono fun _ _ _ h => h.elim

theorem only_bind {Q : Bytes → ECPriv → Bytes → Prop} {α β : Type} {x : Traced α} {f : α → Traced β} (hx : Only Q x)
    (hf : ∀ v, x.value = .ok v → Only Q (f v)) : Only Q (x >>= f) := by
  constructor
  intro r k d hm
  cases h : x.value with
  | ok v =>
    rw [work_ok h] at hm
    rcases List.mem_append.1 hm with hm | hm
    · exact hx.each r k d hm
    · exact (hf v h).each r k d hm
  | error e => rw [work_error h] at hm; exact hx.each r k d hm

theorem only_pure {Q : Bytes → ECPriv → Bytes → Prop} {α : Type} (a : α) : Only Q (pure a : Traced α) := Still.only (still_pure a)

theorem only_fail {Q : Bytes → ECPriv → Bytes → Prop} {α : Type} (e : Err) : Only Q (fail e : Traced α) := Still.only (still_fail e)

theorem only_lift {Q : Bytes → ECPriv → Bytes → Prop} {α : Type} (r : Res α) : Only Q (Work.lift r : Traced α) := Still.only (still_lift r)

theorem only_attempt {Q : Bytes → ECPriv → Bytes → Prop} {α : Type} {x : Traced α} (h : Only Q x) : Only Q (attempt x : Traced (Res α)) := ⟨h.each⟩

theorem only_ite {Q : Bytes → ECPriv → Bytes → Prop} {α : Type} {c : Prop} [Decidable c] {x y : Traced α} (h1 : c → Only Q x)
    (h2 : ¬ c → Only Q y) : Only Q (if c then x else y) := by
  by_cases h : c
  · rw [if_pos h]; exact h1 h
  · rw [if_neg h]; exact h2 h

end Traced

section
variable [C : Crypto]
namespace Work
open Logged Traced Fallible Spec

theorem generateKeyPair_mute {Q : Bytes → ECPriv → Bytes → Prop} (seed : Bytes) : Only Q (generateKeyPair tracing seed) := by
  constructor
  intro r k d hm
  unfold generateKeyPair at hm
  rw [work_ok (value_genPriv _), work_ok (value_genPub _), work_pure] at hm
  rcases List.mem_append.1 hm with h | h
  · cases List.mem_singleton.1 h
  · rcases List.mem_append.1 h with h | h
    · cases List.mem_singleton.1 h
    · cases h

theorem getOrCreateChainKey_mute {Q : Bytes → ECPriv → Bytes → Prop} (s : SessionState) (t : ECPub) (seed : Bytes) :
    Only Q (getOrCreateChainKey tracing s t seed) := by
  unfold getOrCreateChainKey
  refine only_bind (only_lift _) fun _ _ => only_ite (fun _ => only_bind (only_lift _) fun _ _ => only_pure _) fun _ =>
    only_bind (only_lift _) fun _ _ => only_bind (only_lift _) fun _ _ => only_bind (createChain_still ..).only fun _ _ =>
    only_bind (generateKeyPair_mute _) fun _ _ => only_bind (createChain_still ..).only fun _ _ => only_bind (only_lift _) fun _ _ =>
    only_bind (only_lift _) fun _ _ => only_bind (only_lift _) fun _ _ => only_pure _

theorem state_mute {Q : Bytes → ECPriv → Bytes → Prop} (s : SessionState) (m : WhisperMessage) (seed : Bytes) :
    Only Q (decryptWithSessionState tracing s m seed) := by
  unfold decryptWithSessionState
  exact only_ite (fun _ => only_fail _) fun _ => only_ite (fun _ => only_fail _) fun _ =>
    only_bind (getOrCreateChainKey_mute ..) fun _ _ => only_bind (getOrCreateMessageKeys_still ..).only fun _ _ =>
    only_bind (only_lift _) fun _ _ => only_bind (only_lift _) fun _ _ => only_bind (verifyMac_still ..).only fun _ _ =>
    only_bind (aesDecrypt_still ..).only fun _ _ => only_pure _

theorem tryPrevious_mute {Q : Bytes → ECPriv → Bytes → Prop} (r : SessionRecord) (m : WhisperMessage) (seeds : Nat → Bytes)
    (l : List SessionState) (i : Nat) : Only Q (tryPrevious tracing r m seeds l i) := by
  induction l generalizing i with
  | nil => exact only_fail _
  | cons p l ih =>
    unfold tryPrevious
    refine only_bind (only_attempt (state_mute ..)) fun v _ => ?_
    split
    · exact only_pure _
    · exact ih (i + 1)
    · exact only_fail _

theorem record_mute {Q : Bytes → ECPriv → Bytes → Prop} (r : SessionRecord) (m : WhisperMessage) (seed : Bytes) (seeds : Nat → Bytes) :
    Only Q (decryptWithSessionRecord tracing r m seed seeds) := by
  unfold decryptWithSessionRecord
  refine only_bind (only_attempt (state_mute ..)) fun v _ => ?_
  split
  · exact only_pure _
  · exact tryPrevious_mute ..
  · exact only_fail _

theorem asAlice_mute {Q : Bytes → ECPriv → Bytes → Prop} (s : SessionState) (p : AliceParameters) (seed : Bytes) :
    Only Q (initializeSessionAsAlice tracing s p seed) := by
  unfold initializeSessionAsAlice
  exact only_bind (generateKeyPair_mute _) fun _ _ => only_bind (aliceSecrets_still _).only fun _ _ =>
    only_bind (calculateDerivedKeys_still _).only fun _ _ => only_bind (createChain_still ..).only fun _ _ =>
    only_bind (only_lift _) fun _ _ => only_bind (only_lift _) fun _ _ => only_pure _

theorem initializeSession_mute {Q : Bytes → ECPriv → Bytes → Prop} (s : SessionState) (p : SymmetricParameters) (seed : Bytes) :
    Only Q (initializeSession tracing s p seed) := by
  unfold initializeSession
  exact only_bind (only_lift _) fun _ _ => only_ite (fun _ => asAlice_mute ..) fun _ => (asBob_still ..).only

theorem bundle_mute {Q : Bytes → ECPriv → Bytes → Prop} (w : World) (a : Address) (b : PreKeyBundle) (s1 s2 : Bytes) :
    Only Q (processPreKeyBundle tracing w a b s1 s2) := by
  constructor
  unfold processPreKeyBundle
  rw [outcome_trace]
  refine Only.each ?_
  refine only_ite (fun _ => only_fail _) fun _ => ?_
  cases b.signedPreKey with
  | none => exact only_fail _
  | some spk =>
    exact only_bind (verifySignature_still ..).only fun _ _ => only_ite (fun _ => only_fail _) fun _ =>
      only_bind (generateKeyPair_mute _) fun _ _ => only_bind (asAlice_mute ..) fun _ _ =>
      only_bind (only_lift _) fun _ _ => only_bind (only_lift _) fun _ _ => only_bind (only_lift _) fun _ _ => only_pure _

theorem initiateState_mute {Q : Bytes → ECPriv → Bytes → Prop} (w : World) (a : Address) (m : KeyExchangeMessage)
    (r : SessionBuilder.InitiateRand) : Only Q (processInitiateState tracing w a m r) := by
  unfold processInitiateState
  refine only_bind (verifySignature_still ..).only fun _ _ => only_ite (fun _ => only_fail _) fun _ => only_ite (fun _ => ?_) fun _ => ?_
  · exact only_bind (generateKeyPair_mute _) fun _ _ => only_bind (generateKeyPair_mute _) fun _ _ => only_bind (only_pure _) fun _ _ =>
      only_bind (initializeSession_mute ..) fun _ _ => only_pure _
  · exact only_bind (only_lift _) fun _ _ => only_bind (only_lift _) fun _ _ => only_bind (only_lift _) fun _ _ =>
      only_bind (only_pure _) fun _ _ => only_bind (initializeSession_mute ..) fun _ _ => only_pure _

theorem response_mute {Q : Bytes → ECPriv → Bytes → Prop} (w : World) (a : Address) (m : KeyExchangeMessage) (s : Bytes) :
    Only Q (processResponse tracing w a m s) := by
  unfold processResponse
  refine only_ite (fun _ => only_ite (fun _ => only_pure _) fun _ => only_pure _) fun _ => ?_
  constructor
  rw [outcome_trace]
  refine Only.each ?_
  exact only_bind (only_lift _) fun _ _ => only_bind (only_lift _) fun _ _ => only_bind (only_lift _) fun _ _ =>
    only_bind (initializeSession_mute ..) fun _ _ => only_bind (verifySignature_still ..).only fun _ _ =>
    only_ite (fun _ => only_fail _) fun _ => only_pure _

theorem calculateSignature_only {Q : Bytes → ECPriv → Bytes → Prop} {r : Bytes} {k : ECPriv} {d : Bytes} (h : Q r k d) :
    Only Q (calculateSignature tracing r k d) := by
  constructor
  intro r' k' d' hm
  unfold calculateSignature at hm
  rw [work_ok (value_calcSig _ _ _), orValueError_trace, List.append_nil] at hm
  injection List.mem_singleton.1 hm with h1 h2 h3
  subst h1; subst h2; subst h3
  exact h

end Work

open Spec SessionState SessionBuilder ByteUtil Wire

/-- The keys with which a request is answered. -/
theorem initiate_keys {w : World} {a : Address} {m : KeyExchangeMessage} {rnd : InitiateRand} {r : SessionRecord} {flags : Nat}
    {p : SymmetricParameters} (hs : processInitiateState w a m rnd = .ok (r, flags, p)) :
    exchangeSignature m = some true ∧ AnswerKeys w a rnd p.ourIdentityKey p.ourBaseKey p.ourRatchetKey flags := by
  unfold processInitiateState at hs
  obtain ⟨ok, hok, hs⟩ := bind_eq_ok.1 hs
  split at hs
  · cases hs
  · rename_i hv
    have hv : ok = true := by simpa using hv
    subst hv
    refine ⟨?_, ?_⟩
    · unfold exchangeSignature
      unfold Curve.verifySignature at hok
      cases hsig : C.verifySig m.identityKey (5 :: m.baseKey) m.baseKeySignature with
      | none => rw [show C.verifySig m.identityKey (Curve.serializePoint m.baseKey) m.baseKeySignature = none from hsig] at hok; cases hok
      | some b =>
        rw [show C.verifySig m.identityKey (Curve.serializePoint m.baseKey) m.baseKeySignature = some b from hsig] at hok
        obtain rfl := Except.ok.inj hok
        rfl
    dsimp only at hs
    have hpl := pending_loaded w a
    cases hp : hasPendingKeyExchange (w.loadSession a).sessionState with
    | false =>
      rw [if_pos (by rw [hp]; rfl)] at hs
      simp only [ok_bind] at hs
      obtain ⟨s, h3, hs⟩ := bind_eq_ok.1 hs
      replace hs := Except.ok.inj hs
      injection hs with h4 h5
      injection h5 with h5 h6
      subst h5; subst h6
      refine .new ?_
      unfold hasPendingKeyExchange at hp
      rw [hpl] at hp
      cases h : Spec.pendingOf (w.sessions a) with
      | none => rfl
      | some x => rw [h] at hp; cases hp
    | true =>
      rw [if_neg (by rw [hp]; simp)] at hs
      obtain ⟨ik, g1, hs⟩ := bind_eq_ok.1 hs
      obtain ⟨bk, g2, hs⟩ := bind_eq_ok.1 hs
      obtain ⟨rk, g3, hs⟩ := bind_eq_ok.1 hs
      simp only [ok_bind] at hs
      obtain ⟨s, h3, hs⟩ := bind_eq_ok.1 hs
      replace hs := Except.ok.inj hs
      injection hs with h4 h5
      injection h5 with h5 h6
      subst h5; subst h6
      unfold hasPendingKeyExchange at hp
      cases h : (w.loadSession a).sessionState.pendingKeyExchange with
      | none => rw [h] at hp; cases hp
      | some x => exact .pending (hpl.symm.trans h) (pendingKeys_of h g1 g2 g3)

omit C in
theorem groupMessage_serialized {id it : Nat} {ct : Bytes} (h1 : id < 2 ^ 32) (h2 : it < 2 ^ 32) (hct : ct.length < 2 ^ 64) :
    (intsToByteHighAndLow CiphertextMessage.CURRENT_VERSION CiphertextMessage.CURRENT_VERSION ::
      serializeWith SenderKeyMessageP.toFields
        { id := some id, iteration := some it, ciphertext := some ct }) = groupMessage id it ct := by
  have hv : intsToByteHighAndLow CiphertextMessage.CURRENT_VERSION CiphertextMessage.CURRENT_VERSION = 0x33 := by
    decide
  rw [hv]
  unfold serializeWith SenderKeyMessageP.toFields groupMessage
  simp only [encFields_append]
  rw [encFields_num (by decide) (by omega), encFields_num (by decide) (by omega), encFields_bytes (by decide) hct]
  rfl

namespace Work
open Logged Traced Fallible Spec

theorem initiate_only (w : World) (a : Address) (m : KeyExchangeMessage) (r : SessionBuilder.InitiateRand) (hm : m.isInitiate = true) :
    Only (Signs w (.processKeyExchange a m r)) (processInitiate tracing w a m r) := by
  unfold processInitiate
  refine only_bind (only_attempt (initiateState_mute ..)) fun v hv => ?_
  rw [value_attempt, processInitiateState_value] at hv
  replace hv := Except.ok.inj hv
  split
  · exact only_pure _
  · rename_i rec flags p
    obtain ⟨h1, h2⟩ := initiate_keys hv
    exact only_bind (only_attempt (only_bind (calculateSignature_only (.answer hm h1 h2)) fun _ _ => only_bind (only_lift _) fun _ _ =>
      only_pure _)) fun _ _ => only_pure _

theorem init_only (w : World) (a : Address) (n : Nat) (s1 s2 s3 : Bytes) :
    Only (Signs w (.initKeyExchange a n s1 s2 s3)) (processInitKeyExchangeMessage tracing w a n s1 s2 s3) := by
  unfold processInitKeyExchangeMessage
  refine only_bind (generateKeyPair_mute _) fun k hk => only_bind (generateKeyPair_mute _) fun _ _ =>
    only_bind (only_attempt (only_bind (calculateSignature_only ?_) fun _ _ => only_bind (only_lift _) fun _ _ =>
      only_pure _)) fun v _ => ?_
  · rw [generateKeyPair_value] at hk
    obtain rfl := Except.ok.inj hk
    exact .ask
  · split <;> exact only_pure _

theorem groupEncrypt_only (hC : C.Lawful) (g : GroupStore) (n : SenderKeyName) (pt rand : Bytes) (hpt : pt.length < 2 ^ 62) :
    Only (GroupSigns g (.encrypt n pt rand)) (groupEncrypt tracing g n pt rand) := by
  unfold groupEncrypt
  refine only_bind (only_attempt ?_) fun v _ => ?_
  · unfold encryptWithRecord
    refine only_bind (only_lift _) fun st hst => only_bind (getSenderMessageKey_still _).only fun k hk =>
      only_bind (aesEncrypt_still ..).only fun ct hct => only_bind ?_ fun _ _ => only_bind (getNext_still _).only fun _ _ =>
      only_bind (only_lift _) fun _ _ => only_pure _
    unfold createSenderKeyMessage
    refine only_bind (only_lift _) fun id hid => only_bind (only_lift _) fun it hit => only_bind (calculateSignature_only ?_) fun _ _ =>
      only_pure _
    rw [value_lift] at hst hid hit
    rw [getSenderMessageKey_value] at hk
    rw [aesEncrypt_value] at hct
    obtain rfl := Except.ok.inj hk
    unfold SenderKeyRecord.getFirstState at hst
    split at hst
    · rename_i s rest hr
      obtain rfl := Except.ok.inj hst
      unfold SenderChainKey.getSenderMessageKey at hct hit
      rw [position_eq, chainKeyOf_eq] at hct
      rw [position_eq] at hit
      simp only [senderMessageKey_eq hC.hmac_len] at hct hit
      have hcbc := aes_cbc hC hct
      have hlen : ct.length < 2 ^ 64 := by
        have := padded_length pt
        rw [hcbc.length]
        omega
      rw [chkU32_eq_ok] at hid hit
      obtain ⟨e1, l1⟩ := hid
      obtain ⟨e2, l2⟩ := hit
      have e1 : id = s.senderKeyId.getD 0 := by
        have : (s.senderKeyId.getD 0 : Int) = id := e1
        omega
      have e2 : it = iterationOf s := by
        have : (iterationOf s : Int) = it := e2
        omega
      rw [groupMessage_serialized l1 l2 hlen, e1, e2]
      exact .message hr hcbc
    · cases hst
  · split <;> exact only_pure _

end Work
end
end Axolotl
