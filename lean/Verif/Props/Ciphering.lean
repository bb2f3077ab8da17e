import Verif.Proofs.Ciphering
import Verif.Props.Trace
import Verif.Props.Agreements
import Verif.Props.Version2

/-! # C115: which signatures are checked, and what the block cipher is used for -/

namespace Axolotl
section
variable [C : Crypto]
open Spec Logged Traced SessionState

namespace Work
open Fallible
variable {V : ECPub → Bytes → Bytes → Prop} {E D : Bytes → Bytes → Prop}

/-- The cipher key that is found for a message is one the state offers, as the MAC key is. -/
theorem offered_cipher (hlen : ∀ k m, (C.hmac k m).length = 32) {s s1 s2 : SessionState} {ck : ChainKey} {mk : MessageKeys} {eph : ECPub}
    {seed : Bytes} {n : Nat} (hsc : s.hasSenderChain = true) (h1 : SessionCipher.getOrCreateChainKey s eph seed = .ok (ck, s1))
    (h2 : SessionCipher.getOrCreateMessageKeys s1 eph ck n = .ok (mk, s2)) (hv : s.sessionVersion = some 3) : CipherKey s eph n mk.cipherKey := by
  obtain ⟨c, j, hc, h2⟩ := SessionCipher.gocmk_ok h2
  rcases SessionCipher.gocck_ok h1 with ⟨c1, j1, kdf, g1, g2, g3, g4⟩ | ⟨kdf, our, rk1, rk2, sck, g1, g2, g3, g4, g5, g6⟩
  · subst g4
    rw [g1] at hc
    replace hc := Except.ok.inj hc
    injection hc with hc
    injection hc with hc1 hc2
    subst hc1; subst hc2
    obtain ⟨_, hcm, hck⟩ := SessionState.findChain_some g1
    have hcm := List.mem_of_getElem? hcm
    rw [createFor_three hv] at g2
    replace g2 := Except.ok.inj g2
    subst g2
    rcases h2 with ⟨_, e, rest, ht, hmk, _⟩ | ⟨hle, _, _, hmk, _⟩
    · subst hmk
      obtain ⟨t1, t2⟩ := takeKey_mem ht
      exact .stored hcm hck t1 t2
    · subst hmk; subst g3
      rw [getMessageKeys_v3 hlen _ (by rw [ChainKey.iter_kdf]; rfl), iter_key]
      exact .ahead hcm hck rfl hle
  · obtain ⟨secret, hsec, e1, e2, e3⟩ := RootKey.createChain_ok g4
    rw [createFor_three hv] at g2
    replace g2 := Except.ok.inj g2
    subst g2
    rw [createChain_v3 hlen] at g4
    unfold Curve.calculateAgreement at hsec
    cases hdh : C.dh our.priv eph with
    | none => rw [hdh] at g4; cases g4
    | some sec =>
    rw [hdh] at g4
    simp only at g4
    replace g4 := Except.ok.inj g4
    injection g4 with g4 g4'
    subst g4; subst g4'
    rcases h2 with ⟨hlt, _⟩ | ⟨hle, _, _, hmk, _⟩
    · exact absurd hlt (by simp)
    · subst hmk
      rw [getMessageKeys_v3 hlen _ (by rw [ChainKey.iter_kdf]), iter_key]
      simp only [Nat.sub_zero]
      unfold SessionState.getSenderRatchetKeyPair at g3
      obtain ⟨pub, _, g3⟩ := bind_eq_ok.1 g3
      replace g3 := Except.ok.inj g3
      subst g3
      cases hsc' : s.senderChain with
      | none => unfold SessionState.hasSenderChain at hsc; rw [hsc'] at hsc; cases hsc
      | some c0 =>
        refine .ratchet hsc' ?_
        unfold SessionState.senderChainD at hdh
        rw [hsc'] at hdh
        exact hdh

theorem state_uses (hC : C.Lawful) (s : SessionState) (m : WhisperMessage) (seed : Bytes)
    (h : ∀ key i, OpensUnder s m.senderRatchetKey m.counter key → 16 * i < m.ciphertext.length →
      D key (block m.ciphertext i)) : Uses V E D (decryptWithSessionState tracing s m seed) := by
  unfold decryptWithSessionState
  refine uses_ite (fun _ => uses_fail _) fun hsc => uses_ite (fun _ => uses_fail _) fun _ => uses_bind (getOrCreateChainKey_uses ..) fun p hp =>
    uses_bind (getOrCreateMessageKeys_uses ..) fun q hq => uses_bind (uses_lift _) fun _ _ => uses_bind (uses_lift _) fun _ _ =>
    uses_bind (verifyMac_uses ..) fun _ _ => uses_bind (aesDecrypt_uses fun i hi => h _ i ?_ hi) fun _ _ => uses_pure _
  have hp := (getOrCreateChainKey_value ..).symm.trans hp
  have hq := (getOrCreateMessageKeys_value ..).symm.trans hq
  by_cases h3 : versionOf s = 3
  · exact .inl ⟨h3, offered_cipher hC.hmac_len (by simpa using hsc) hp hq (version_three h3)⟩
  by_cases h2 : versionOf s = 2
  · exact .inr ⟨h2, _, _, offered_keys2 hC.hmac_len (by simpa using hsc) hp hq h2⟩
  rcases SessionCipher.gocck_ok (ck := p.1) (s1 := p.2) hp with ⟨c1, j1, kdf, g1, g2, _, _⟩ | ⟨kdf, our, rk1, rk2, sck, g1, g2, _⟩
  · rw [createFor_other h2 h3] at g2; cases g2
  · rw [createFor_other h2 h3] at g2; cases g2

theorem tryPrevious_uses (hC : C.Lawful) (r : SessionRecord) (m : WhisperMessage) (seeds : Nat → Bytes) (l : List SessionState) (n : Nat)
    (h : ∀ s ∈ l, ∀ key i, OpensUnder s m.senderRatchetKey m.counter key → 16 * i < m.ciphertext.length →
      D key (block m.ciphertext i)) : Uses V E D (tryPrevious tracing r m seeds l n) := by
  induction l generalizing n with
  | nil => exact uses_fail _
  | cons p l ih =>
    unfold tryPrevious
    refine uses_bind (uses_attempt (state_uses hC _ _ _ (h p (List.mem_cons_self ..)))) fun v _ => ?_
    split
    · exact uses_pure _
    · exact ih (n + 1) fun s hs => h s (List.mem_cons_of_mem _ hs)
    · exact uses_fail _

theorem record_uses (hC : C.Lawful) (r : SessionRecord) (m : WhisperMessage) (seed : Bytes) (seeds : Nat → Bytes)
    (h : ∀ s ∈ states r, ∀ key i, OpensUnder s m.senderRatchetKey m.counter key → 16 * i < m.ciphertext.length →
      D key (block m.ciphertext i)) : Uses V E D (decryptWithSessionRecord tracing r m seed seeds) := by
  unfold decryptWithSessionRecord
  refine uses_bind (uses_attempt (state_uses hC _ _ _ (h _ (List.mem_cons_self ..)))) fun v _ => ?_
  split
  · exact uses_pure _
  · exact tryPrevious_uses hC _ _ _ _ _ fun s hs => h s (List.mem_cons_of_mem _ hs)
  · exact uses_fail _

theorem encryptWithState_uses (hC : C.Lawful) (s : SessionState) (pt : Bytes)
    (h : ∀ key iv b, SendsUnder s key iv → CbcInput key iv pt b → E key b) :
    Uses V E D (encryptWithState tracing s pt) := by
  unfold encryptWithState
  refine uses_bind (uses_lift _) fun ck hck => uses_bind (getMessageKeys_uses _) fun k hk => uses_bind (uses_lift _) fun _ _ =>
    uses_bind (aesEncrypt_uses hC fun b hb => h _ _ b ?_ hb) fun _ _ => uses_bind (uses_lift _) fun _ _ => uses_bind (uses_lift _) fun _ _ =>
    uses_bind (createWhisperMessage_uses ..) fun _ _ => ?_
  · rw [value_lift] at hck
    rw [getMessageKeys_value] at hk
    obtain rfl := Except.ok.inj hk
    unfold SessionState.getSenderChainKey at hck
    by_cases h3 : versionOf s = 3
    · rw [createFor_three (version_three h3)] at hck
      obtain rfl := Except.ok.inj hck
      rw [getMessageKeys_v3 hC.hmac_len _ rfl]
      exact .inl ⟨h3, congrArg cipherKeyOf (sent_with _), congrArg ivOf (sent_with _)⟩
    by_cases h2 : versionOf s = 2
    · rw [createFor_two h2] at hck
      obtain rfl := Except.ok.inj hck
      rw [getMessageKeys_v2 hC.hmac_len _ rfl]
      exact .inr ⟨h2, congrArg cipherKeyOf2 (sent_with _), congrArg ivOf2 (sent_with _)⟩
    rw [createFor_other h2 h3] at hck
    cases hck
  · split
    · exact uses_bind (uses_lift _) fun _ _ => uses_bind (uses_lift _) fun _ _ => uses_bind (uses_pure _) fun _ _ =>
        uses_bind (getNextChainKey_uses _) fun _ _ => uses_bind (uses_lift _) fun _ _ => uses_pure _
    · exact uses_bind (uses_pure _) fun _ _ =>
        uses_bind (getNextChainKey_uses _) fun _ _ => uses_bind (uses_lift _) fun _ _ => uses_pure _

theorem groupEncrypt_uses (hC : C.Lawful) (g : GroupStore) (n : SenderKeyName) (pt rand : Bytes) :
    Uses V (GroupEnciphers g (.encrypt n pt rand)) D (groupEncrypt tracing g n pt rand) := by
  unfold groupEncrypt
  refine uses_bind (uses_attempt ?_) fun v _ => ?_
  · unfold encryptWithRecord
    refine uses_bind (uses_lift _) fun st hst => uses_bind (getSenderMessageKey_uses _) fun k hk => uses_bind (aesEncrypt_uses hC fun b hb => ?_) fun _ _ =>
      uses_bind ?_ fun _ _ => uses_bind (getNext_uses _) fun _ _ => uses_bind (uses_lift _) fun _ _ => uses_pure _
    · rw [value_lift] at hst
      rw [getSenderMessageKey_value] at hk
      obtain rfl := Except.ok.inj hk
      unfold SenderKeyRecord.getFirstState at hst
      split at hst
      · rename_i s rest hr
        obtain rfl := Except.ok.inj hst
        unfold SenderChainKey.getSenderMessageKey at hb ⊢
        rw [position_eq, chainKeyOf_eq] at hb ⊢
        simp only [senderMessageKey_eq hC.hmac_len] at hb ⊢
        exact .text hr hb
      · cases hst
    · unfold createSenderKeyMessage
      exact uses_bind (uses_lift _) fun _ _ => uses_bind (uses_lift _) fun _ _ =>
        uses_bind (calculateSignature_uses ..) fun _ _ => uses_pure _
  · split <;> exact uses_pure _

theorem groupDecrypt_uses (hC : C.Lawful) (g : GroupStore) (n : SenderKeyName) (b : Bytes) :
    Uses (GroupChecks g (.decrypt n b)) E (GroupOpens g (.decrypt n b)) (groupDecrypt tracing g n b) := by
  unfold groupDecrypt
  refine uses_bind (uses_attempt ?_) fun v _ => ?_
  · unfold decryptWithRecord
    refine uses_ite (fun _ => uses_fail _) fun _ => uses_bind (uses_lift _) fun m hm => uses_bind (uses_lift _) fun st hst =>
      uses_bind (uses_lift _) fun pub hpub => ?_
    rw [value_lift] at hm hst hpub
    obtain ⟨s, j⟩ := st
    have hs := (SenderKeyRecord.getStateById_ok hst).1
    have hser := senderkey_parse_serialized hm
    have hchk : GroupChecks g (.decrypt n b) pub
        (ByteUtil.split2 m.serialized ((m.serialized.length : Int) - SenderKeyMessage.SIGNATURE_LENGTH) SenderKeyMessage.SIGNATURE_LENGTH).1
        (ByteUtil.split2 m.serialized ((m.serialized.length : Int) - SenderKeyMessage.SIGNATURE_LENGTH) SenderKeyMessage.SIGNATURE_LENGTH).2 := by
      refine .message hm hs (KeyOf_iff.2 hpub) fun hl => ?_
      have hd : (b.drop (b.length - 64)).length = 64 := by rw [List.length_drop]; omega
      have := split2_tail (b.take (b.length - 64)) (b.drop (b.length - 64)) 64 hd
      rw [List.take_append_drop] at this
      rw [hser]
      have e : ByteUtil.split2 b ((b.length : Int) - SenderKeyMessage.SIGNATURE_LENGTH) SenderKeyMessage.SIGNATURE_LENGTH =
        (b.take (b.length - 64), b.drop (b.length - 64)) := this
      rw [e]
      exact ⟨(List.take_append_drop ..).symm, hd⟩
    refine uses_bind ?_ fun u hu => uses_bind (getSenderKey_uses ..) fun k hk => uses_bind ?_ fun _ _ => uses_pure _
    · unfold verifySenderKeyMessage
      exact uses_bind (verifySignature_uses hchk) fun _ _ => uses_ite (fun _ => uses_pure _) fun _ => uses_fail _
    · rw [verifySenderKeyMessage_value] at hu
      rw [getSenderKey_value] at hk
      have hsig : C.verifySig pub
          (ByteUtil.split2 m.serialized ((m.serialized.length : Int) - SenderKeyMessage.SIGNATURE_LENGTH) SenderKeyMessage.SIGNATURE_LENGTH).1
          (ByteUtil.split2 m.serialized ((m.serialized.length : Int) - SenderKeyMessage.SIGNATURE_LENGTH) SenderKeyMessage.SIGNATURE_LENGTH).2
          = some true := by
        unfold SenderKeyMessage.verifySignature at hu
        simp only at hu
        obtain ⟨ok, h1, h2⟩ := bind_eq_ok.1 hu
        have hok : ok = true := by
          cases ok with
          | true => rfl
          | false => cases h2
        subst hok
        unfold Curve.verifySignature at h1
        cases hv : C.verifySig pub
            (ByteUtil.split2 m.serialized ((m.serialized.length : Int) - SenderKeyMessage.SIGNATURE_LENGTH) SenderKeyMessage.SIGNATURE_LENGTH).1
            (ByteUtil.split2 m.serialized ((m.serialized.length : Int) - SenderKeyMessage.SIGNATURE_LENGTH) SenderKeyMessage.SIGNATURE_LENGTH).2 with
        | none => rw [hv] at h1; cases h1
        | some x => rw [hv] at h1; rw [Except.ok.inj h1]
      unfold getPlainText
      refine uses_bind (uses_attempt (aesDecrypt_uses fun i hi => ?_)) fun _ _ => uses_lift _
      obtain ⟨k, s'⟩ := k
      rcases (getSenderKey_step hk).2 with ⟨hlt, x, rest, ht, rfl, _⟩ | ⟨hle, _, rfl, _⟩
      · rw [senderMessageKey_eq hC.hmac_len]
        obtain ⟨q1, q2⟩ := groupTake_mem ht
        exact .message hchk hsig hm hs (.stored q1 q2 hlt) hi
      · rw [senderMessageKey_eq hC.hmac_len]
        exact .message hchk hsig hm hs (.ahead hle) hi
  · split <;> exact uses_pure _

end Work

/-- The states after a first message has been looked at: those that were there, and the one that the message sets up. -/
theorem states_after_process (hC : C.Lawful) {w : World} {a : Address} {m : PreKeyWhisperMessage} {r : SessionRecord} {u : Option Nat}
    (hr : (SessionBuilder.process w a (w.loadSession a) m).result = .ok (r, u)) {s : SessionState} (hs : s ∈ states r) :
    s ∈ states (w.loadSession a) ∨ SetUp w m s := by
  unfold SessionBuilder.process at hr
  split at hr
  · cases hr
  · split at hr
    · cases hr
    · rename_i v hv
      obtain rfl := Except.ok.inj hr
      cases hkn : (w.loadSession a).hasSessionState m.version (Curve.serializePoint m.baseKey) with
      | true =>
        rcases processV3_ok hv with ⟨_, hx⟩ | ⟨hx, _⟩
        · obtain ⟨rfl, _⟩ := Prod.mk.inj hx
          exact .inl hs
        · rw [hkn] at hx; cases hx
      | false =>
        obtain ⟨s', hsu, he⟩ := setUp_of_process hC hkn hv
        simp only at he
        subst he
        rcases List.mem_cons.1 hs with hs | hs
        · exact .inr (hs ▸ hsu)
        · refine .inl ?_
          have hs : s ∈ (SessionBuilder.archiveUnlessFresh (w.loadSession a)).previousStates := hs
          unfold SessionBuilder.archiveUnlessFresh at hs
          split at hs
          · simp only [SessionRecord.archiveCurrentState, SessionRecord.promoteState] at hs
            split at hs
            · exact List.dropLast_subset _ hs
            · exact hs
          · exact List.mem_cons_of_mem _ hs

namespace Work
variable {V : ECPub → Bytes → Bytes → Prop} {E D : Bytes → Bytes → Prop}

theorem bundle_uses (w : World) (a : Address) (b : PreKeyBundle) (s1 s2 : Bytes) :
    Uses (Checks w (.processBundle a b s1 s2)) E D (processPreKeyBundle tracing w a b s1 s2) := by
  constructor
  unfold processPreKeyBundle
  rw [outcome_trace]
  refine Uses.each ?_
  refine uses_ite (fun _ => uses_fail _) fun ht => ?_
  cases hb : b.signedPreKey with
  | none => exact uses_fail _
  | some spk =>
    exact uses_bind (verifySignature_uses (.bundle (by simpa using ht) hb)) fun _ _ => uses_ite (fun _ => uses_fail _) fun _ =>
      uses_bind (generateKeyPair_uses _) fun _ _ => uses_bind (asAlice_uses ..) fun _ _ =>
      uses_bind (uses_lift _) fun _ _ => uses_bind (uses_lift _) fun _ _ => uses_bind (uses_lift _) fun _ _ => uses_pure _

theorem exchange_uses (w : World) (a : Address) (m : KeyExchangeMessage) (r : SessionBuilder.InitiateRand) :
    Uses (Checks w (.processKeyExchange a m r)) E D (processKeyExchangeMessage tracing w a m r) := by
  unfold processKeyExchangeMessage
  refine uses_ite (fun _ => uses_pure _) fun ht => ?_
  have hc : Checks w (.processKeyExchange a m r) m.identityKey (5 :: m.baseKey) m.baseKeySignature := .exchange (by simpa using ht)
  refine uses_ite (fun _ => ?_) fun _ => ?_
  · unfold processInitiate
    refine uses_bind (uses_attempt ?_) fun v _ => ?_
    · unfold processInitiateState
      refine uses_bind (verifySignature_uses hc) fun _ _ => uses_ite (fun _ => uses_fail _) fun _ => uses_ite (fun _ => ?_) fun _ => ?_
      · exact uses_bind (generateKeyPair_uses _) fun _ _ => uses_bind (generateKeyPair_uses _) fun _ _ => uses_bind (uses_pure _) fun _ _ =>
          uses_bind (initializeSession_uses ..) fun _ _ => uses_pure _
      · exact uses_bind (uses_lift _) fun _ _ => uses_bind (uses_lift _) fun _ _ => uses_bind (uses_lift _) fun _ _ =>
          uses_bind (uses_pure _) fun _ _ => uses_bind (initializeSession_uses ..) fun _ _ => uses_pure _
    · split
      · exact uses_pure _
      · exact uses_bind (uses_attempt (uses_bind (calculateSignature_uses ..) fun _ _ => uses_bind (uses_lift _) fun _ _ =>
          uses_pure _)) fun _ _ => uses_pure _
  · unfold processResponse
    refine uses_ite (fun _ => uses_ite (fun _ => uses_pure _) fun _ => uses_pure _) fun _ => ?_
    constructor
    rw [outcome_trace]
    refine Uses.each ?_
    exact uses_bind (uses_lift _) fun _ _ => uses_bind (uses_lift _) fun _ _ => uses_bind (uses_lift _) fun _ _ =>
      uses_bind (initializeSession_uses ..) fun _ _ => uses_bind (verifySignature_uses hc) fun _ _ =>
      uses_ite (fun _ => uses_fail _) fun _ => uses_pure _

theorem init_uses (w : World) (a : Address) (n : Nat) (s1 s2 s3 : Bytes) :
    Uses V E D (processInitKeyExchangeMessage tracing w a n s1 s2 s3) := by
  unfold processInitKeyExchangeMessage
  refine uses_bind (generateKeyPair_uses _) fun _ _ => uses_bind (generateKeyPair_uses _) fun _ _ => uses_bind (uses_attempt
    (uses_bind (calculateSignature_uses ..) fun _ _ => uses_bind (uses_lift _) fun _ _ => uses_pure _)) fun v _ => ?_
  split <;> exact uses_pure _

end Work

theorem call_permitted (hC : C.Lawful) (w : World) (c : Call) : ∀ o ∈ callTrace w c, Permitted (Checks w c) (Enciphers w c) (Opens w c) o := by
  unfold callTrace
  cases c with
  | encrypt a p =>
    simp only [Work.run, mapped_trace]
    unfold Work.encrypt
    rw [outcome_trace]
    exact (uses_bind (Work.encryptWithState_uses hC _ _ fun key iv b h1 h2 => .text h1 h2) fun _ _ => uses_pure _).each
  | decryptMsg a m s ss =>
    simp only [Work.run, mapped_trace]
    unfold Work.decryptMsg
    rw [outcome_trace]
    exact (uses_ite (fun _ => uses_fail _) fun _ => uses_bind (Work.record_uses hC _ _ _ _ fun s hs key i h1 h2 => .message hs h1 h2) fun _ _ =>
      uses_pure _).each
  | decryptPkmsg a m s ss =>
    simp only [Work.run, mapped_trace]
    unfold Work.decryptPkmsg
    refine (uses_bind (Work.process_uses ..) fun o ho => ?_).each
    rw [Work.process_value] at ho
    obtain rfl := Except.ok.inj ho
    split
    · exact uses_pure _
    · rename_i r u hr
      refine uses_bind (uses_attempt (Work.record_uses hC _ _ _ _ fun s hs key i h1 h2 =>
        .first (process_states hr).1 (states_after_process hC hr hs) h1 h2)) fun v _ => ?_
      split <;> exact uses_pure _
  | processBundle a b s1 s2 =>
    simp only [Work.run, mapped_trace]
    exact (Work.bundle_uses ..).each
  | processKeyExchange a m r =>
    simp only [Work.run, mapped_trace]
    exact (Work.exchange_uses ..).each
  | initKeyExchange a n s1 s2 s3 =>
    simp only [Work.run, mapped_trace]
    exact (Work.init_uses ..).each

theorem groupCall_permitted (hC : C.Lawful) (g : GroupStore) (c : GroupCall) :
    ∀ o ∈ groupCallTrace g c, Permitted (GroupChecks g c) (GroupEnciphers g c) (GroupOpens g c) o := by
  unfold groupCallTrace
  cases c with
  | encrypt n pt r =>
    simp only [Work.groupRun, mapped_trace]
    exact (Work.groupEncrypt_uses hC ..).each
  | decrypt n b =>
    simp only [Work.groupRun, mapped_trace]
    exact (Work.groupDecrypt_uses hC ..).each
  | process n m => intro o ho; cases ho
  | create n r =>
    simp only [Work.groupRun, mapped_trace]
    exact (Work.groupCreate_uses ..).each

/-- **C115**: the calls of the session API check only these signatures. -/
theorem C115_checks (hC : C.Lawful) (w : World) (c : Call) (k : ECPub) (d s : Bytes) (h : .verifySig k d s ∈ callTrace w c) : Checks w c k d s :=
  call_permitted hC w c _ h

/-- **C115**: the calls of the session API encrypt only the text they are given, under the key of the next message. -/
theorem C115_enciphers (hC : C.Lawful) (w : World) (c : Call) (k b : Bytes) (h : .aesEnc k b ∈ callTrace w c) : Enciphers w c k b :=
  call_permitted hC w c _ h

/-- **C115**: the calls of the session API decrypt only the body of the message they are given, under keys for this message. -/
theorem C115_opens (hC : C.Lawful) (w : World) (c : Call) (k b : Bytes) (h : .aesDec k b ∈ callTrace w c) : Opens w c k b :=
  call_permitted hC w c _ h

/-- **C115**, groups: the signatures that are checked. -/
theorem C115_group_checks (hC : C.Lawful) (g : GroupStore) (c : GroupCall) (k : ECPub) (d s : Bytes) (h : .verifySig k d s ∈ groupCallTrace g c) :
    GroupChecks g c k d s := groupCall_permitted hC g c _ h

/-- **C115**, groups: what is encrypted. -/
theorem C115_group_enciphers (hC : C.Lawful) (g : GroupStore) (c : GroupCall) (k b : Bytes) (h : .aesEnc k b ∈ groupCallTrace g c) :
    GroupEnciphers g c k b := groupCall_permitted hC g c _ h

/-- **C115**, groups: what is decrypted. -/
theorem C115_group_opens (hC : C.Lawful) (g : GroupStore) (c : GroupCall) (k b : Bytes) (h : .aesDec k b ∈ groupCallTrace g c) :
    GroupOpens g c k b := groupCall_permitted hC g c _ h

end

section
open Example Spec
attribute [local instance] toy

/-- The hypotheses of the theorems: Alice checks Bob's bundle and encrypts, Bob checks a request, and decrypts Alice's message. -/
example : .verifySig bobBundle.identityKey (5 :: bobBundle.signedPreKey.getD []) bobBundle.signedPreKeySignature ∈
      callTrace alice0 (.processBundle bobAddr bobBundle (key 41) (key 42)) ∧
    .verifySig keAskMsg.identityKey (5 :: keAskMsg.baseKey) keAskMsg.baseKeySignature ∈ callTrace bob0 (.processKeyExchange aliceAddr keAskMsg keRand) ∧
    (callTrace alice1 (.encrypt bobAddr [1, 2])).any (fun o => match o with
      | .aesEnc k _ => k == cipherKeyOf (sendKey (alice1.loadSession bobAddr).sessionState)
      | _ => false) = true ∧
    (callTrace bob0 (.decryptPkmsg aliceAddr firstPk (key 5) fun _ => key 6)).any (fun o => match o with
      | .aesDec _ b => b == block firstPk.message.ciphertext 0 | _ => false) = true := by
  decide +kernel

/-- Version 2: Bob encrypts, and Alice decrypts what Bob sent. -/
example : (callTrace old2WB (.encrypt aliceAddr [104, 105])).any (fun o => match o with
      | .aesEnc k _ => k == cipherKeyOf2 (sendKey old2Bob.sessionState)
      | _ => false) = true ∧ versionOf old2Bob.sessionState = 2 ∧
    Op.aesDec (cipherKeyOf2 (sendKey old2Bob.sessionState)) (block old2Msg.ciphertext 0) ∈
      callTrace old2WA (.decryptMsg bobAddr old2Msg (key 43) fun _ => key 44) := by
  decide +kernel

/-- The same for groups: the creator of a group encrypts, and reads their own message. -/
example : (groupCallTrace ((GroupCall.create grp grpRand).next GroupStore.empty) (.encrypt grp [1] (key 9))).any
      (fun o => match o with | .aesEnc k _ => k == groupCipherKey (groupSeed grpRand.senderKey) | _ => false) = true ∧
    (match (GroupCipher.encrypt ((GroupCall.create grp grpRand).next GroupStore.empty) grp [1] grpSig).result with
      | .error _ => false
      | .ok b => (groupCallTrace ((GroupCall.create grp grpRand).next GroupStore.empty) (.decrypt grp b)).any
          (fun o => match o with | .aesDec k _ => k == groupCipherKey (groupSeed grpRand.senderKey) | _ => false) &&
        (groupCallTrace ((GroupCall.create grp grpRand).next GroupStore.empty) (.decrypt grp b)).any
          (fun o => match o with | .verifySig k d s => d ++ s == b && s.length == 64 && k == (toy).genPub ((toy).genPriv grpRand.signSeed) | _ => false)) = true := by
  decide +kernel

end
end Axolotl
