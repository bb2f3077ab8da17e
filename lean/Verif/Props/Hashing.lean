import Verif.Proofs.Hashing
import Verif.Props.Ciphering
import Verif.Props.Agreements
import Verif.Props.Version2

/-! # C116: what is hashed, and with which key -/

namespace Axolotl
section
variable [C : Crypto]
open Spec Logged Traced SessionState SessionBuilder

namespace Work
open Fallible
variable {H : Bytes → Bytes → Prop}

omit C in
theorem getSessionVersion_three {s : SessionState} (hv : s.sessionVersion = some 3) : s.getSessionVersion = 3 := by
  unfold getSessionVersion
  rw [hv]
  rfl

omit C in
/-- The bytes that a MAC is computed over. -/
theorem whisper_body {e : ECPub} {n pc c p : Nat} {ct : Bytes} (h1 : chkU32 n = .ok c) (h2 : chkU32 pc = .ok p) (he : e.length ≤ 32)
    (hct : ct.length < 2 ^ 63) :
    ByteUtil.intsToByteHighAndLow 3 CiphertextMessage.CURRENT_VERSION :: serializeWith WhisperMessageP.toFields
      { ratchetKey := some (Curve.serializePoint e), counter := some c, previousCounter := some p, ciphertext := some ct } =
      sessionMessage e n pc ct := by
  obtain ⟨e1, l1⟩ := chkU32_eq_ok.1 h1
  obtain ⟨e2, l2⟩ := chkU32_eq_ok.1 h2
  have e1 : c = n := by omega
  have e2 : p = pc := by omega
  subst e1 e2
  have hv : ByteUtil.intsToByteHighAndLow 3 CiphertextMessage.CURRENT_VERSION = 0x33 := by decide
  have hb : serializeWith WhisperMessageP.toFields
      { ratchetKey := some (Curve.serializePoint e), counter := some c,
        previousCounter := some p, ciphertext := some ct } =
      bytesField 0x0A (5 :: e) ++ numField 0x10 c ++ numField 0x18 p ++ bytesField 0x22 ct := by
    unfold serializeWith WhisperMessageP.toFields
    simp only [Wire.encFields_append]
    rw [encFields_bytes (by decide) (by rw [serializePoint_length]; omega), encFields_num (by decide) (by omega),
      encFields_num (by decide) (by omega), encFields_bytes (by decide) (by omega)]
    rfl
  rw [hb, hv]
  rfl

omit C in
/-- The bytes that a MAC is computed over. -/
theorem whisper_body2 {e : ECPub} {n pc c p : Nat} {ct : Bytes} (h1 : chkU32 n = .ok c) (h2 : chkU32 pc = .ok p) (he : e.length ≤ 32)
    (hct : ct.length < 2 ^ 63) :
    ByteUtil.intsToByteHighAndLow 2 CiphertextMessage.CURRENT_VERSION :: serializeWith WhisperMessageP.toFields
      { ratchetKey := some (Curve.serializePoint e), counter := some c, previousCounter := some p, ciphertext := some ct } =
      sessionMessage2 e n pc ct := by
  obtain ⟨e1, l1⟩ := chkU32_eq_ok.1 h1
  obtain ⟨e2, l2⟩ := chkU32_eq_ok.1 h2
  have e1 : c = n := by omega
  have e2 : p = pc := by omega
  subst e1 e2
  have hv : ByteUtil.intsToByteHighAndLow 2 CiphertextMessage.CURRENT_VERSION = 0x23 := by decide
  have hb : serializeWith WhisperMessageP.toFields
      { ratchetKey := some (Curve.serializePoint e), counter := some c,
        previousCounter := some p, ciphertext := some ct } =
      bytesField 0x0A (5 :: e) ++ numField 0x10 c ++ numField 0x18 p ++ bytesField 0x22 ct := by
    unfold serializeWith WhisperMessageP.toFields
    simp only [Wire.encFields_append]
    rw [encFields_bytes (by decide) (by rw [serializePoint_length]; omega), encFields_num (by decide) (by omega),
      encFields_num (by decide) (by omega), encFields_bytes (by decide) (by omega)]
    rfl
  rw [hb, hv]
  rfl

theorem encryptWithState_macs (hC : C.Lawful) {s : SessionState} (hv : s.sessionVersion = some 3) (pt : Bytes)
    (h : ∀ k d, SendUse s pt k d → H k d) : Macs H (encryptWithState tracing s pt) := by
  unfold encryptWithState
  refine macs_bind (macs_lift _) fun ck hck => ?_
  have hck := (value_lift _).symm.trans hck
  unfold SessionState.getSenderChainKey at hck
  rw [createFor_three hv] at hck
  obtain rfl := Except.ok.inj hck
  have hchain : ∀ k d, ChainUse ((s.senderChainD.chainKey.getD {}).key.getD []) k d → H k d := fun k d hd => by
    rw [sent_with] at hd
    exact h _ _ (.chain hd)
  refine macs_bind (getMessageKeys_macs rfl hchain) fun mk hk => macs_bind (macs_lift _) fun e he =>
    macs_bind (aesEncrypt_macs ..) fun ct hct => macs_bind (macs_lift _) fun me hme => macs_bind (macs_lift _) fun them hthem =>
    macs_bind ?_ fun _ _ => ?_
  · rw [getSessionVersion_three hv]
    unfold createWhisperMessage
    refine macs_bind (macs_lift _) fun c hc => macs_bind (macs_lift _) fun p hp => macs_bind (getMac_macs ?_) fun _ _ => macs_pure _
    rw [value_lift] at he hme hthem hc hp
    rw [getMessageKeys_value] at hk
    obtain rfl := Except.ok.inj hk
    rw [aesEncrypt_value] at hct
    rw [getMessageKeys_v3 hC.hmac_len _ rfl] at hct ⊢
    simp only at hct ⊢
    rw [sent_with] at hct ⊢
    refine h _ _ (.mac (decodePoint_KeyOf hme) (decodePoint_KeyOf hthem) (sendRatchet_eq he) (aes_cbc hC hct) fun hl => ?_)
    rw [sendCounter_eq]
    exact whisper_body hc hp (sendRatchet_eq he).length_le hl
  · split
    · exact macs_bind (macs_lift _) fun _ _ => macs_bind (macs_lift _) fun _ _ => macs_bind (macs_pure _) fun _ _ =>
        macs_bind (getNextChainKey_macs (hchain _ _ .next)) fun _ _ => macs_bind (macs_lift _) fun _ _ => macs_pure _
    · exact macs_bind (macs_pure _) fun _ _ =>
        macs_bind (getNextChainKey_macs (hchain _ _ .next)) fun _ _ => macs_bind (macs_lift _) fun _ _ => macs_pure _

theorem encryptWithState_macs2 (hC : C.Lawful) {s : SessionState} (hv : versionOf s = 2) (pt : Bytes)
    (h : ∀ k d, SendUse2 s pt k d → H k d) : Macs H (encryptWithState tracing s pt) := by
  unfold encryptWithState
  refine macs_bind (macs_lift _) fun ck hck => ?_
  have hck := (value_lift _).symm.trans hck
  unfold SessionState.getSenderChainKey at hck
  rw [createFor_two hv] at hck
  obtain rfl := Except.ok.inj hck
  have hchain : ∀ k d, ChainUse2 ((s.senderChainD.chainKey.getD {}).key.getD []) k d → H k d := fun k d hd => by
    rw [sent_with] at hd
    exact h _ _ (.chain hd)
  refine macs_bind (getMessageKeys_macs2 rfl hchain) fun mk hk => macs_bind (macs_lift _) fun e he =>
    macs_bind (aesEncrypt_macs ..) fun ct hct => macs_bind (macs_lift _) fun me hme => macs_bind (macs_lift _) fun them hthem =>
    macs_bind ?_ fun _ _ => ?_
  · rw [getSessionVersion_two hv]
    unfold createWhisperMessage
    refine macs_bind (macs_lift _) fun c hc => macs_bind (macs_lift _) fun p hp => macs_bind (getMac_macs2 ?_) fun _ _ => macs_pure _
    rw [value_lift] at he hme hthem hc hp
    rw [getMessageKeys_value] at hk
    obtain rfl := Except.ok.inj hk
    rw [aesEncrypt_value] at hct
    rw [getMessageKeys_v2 hC.hmac_len _ rfl] at hct ⊢
    simp only at hct ⊢
    rw [sent_with] at hct ⊢
    refine h _ _ (.mac (sendRatchet_eq he) (aes_cbc hC hct) fun hl => ?_)
    rw [sendCounter_eq]
    exact whisper_body2 hc hp (sendRatchet_eq he).length_le hl
  · split
    · exact macs_bind (macs_lift _) fun _ _ => macs_bind (macs_lift _) fun _ _ => macs_bind (macs_pure _) fun _ _ =>
        macs_bind (getNextChainKey_macs (hchain _ _ .next)) fun _ _ => macs_bind (macs_lift _) fun _ _ => macs_pure _
    · exact macs_bind (macs_pure _) fun _ _ =>
        macs_bind (getNextChainKey_macs (hchain _ _ .next)) fun _ _ => macs_bind (macs_lift _) fun _ _ => macs_pure _

theorem getOrCreateChainKey_macs (hC : C.Lawful) {s : SessionState} (hv : s.sessionVersion = some 3) {m : WhisperMessage} {seed : Bytes} {c : ChainS}
    (hc : s.senderChain = some c) (h : ∀ k d, ReadUse s m seed k d → H k d) : Macs H (getOrCreateChainKey tracing s m.senderRatchetKey seed) := by
  unfold getOrCreateChainKey
  refine macs_bind (macs_lift _) fun b hb => macs_ite (fun _ => macs_bind (macs_lift _) fun _ _ => macs_pure _) fun hnb => ?_
  have hb := (value_lift _).symm.trans hb
  have hb : s.hasReceiverChain m.senderRatchetKey = .ok false := by
    cases b with
    | true => exact absurd rfl hnb
    | false => exact hb
  have hno := hasReceiverChain_false hb
  refine macs_bind (macs_lift _) fun root hroot => macs_bind (macs_lift _) fun our hour => ?_
  have hroot := (value_lift _).symm.trans hroot
  have hour := (value_lift _).symm.trans hour
  have hroot : root = ⟨.v3, s.rootKey.getD []⟩ := by
    unfold SessionState.getRootKey at hroot
    rw [createFor_three hv] at hroot
    exact (Except.ok.inj hroot).symm
  subst hroot
  have hpriv : our.priv = c.senderRatchetKeyPrivate.getD [] := by
    unfold SessionState.getSenderRatchetKeyPair at hour
    obtain ⟨pub, _, hour⟩ := bind_eq_ok.1 hour
    obtain rfl := Except.ok.inj hour
    unfold senderChainD
    rw [hc]
    rfl
  refine macs_bind (createChain_macs rfl fun x hx k d hd => h _ _ (.ratchet hno hc (hpriv ▸ hx) hd)) fun rc hrc =>
    macs_bind (generateKeyPair_macs _) fun kp hkp => ?_
  rw [createChain_value, createChain_v3 hC.hmac_len] at hrc
  rw [generateKeyPair_value] at hkp
  obtain rfl := Except.ok.inj hkp
  cases hdh : C.dh our.priv m.senderRatchetKey with
  | none => rw [hdh] at hrc; cases hrc
  | some sec =>
    rw [hdh] at hrc
    obtain rfl := Except.ok.inj hrc
    exact macs_bind (createChain_macs rfl fun x hx k d hd => h _ _ (.answer hno hc (hpriv ▸ hdh) hx hd)) fun _ _ => macs_bind (macs_lift _) fun _ _ =>
      macs_bind (macs_lift _) fun _ _ => macs_bind (macs_lift _) fun _ _ => macs_pure _

theorem getOrCreateChainKey_macs2 (hC : C.Lawful) {s : SessionState} (hv : versionOf s = 2) {m : WhisperMessage} {seed : Bytes} {c : ChainS}
    (hc : s.senderChain = some c) (h : ∀ k d, ReadUse2 s m seed k d → H k d) : Macs H (getOrCreateChainKey tracing s m.senderRatchetKey seed) := by
  unfold getOrCreateChainKey
  refine macs_bind (macs_lift _) fun b hb => macs_ite (fun _ => macs_bind (macs_lift _) fun _ _ => macs_pure _) fun hnb => ?_
  have hb := (value_lift _).symm.trans hb
  have hb : s.hasReceiverChain m.senderRatchetKey = .ok false := by
    cases b with
    | true => exact absurd rfl hnb
    | false => exact hb
  have hno := hasReceiverChain_false hb
  refine macs_bind (macs_lift _) fun root hroot => macs_bind (macs_lift _) fun our hour => ?_
  have hroot := (value_lift _).symm.trans hroot
  have hour := (value_lift _).symm.trans hour
  have hroot : root = ⟨.v2, s.rootKey.getD []⟩ := by
    unfold SessionState.getRootKey at hroot
    rw [createFor_two hv] at hroot
    exact (Except.ok.inj hroot).symm
  subst hroot
  have hpriv : our.priv = c.senderRatchetKeyPrivate.getD [] := by
    unfold SessionState.getSenderRatchetKeyPair at hour
    obtain ⟨pub, _, hour⟩ := bind_eq_ok.1 hour
    obtain rfl := Except.ok.inj hour
    unfold senderChainD
    rw [hc]
    rfl
  refine macs_bind (createChain_macs2 rfl fun x hx k d hd => h _ _ (.ratchet hno hc (hpriv ▸ hx) hd)) fun rc hrc =>
    macs_bind (generateKeyPair_macs _) fun kp hkp => ?_
  rw [createChain_value, createChain_of hC.hmac_len] at hrc
  rw [generateKeyPair_value] at hkp
  obtain rfl := Except.ok.inj hkp
  cases hdh : C.dh our.priv m.senderRatchetKey with
  | none => rw [hdh] at hrc; cases hrc
  | some sec =>
    rw [hdh] at hrc
    obtain rfl := Except.ok.inj hrc
    exact macs_bind (createChain_macs2 rfl fun x hx k d hd => h _ _ (.answer hno hc (hpriv ▸ hdh) hx hd)) fun _ _ => macs_bind (macs_lift _) fun _ _ =>
      macs_bind (macs_lift _) fun _ _ => macs_bind (macs_lift _) fun _ _ => macs_pure _

theorem state_macs3 (hC : C.Lawful) {s : SessionState} (hv : s.sessionVersion = some 3) (m : WhisperMessage) (seed : Bytes)
    (h : ∀ k d, ReadUse s m seed k d → H k d) : Macs H (decryptWithSessionState tracing s m seed) := by
  unfold decryptWithSessionState
  refine macs_ite (fun _ => macs_fail _) fun hsc => ?_
  obtain ⟨c, hc⟩ : ∃ c, s.senderChain = some c := by
    unfold hasSenderChain at hsc
    cases h : s.senderChain with
    | none => rw [h] at hsc; simp at hsc
    | some c => exact ⟨c, rfl⟩
  refine macs_ite (fun _ => macs_fail _) fun hver => macs_bind (getOrCreateChainKey_macs hC hv hc h) fun p hp => ?_
  have hp := (getOrCreateChainKey_value ..).symm.trans hp
  obtain ⟨ck, s1⟩ := p
  have hck : ck.kdf = .v3 ∧ ∀ j, ck.index + j ≤ m.counter → ∀ k d, ChainUse (chainAt ck.key j) k d → H k d := by
    rcases SessionCipher.gocck_ok hp with ⟨c1, j1, kdf, g1, g2, rfl, g4⟩ | ⟨kdf, our, rk1, rk2, sck, g1, g2, g3, g4, g5, g6⟩
    · rw [createFor_three hv] at g2
      obtain rfl := Except.ok.inj g2
      obtain ⟨_, hcm, hck⟩ := SessionState.findChain_some g1
      exact ⟨rfl, fun j hj k d hd => h k d (.chain (List.mem_of_getElem? hcm) (decodePoint_KeyOf hck) hj hd)⟩
    · rw [createFor_three hv] at g2
      obtain rfl := Except.ok.inj g2
      have hno : ¬ HasChainFor m s := findChain_none g1
      rw [createChain_v3 hC.hmac_len] at g4
      have hpriv : our.priv = c.senderRatchetKeyPrivate.getD [] := by
        unfold SessionState.getSenderRatchetKeyPair at g3
        obtain ⟨pub, _, g3⟩ := bind_eq_ok.1 g3
        obtain rfl := Except.ok.inj g3
        unfold senderChainD
        rw [hc]
        rfl
      cases hdh : C.dh our.priv m.senderRatchetKey with
      | none => rw [hdh] at g4; cases g4
      | some sec =>
        rw [hdh] at g4
        obtain ⟨_, rfl⟩ := Prod.mk.inj (Except.ok.inj g4)
        exact ⟨rfl, fun j hj k d hd => h k d (.opened hno hc (hpriv ▸ hdh) (by simpa using hj) hd)⟩
  refine macs_bind (getOrCreateMessageKeys_macs _ _ _ _ hck.1 hck.2) fun q hq => macs_bind (macs_lift _) fun r hr => macs_bind (macs_lift _) fun l hl =>
    macs_bind ?_ fun _ _ => macs_bind (aesDecrypt_macs ..) fun _ _ => macs_pure _
  have hq := (getOrCreateMessageKeys_value ..).symm.trans hq
  rw [value_lift] at hr hl
  have hids := dwss_ids (s2 := q.2) hp hq
  have hm3 : m.messageVersion = 3 := by
    rw [getSessionVersion_three hv] at hver
    simpa using hver
  rw [hm3]
  unfold verifyMac
  refine macs_bind (getMac_macs (h _ _ ?_)) fun _ _ => macs_ite (fun _ => macs_fail _) fun _ => macs_pure _
  refine .mac (tag := (ByteUtil.split2 m.serialized ((m.serialized.length : Int) - WhisperMessage.MAC_LENGTH) WhisperMessage.MAC_LENGTH).2)
    (offered_mac hC.hmac_len (by simpa using hsc) hp hq hv) ?_ ?_ fun hl => ?_
  · rw [← hids.2]; exact decodePoint_KeyOf hr
  · rw [← hids.1]; exact decodePoint_KeyOf hl
  · have hd : (m.serialized.drop (m.serialized.length - 8)).length = 8 := by rw [List.length_drop]; omega
    have := split2_tail (m.serialized.take (m.serialized.length - 8)) (m.serialized.drop (m.serialized.length - 8)) 8 hd
    rw [List.take_append_drop] at this
    have e : ByteUtil.split2 m.serialized ((m.serialized.length : Int) - WhisperMessage.MAC_LENGTH) WhisperMessage.MAC_LENGTH =
      (m.serialized.take (m.serialized.length - 8), m.serialized.drop (m.serialized.length - 8)) := this
    rw [e]
    exact ⟨(List.take_append_drop ..).symm, hd⟩

theorem state_macs2 (hC : C.Lawful) {s : SessionState} (hv : versionOf s = 2) (m : WhisperMessage) (seed : Bytes)
    (h : ∀ k d, ReadUse2 s m seed k d → H k d) : Macs H (decryptWithSessionState tracing s m seed) := by
  unfold decryptWithSessionState
  refine macs_ite (fun _ => macs_fail _) fun hsc => ?_
  obtain ⟨c, hc⟩ : ∃ c, s.senderChain = some c := by
    unfold hasSenderChain at hsc
    cases h : s.senderChain with
    | none => rw [h] at hsc; simp at hsc
    | some c => exact ⟨c, rfl⟩
  refine macs_ite (fun _ => macs_fail _) fun hver => macs_bind (getOrCreateChainKey_macs2 hC hv hc h) fun p hp => ?_
  have hp := (getOrCreateChainKey_value ..).symm.trans hp
  obtain ⟨ck, s1⟩ := p
  have hck : ck.kdf = .v2 ∧ ∀ j, ck.index + j ≤ m.counter → ∀ k d, ChainUse2 (chainAt ck.key j) k d → H k d := by
    rcases SessionCipher.gocck_ok hp with ⟨c1, j1, kdf, g1, g2, rfl, g4⟩ | ⟨kdf, our, rk1, rk2, sck, g1, g2, g3, g4, g5, g6⟩
    · rw [createFor_two hv] at g2
      obtain rfl := Except.ok.inj g2
      obtain ⟨_, hcm, hck⟩ := SessionState.findChain_some g1
      exact ⟨rfl, fun j hj k d hd => h k d (.chain (List.mem_of_getElem? hcm) (decodePoint_KeyOf hck) hj hd)⟩
    · rw [createFor_two hv] at g2
      obtain rfl := Except.ok.inj g2
      have hno : ¬ HasChainFor m s := findChain_none g1
      rw [createChain_of hC.hmac_len] at g4
      have hpriv : our.priv = c.senderRatchetKeyPrivate.getD [] := by
        unfold SessionState.getSenderRatchetKeyPair at g3
        obtain ⟨pub, _, g3⟩ := bind_eq_ok.1 g3
        obtain rfl := Except.ok.inj g3
        unfold senderChainD
        rw [hc]
        rfl
      cases hdh : C.dh our.priv m.senderRatchetKey with
      | none => rw [hdh] at g4; cases g4
      | some sec =>
        rw [hdh] at g4
        obtain ⟨_, rfl⟩ := Prod.mk.inj (Except.ok.inj g4)
        exact ⟨rfl, fun j hj k d hd => h k d (.opened hno hc (hpriv ▸ hdh) (by simpa using hj) hd)⟩
  refine macs_bind (getOrCreateMessageKeys_macs2 _ _ _ _ hck.1 hck.2) fun q hq => macs_bind (macs_lift _) fun r hr => macs_bind (macs_lift _) fun l hl =>
    macs_bind ?_ fun _ _ => macs_bind (aesDecrypt_macs ..) fun _ _ => macs_pure _
  have hq := (getOrCreateMessageKeys_value ..).symm.trans hq
  rw [value_lift] at hr hl
  have hm3 : m.messageVersion = 2 := by
    rw [getSessionVersion_two hv] at hver
    simpa using hver
  rw [hm3]
  unfold verifyMac
  refine macs_bind (getMac_macs2 (h _ _ ?_)) fun _ _ => macs_ite (fun _ => macs_fail _) fun _ => macs_pure _
  refine .mac (tag := (ByteUtil.split2 m.serialized ((m.serialized.length : Int) - WhisperMessage.MAC_LENGTH) WhisperMessage.MAC_LENGTH).2)
    (offered_keys2 hC.hmac_len (by simpa using hsc) hp hq hv) fun hl => ?_
  · have hd : (m.serialized.drop (m.serialized.length - 8)).length = 8 := by rw [List.length_drop]; omega
    have := split2_tail (m.serialized.take (m.serialized.length - 8)) (m.serialized.drop (m.serialized.length - 8)) 8 hd
    rw [List.take_append_drop] at this
    have e : ByteUtil.split2 m.serialized ((m.serialized.length : Int) - WhisperMessage.MAC_LENGTH) WhisperMessage.MAC_LENGTH =
      (m.serialized.take (m.serialized.length - 8), m.serialized.drop (m.serialized.length - 8)) := this
    rw [e]
    exact ⟨(List.take_append_drop ..).symm, hd⟩

theorem send_macs (hC : C.Lawful) (s : SessionState) (pt : Bytes) (h : ∀ k d, SendsWith s pt k d → H k d) :
    Macs H (encryptWithState tracing s pt) := by
  by_cases h3 : versionOf s = 3
  · exact encryptWithState_macs hC (version_three h3) pt fun k d hd => h k d (.inl ⟨h3, hd⟩)
  by_cases h2 : versionOf s = 2
  · exact encryptWithState_macs2 hC h2 pt fun k d hd => h k d (.inr ⟨h2, hd⟩)
  unfold encryptWithState
  refine macs_bind (macs_lift _) fun ck hck => ?_
  have hck := (value_lift _).symm.trans hck
  unfold SessionState.getSenderChainKey at hck
  rw [createFor_other h2 h3] at hck
  cases hck

theorem state_macs (hC : C.Lawful) (s : SessionState) (m : WhisperMessage) (seed : Bytes)
    (h : ∀ k d, ReadsWith s m seed k d → H k d) : Macs H (decryptWithSessionState tracing s m seed) := by
  by_cases h3 : versionOf s = 3
  · exact state_macs3 hC (version_three h3) m seed fun k d hd => h k d (.inl ⟨h3, hd⟩)
  by_cases h2 : versionOf s = 2
  · exact state_macs2 hC h2 m seed fun k d hd => h k d (.inr ⟨h2, hd⟩)
  unfold decryptWithSessionState
  refine macs_ite (fun _ => macs_fail _) fun _ => macs_ite (fun _ => macs_fail _) fun _ => macs_bind ?_ fun p hp => ?_
  · unfold getOrCreateChainKey
    refine macs_bind (macs_lift _) fun b hb => macs_ite (fun _ => macs_bind (macs_lift _) fun _ _ => macs_pure _) fun _ =>
      macs_bind (macs_lift _) fun root hroot => ?_
    have hroot := (value_lift _).symm.trans hroot
    unfold SessionState.getRootKey at hroot
    rw [createFor_other h2 h3] at hroot
    cases hroot
  · have hp := (getOrCreateChainKey_value ..).symm.trans hp
    rcases SessionCipher.gocck_ok (ck := p.1) (s1 := p.2) hp with ⟨c1, j1, kdf, g1, g2, _, _⟩ | ⟨kdf, our, rk1, rk2, sck, g1, g2, _⟩
    · rw [createFor_other h2 h3] at g2; cases g2
    · rw [createFor_other h2 h3] at g2; cases g2

theorem tryPrevious_macs (hC : C.Lawful) (r : SessionRecord) (m : WhisperMessage) (seeds : Nat → Bytes) (l : List SessionState) (i : Nat)
    (h : ∀ s ∈ l, ∀ j < i + l.length, ∀ k d, ReadsWith s m (seeds j) k d → H k d) :
    Macs H (tryPrevious tracing r m seeds l i) := by
  induction l generalizing i with
  | nil => exact macs_fail _
  | cons p l ih =>
    unfold tryPrevious
    refine macs_bind (macs_attempt (state_macs hC _ _ _ (h p (List.mem_cons_self ..) i (by simp)))) fun v _ => ?_
    split
    · exact macs_pure _
    · refine ih (i + 1) fun s hs j hj => h s (List.mem_cons_of_mem _ hs) j ?_
      rw [List.length_cons]
      omega
    · exact macs_fail _

theorem record_macs (hC : C.Lawful) (r : SessionRecord) (m : WhisperMessage) (seed : Bytes) (seeds : Nat → Bytes)
    (h : ∀ s ∈ states r, ∀ x ∈ seed :: (List.range r.previousStates.length).map seeds, ∀ k d,
      ReadsWith s m x k d → H k d) : Macs H (decryptWithSessionRecord tracing r m seed seeds) := by
  unfold decryptWithSessionRecord
  refine macs_bind (macs_attempt (state_macs hC _ _ _ (h _ (List.mem_cons_self ..) _ (List.mem_cons_self ..)))) fun v _ => ?_
  split
  · exact macs_pure _
  · exact tryPrevious_macs hC _ _ _ _ _ fun s hs j hj =>
      h s (List.mem_cons_of_mem _ hs) _ (List.mem_cons_of_mem _ (List.mem_map_of_mem (List.mem_range.2 (by omega))))
  · exact macs_fail _

theorem initializeSession_macs (hC : C.Lawful) (s : SessionState) {p : SymmetricParameters} {seed : Bytes}
    (h1 : SmallerKey p.ourBaseKey.pub p.theirBaseKey → ∀ k d, BeginUse p.ourIdentityKey.priv p.ourBaseKey.priv (C.genPriv seed) p.theirIdentityKey
      p.theirBaseKey p.theirRatchetKey none k d → H k d)
    (h2 : ¬ SmallerKey p.ourBaseKey.pub p.theirBaseKey → ∀ k d, AnswerUse p.ourIdentityKey.priv p.ourBaseKey.priv none p.theirIdentityKey p.theirBaseKey
      k d → H k d) : Macs H (initializeSession tracing s p seed) := by
  unfold initializeSession
  refine macs_bind (macs_lift _) fun b hb => ?_
  have hb := (value_lift _).symm.trans hb
  have hsm := pubLt_iff hb
  exact macs_ite (fun ht => asAlice_macs hC _ _ _ (h1 (hsm.1 ht))) fun hf => asBob_macs _ _ (h2 fun hs => hf (hsm.2 hs))

theorem process_macs {w : World} {a : Address} {m : PreKeyWhisperMessage} {s : Bytes} {ss : Nat → Bytes} :
    Macs (Hashes w (.decryptPkmsg a m s ss)) (process tracing w a (w.loadSession a) m) := by
  unfold process
  refine macs_ite (fun _ => macs_pure _) fun ht => macs_bind (macs_attempt ?_) fun v _ => ?_
  · unfold processV3
    refine macs_ite (fun _ => macs_pure _) fun hk => macs_bind (macs_lift _) fun spk hspk => macs_bind (macs_lift _) fun kp hkp => ?_
    have hn : NewSession w a m := ⟨by simpa using ht, fun h => hk ((hasSessionState_iff _ _ _).2 h)⟩
    rw [value_lift] at hspk hkp
    have hspk : w.signedPreKeys m.signedPreKeyId = some spk := by
      unfold World.loadSignedPreKey at hspk
      split at hspk
      · rename_i h
        rw [h, Except.ok.inj hspk]
      · cases hspk
    have hkp : kp.priv = spk.privateKey.getD [] := by
      unfold SignedPreKeyRecord.getKeyPair at hkp
      obtain ⟨pub, _, hkp⟩ := bind_eq_ok.1 hkp
      obtain rfl := Except.ok.inj hkp
      rfl
    cases hi : m.preKeyId with
    | none =>
      refine macs_bind (macs_pure _) fun o ho => macs_bind (asBob_macs _ _ fun k d hd => ?_) fun _ _ => macs_bind (macs_lift _) fun _ _ =>
        macs_bind (macs_lift _) fun _ _ => macs_pure _
      obtain rfl := Except.ok.inj ho
      simp only [hkp] at hd
      exact .answer hn hspk (o := none) (by rw [hi]; rfl) (by rw [hi]; simp) hd
    | some i =>
      refine macs_bind (macs_lift _) fun pk hpk => macs_bind (macs_lift _) fun op hop => macs_bind (macs_pure _) fun o ho =>
        macs_bind (asBob_macs _ _ fun k d hd => ?_) fun _ _ => macs_bind (macs_lift _) fun _ _ => macs_bind (macs_lift _) fun _ _ => macs_pure _
      obtain rfl := Except.ok.inj ho
      rw [value_lift] at hpk hop
      have hpk : w.preKeys i = some pk := by
        unfold World.loadPreKey at hpk
        split at hpk
        · rename_i h
          rw [h, Except.ok.inj hpk]
        · cases hpk
      unfold PreKeyRecord.getKeyPair at hop
      obtain ⟨pub, _, hop⟩ := bind_eq_ok.1 hop
      obtain rfl := Except.ok.inj hop
      simp only [hkp] at hd
      exact .answer hn hspk (o := some pk) (by rw [hi]; exact hpk.symm) (by rw [hi]; simp) hd
  · cases v <;> exact macs_pure _

theorem bundle_macs (hC : C.Lawful) (w : World) (a : Address) (b : PreKeyBundle) (s1 s2 : Bytes) :
    Macs (Hashes w (.processBundle a b s1 s2)) (processPreKeyBundle tracing w a b s1 s2) := by
  constructor
  unfold processPreKeyBundle
  rw [outcome_trace]
  refine Macs.each ?_
  refine macs_ite (fun _ => macs_fail _) fun ht => ?_
  cases hb : b.signedPreKey with
  | none => exact macs_fail _
  | some spk =>
    refine macs_bind (verifySignature_macs ..) fun ok hok => macs_ite (fun _ => macs_fail _) fun hv => ?_
    have hg : GoodBundle w a b spk := by
      refine ⟨by simpa using ht, hb, ?_⟩
      have hv : ok = true := by simpa using hv
      subst hv
      rw [verifySignature_value] at hok
      unfold Curve.verifySignature at hok
      cases hsig : C.verifySig b.identityKey (5 :: spk) b.signedPreKeySignature with
      | none => rw [show C.verifySig b.identityKey (Curve.serializePoint spk) b.signedPreKeySignature = none from hsig] at hok; cases hok
      | some x =>
        rw [show C.verifySig b.identityKey (Curve.serializePoint spk) b.signedPreKeySignature = some x from hsig] at hok
        obtain rfl := Except.ok.inj hok
        rfl
    refine macs_bind (generateKeyPair_macs _) fun k hk => ?_
    rw [generateKeyPair_value] at hk
    obtain rfl := Except.ok.inj hk
    exact macs_bind (asAlice_macs hC _ _ _ fun k d hd => .bundle hg hd) fun _ _ =>
      macs_bind (macs_lift _) fun _ _ => macs_bind (macs_lift _) fun _ _ => macs_bind (macs_lift _) fun _ _ => macs_pure _

theorem initiate_macs (hC : C.Lawful) {w : World} {a : Address} {m : KeyExchangeMessage} {rnd : InitiateRand}
    (ht : w.isTrusted a.1 m.identityKey = true) (hm : m.isInitiate = true) :
    Macs (Hashes w (.processKeyExchange a m rnd)) (processInitiate tracing w a m rnd) := by
  unfold processInitiate
  refine macs_bind (macs_attempt ?_) fun v hv => ?_
  · unfold processInitiateState
    refine macs_bind (verifySignature_macs ..) fun ok hok => macs_ite (fun _ => macs_fail _) fun hv => ?_
    have hsig : exchangeSignature m = some true := by
      have hv : ok = true := by simpa using hv
      subst hv
      rw [verifySignature_value] at hok
      unfold Curve.verifySignature at hok
      unfold exchangeSignature
      cases hsig : C.verifySig m.identityKey (5 :: m.baseKey) m.baseKeySignature with
      | none => rw [show C.verifySig m.identityKey (Curve.serializePoint m.baseKey) m.baseKeySignature = none from hsig] at hok; cases hok
      | some x =>
        rw [show C.verifySig m.identityKey (Curve.serializePoint m.baseKey) m.baseKeySignature = some x from hsig] at hok
        obtain rfl := Except.ok.inj hok
        rfl
    have hpl := pending_loaded w a
    refine macs_ite (fun hp => ?_) fun hp => ?_
    · have hp : Spec.pendingOf (w.sessions a) = none := by
        unfold hasPendingKeyExchange at hp
        rw [hpl] at hp
        cases h : Spec.pendingOf (w.sessions a) with
        | none => rfl
        | some x => rw [h] at hp; cases hp
      refine macs_bind (generateKeyPair_macs _) fun bk hbk => macs_bind (generateKeyPair_macs _) fun rk hrk => ?_
      rw [generateKeyPair_value] at hbk hrk
      obtain rfl := Except.ok.inj hbk
      obtain rfl := Except.ok.inj hrk
      have hx : ExchangeWith w a m rnd w.identityKeyPair ⟨C.genPub (C.genPriv rnd.baseSeed), C.genPriv rnd.baseSeed⟩ :=
        .request ht hm hsig (.new hp)
      refine macs_bind (macs_pure _) fun y hy => ?_
      obtain rfl := Except.ok.inj hy
      exact macs_bind (initializeSession_macs hC _ (fun h k d hd => .exchangeSmaller hx h hd) fun h k d hd => .exchangeLarger hx h hd) fun _ _ =>
        macs_pure _
    · refine macs_bind (macs_lift _) fun ik hik => macs_bind (macs_lift _) fun bk hbk => macs_bind (macs_lift _) fun rk hrk => ?_
      rw [value_lift] at hik hbk hrk
      have hx : ExchangeWith w a m rnd ik bk := by
        unfold hasPendingKeyExchange at hp
        cases h : (w.loadSession a).sessionState.pendingKeyExchange with
        | none => rw [h] at hp; simp at hp
        | some x => exact .request ht hm hsig (.pending (hpl.symm.trans h) (pendingKeys_of h hik hbk hrk))
      refine macs_bind (macs_pure _) fun y hy => ?_
      obtain rfl := Except.ok.inj hy
      exact macs_bind (initializeSession_macs hC _ (fun h k d hd => .exchangeSmaller hx h hd) fun h k d hd => .exchangeLarger hx h hd) fun _ _ =>
        macs_pure _
  · split
    · exact macs_pure _
    · exact macs_bind (macs_attempt (macs_bind (calculateSignature_macs ..) fun _ _ => macs_bind (macs_lift _) fun _ _ =>
        macs_pure _)) fun _ _ => macs_pure _

theorem response_macs (hC : C.Lawful) {w : World} {a : Address} {m : KeyExchangeMessage} {rnd : InitiateRand}
    (ht : w.isTrusted a.1 m.identityKey = true) (hm : m.isInitiate = false) :
    Macs (Hashes w (.processKeyExchange a m rnd)) (processResponse tracing w a m rnd.sendSeed) := by
  unfold processResponse
  refine macs_ite (fun _ => macs_ite (fun _ => macs_pure _) fun _ => macs_pure _) fun hp => ?_
  constructor
  rw [outcome_trace]
  refine Macs.each ?_
  refine macs_bind (macs_lift _) fun bk hbk => macs_bind (macs_lift _) fun rk hrk => macs_bind (macs_lift _) fun ik hik => ?_
  rw [value_lift] at hik hbk hrk
  have hx : ExchangeWith w a m rnd ik bk := by
    have hpl := pending_loaded w a
    unfold hasPendingKeyExchange getPendingKeyExchangeSequence pendingKED at hp
    cases h : (w.loadSession a).sessionState.pendingKeyExchange with
    | none => rw [h] at hp; simp at hp
    | some x =>
      rw [h] at hp
      exact .reply ht hm (hpl.symm.trans h) (by simpa using hp) (pendingKeys_of h hik hbk hrk)
  exact macs_bind (initializeSession_macs hC _ (fun h k d hd => .exchangeSmaller hx h hd) fun h k d hd => .exchangeLarger hx h hd) fun _ _ =>
    macs_bind (verifySignature_macs ..) fun _ _ => macs_ite (fun _ => macs_fail _) fun _ => macs_pure _

theorem init_macs (w : World) (a : Address) (n : Nat) (s1 s2 s3 : Bytes) :
    Macs H (processInitKeyExchangeMessage tracing w a n s1 s2 s3) := by
  unfold processInitKeyExchangeMessage
  refine macs_bind (generateKeyPair_macs _) fun _ _ => macs_bind (generateKeyPair_macs _) fun _ _ => macs_bind (macs_attempt
    (macs_bind (calculateSignature_macs ..) fun _ _ => macs_bind (macs_lift _) fun _ _ => macs_pure _)) fun v _ => ?_
  split <;> exact macs_pure _

theorem groupEncrypt_macs (g : GroupStore) (n : SenderKeyName) (pt rand : Bytes) :
    Macs (GroupHashes g (.encrypt n pt rand)) (groupEncrypt tracing g n pt rand) := by
  unfold groupEncrypt
  refine macs_bind (macs_attempt ?_) fun v _ => ?_
  · unfold encryptWithRecord
    refine macs_bind (macs_lift _) fun st hst => ?_
    rw [value_lift] at hst
    unfold SenderKeyRecord.getFirstState at hst
    split at hst
    · rename_i s rest hr
      obtain rfl := Except.ok.inj hst
      have h : ∀ k d, GroupChainUse (SenderKeyState.getSenderChainKey s).chainKey k d → GroupHashes g (.encrypt n pt rand) k d := fun k d hd => by
        rw [chainKeyOf_eq] at hd
        exact .send hr hd
      refine macs_bind (getSenderMessageKey_macs h) fun k hk => macs_bind (aesEncrypt_macs ..) fun _ _ =>
        macs_bind ?_ fun _ _ => macs_bind (getNext_macs (h _ _ .next)) fun _ _ => macs_bind (macs_lift _) fun _ _ => macs_pure _
      unfold createSenderKeyMessage
      exact macs_bind (macs_lift _) fun _ _ => macs_bind (macs_lift _) fun _ _ =>
        macs_bind (calculateSignature_macs ..) fun _ _ => macs_pure _
    · cases hst
  · split <;> exact macs_pure _

theorem groupDecrypt_macs (g : GroupStore) (n : SenderKeyName) (b : Bytes) :
    Macs (GroupHashes g (.decrypt n b)) (groupDecrypt tracing g n b) := by
  unfold groupDecrypt
  refine macs_bind (macs_attempt ?_) fun v _ => ?_
  · unfold decryptWithRecord
    refine macs_ite (fun _ => macs_fail _) fun _ => macs_bind (macs_lift _) fun m hm => macs_bind (macs_lift _) fun st hst =>
      macs_bind (macs_lift _) fun pub hpub => ?_
    rw [value_lift] at hm hst hpub
    obtain ⟨s, j⟩ := st
    have hs := (SenderKeyRecord.getStateById_ok hst).1
    have hser := senderkey_parse_serialized hm
    have hchk : GroupChecks g (.decrypt n b) pub
        (ByteUtil.split2 m.serialized ((m.serialized.length : Int) - SenderKeyMessage.SIGNATURE_LENGTH) SenderKeyMessage.SIGNATURE_LENGTH).1
        (ByteUtil.split2 m.serialized ((m.serialized.length : Int) - SenderKeyMessage.SIGNATURE_LENGTH) SenderKeyMessage.SIGNATURE_LENGTH).2 := by
      refine .message hm hs (KeyOf_iff.2 hpub) fun hl => ?_
      have hd : (b.drop (b.length - 64)).length = 64 := by rw [List.length_drop]; omega
      have := split2_tail (b.take (b.length - 64)) (b.drop (b.length - 64)) 64 hd
      rw [List.take_append_drop] at this
      rw [hser]
      have e : ByteUtil.split2 b ((b.length : Int) - SenderKeyMessage.SIGNATURE_LENGTH) SenderKeyMessage.SIGNATURE_LENGTH =
        (b.take (b.length - 64), b.drop (b.length - 64)) := this
      rw [e]
      exact ⟨(List.take_append_drop ..).symm, hd⟩
    refine macs_bind ?_ fun u hu => ?_
    · unfold verifySenderKeyMessage
      exact macs_bind (verifySignature_macs ..) fun _ _ => macs_ite (fun _ => macs_pure _) fun _ => macs_fail _
    · rw [verifySenderKeyMessage_value] at hu
      have hsig : C.verifySig pub
          (ByteUtil.split2 m.serialized ((m.serialized.length : Int) - SenderKeyMessage.SIGNATURE_LENGTH) SenderKeyMessage.SIGNATURE_LENGTH).1
          (ByteUtil.split2 m.serialized ((m.serialized.length : Int) - SenderKeyMessage.SIGNATURE_LENGTH) SenderKeyMessage.SIGNATURE_LENGTH).2
          = some true := by
        unfold SenderKeyMessage.verifySignature at hu
        simp only at hu
        obtain ⟨ok, h1, h2⟩ := bind_eq_ok.1 hu
        have hok : ok = true := by
          cases ok with
          | true => rfl
          | false => cases h2
        subst hok
        unfold Curve.verifySignature at h1
        cases hv : C.verifySig pub
            (ByteUtil.split2 m.serialized ((m.serialized.length : Int) - SenderKeyMessage.SIGNATURE_LENGTH) SenderKeyMessage.SIGNATURE_LENGTH).1
            (ByteUtil.split2 m.serialized ((m.serialized.length : Int) - SenderKeyMessage.SIGNATURE_LENGTH) SenderKeyMessage.SIGNATURE_LENGTH).2 with
        | none => rw [hv] at h1; cases h1
        | some x => rw [hv] at h1; rw [Except.ok.inj h1]
      refine macs_bind (getSenderKey_macs _ _ (fun j hj k d hd => .ahead hchk hsig hm hs hj hd)
        fun e he hi hlt k d hd => .stored hchk hsig hm hs he hi hlt hd) fun k hk => macs_bind ?_ fun _ _ => macs_pure _
      unfold getPlainText
      exact macs_bind (macs_attempt (aesDecrypt_macs ..)) fun _ _ => macs_lift _
  · split <;> exact macs_pure _

end Work

/-- **C116**: the calls of the session API hash only these values, with these keys. -/
theorem C116_hashes (hC : C.Lawful) (w : World) (c : Call) (k d : Bytes) (h : .hmac k d ∈ callTrace w c) : Hashes w c k d := by
  have only : ∀ {α : Type} {x : Traced α}, Macs (Hashes w c) x → Op.hmac k d ∈ x.work → Hashes w c k d := fun hx hm => hx.each k d hm
  unfold callTrace at h
  cases c with
  | encrypt a p =>
    simp only [Work.run, mapped_trace] at h
    unfold Work.encrypt at h
    rw [outcome_trace] at h
    exact only (macs_bind (Work.send_macs hC _ _ fun k d hd => .send hd) fun _ _ => macs_pure _) h
  | decryptMsg a m s ss =>
    simp only [Work.run, mapped_trace] at h
    unfold Work.decryptMsg at h
    rw [outcome_trace] at h
    exact only (macs_ite (fun _ => macs_fail _) fun _ => macs_bind (Work.record_macs hC _ _ _ _ fun s hs x hx k d hd => .read hs hd hx) fun _ _ =>
      macs_pure _) h
  | decryptPkmsg a m s ss =>
    simp only [Work.run, mapped_trace] at h
    unfold Work.decryptPkmsg at h
    refine only (macs_bind Work.process_macs fun o ho => ?_) h
    rw [Work.process_value] at ho
    obtain rfl := Except.ok.inj ho
    split
    · exact macs_pure _
    · rename_i r i hr
      have hsub : ∀ x, x ∈ s :: (List.range r.previousStates.length).map ss → x ∈ randomness w (.decryptPkmsg a m s ss) := fun x hx =>
        ((range_sublist (process_more hr) ss).cons_cons s).subset hx
      have hst : ∀ s ∈ states r, s ∈ states (w.loadSession a) ∨ (NewSession w a m ∧ SetUp w m s) := fun s hs => by
        rcases (process_states hr).2 with hold | ⟨hn, _⟩
        · exact .inl (hold s hs)
        · rcases states_after_process hC hr hs with h | h
          · exact .inl h
          · exact .inr ⟨hn, h⟩
      refine macs_bind (macs_attempt (Work.record_macs hC _ _ _ _ fun s hs x hx k d hd =>
        .readFirst (process_states hr).1 (hst s hs) hd (hsub x hx))) fun v _ => ?_
      split <;> exact macs_pure _
  | processBundle a b s1 s2 =>
    simp only [Work.run, mapped_trace] at h
    exact only (Work.bundle_macs hC ..) h
  | processKeyExchange a m r =>
    simp only [Work.run, mapped_trace] at h
    unfold Work.processKeyExchangeMessage at h
    refine only (macs_ite (fun _ => macs_pure _) fun ht => macs_ite (fun hm => ?_) fun hm => ?_) h
    · exact Work.initiate_macs hC (by simpa using ht) hm
    · exact Work.response_macs hC (by simpa using ht) (by simpa using hm)
  | initKeyExchange a n s1 s2 s3 =>
    simp only [Work.run, mapped_trace] at h
    exact only (Work.init_macs ..) h

/-- **C116**: in a session that is neither of version 2 nor of version 3, nothing is hashed to send. -/
theorem C116_other_versions (hC : C.Lawful) (w : World) (a : Address) (pt k d : Bytes) (h2 : versionOf (w.loadSession a).sessionState ≠ 2)
    (h3 : versionOf (w.loadSession a).sessionState ≠ 3) : .hmac k d ∉ callTrace w (.encrypt a pt) := fun h => by
  cases C116_hashes hC w _ k d h with
  | send h => rcases h with ⟨h, _⟩ | ⟨h, _⟩ <;> contradiction

/-- **C116**, groups: what is hashed, with which key. -/
theorem C116_group_hashes (g : GroupStore) (c : GroupCall) (k d : Bytes) (h : .hmac k d ∈ groupCallTrace g c) : GroupHashes g c k d := by
  unfold groupCallTrace at h
  cases c with
  | encrypt n pt r =>
    simp only [Work.groupRun, mapped_trace] at h
    exact (Work.groupEncrypt_macs ..).each k d h
  | decrypt n b =>
    simp only [Work.groupRun, mapped_trace] at h
    exact (Work.groupDecrypt_macs ..).each k d h
  | process n m => cases h
  | create n r =>
    simp only [Work.groupRun, mapped_trace] at h
    exact (Work.groupCreate_macs ..).each k d h

end

section
open Example Spec
attribute [local instance] toy

/-- The hypotheses of the theorems: Alice hashes the agreements for Bob's bundle, and her chain key to send; Bob hashes his side of the agreements, and the
bytes of Alice's message. -/
example : (callTrace alice0 (.processBundle bobAddr bobBundle (key 41) (key 42))).any (fun o => match o with
      | .hmac k d => k == List.replicate 32 0 && d.take 32 == List.replicate 32 255
      | _ => false) = true ∧
    Op.hmac (sendKey (alice1.loadSession bobAddr).sessionState) [1] ∈ callTrace alice1 (.encrypt bobAddr [1, 2]) ∧
    Op.hmac (sendKey (alice1.loadSession bobAddr).sessionState) [2] ∈ callTrace alice1 (.encrypt bobAddr [1, 2]) ∧
    (callTrace alice1 (.encrypt bobAddr [1, 2])).any (fun o => match o with
      | .hmac k _ => k == macKeyOf (sendKey (alice1.loadSession bobAddr).sessionState)
      | _ => false) = true ∧
    (callTrace bob0 (.decryptPkmsg aliceAddr firstPk (key 5) fun _ => key 6)).any (fun o => match o with
      | .hmac _ d => (d.drop 66) == firstPk.message.serialized.take (firstPk.message.serialized.length - 8)
      | _ => false) = true := by
  decide +kernel

/-- Version 2: Bob sends, with the MAC over the message alone, and Alice checks it. -/
example : versionOf old2Bob.sessionState = 2 ∧ old2Sent.result.toOption.isSome ∧
    Op.hmac (sendKey old2Bob.sessionState) [2] ∈ callTrace old2WB (.encrypt aliceAddr [104, 105]) ∧
    Op.hmac (macKeyOf2 (sendKey old2Bob.sessionState)) (old2Msg.serialized.take (old2Msg.serialized.length - 8)) ∈
      callTrace old2WB (.encrypt aliceAddr [104, 105]) ∧
    Op.hmac (macKeyOf2 (sendKey old2Bob.sessionState)) (old2Msg.serialized.take (old2Msg.serialized.length - 8)) ∈
      callTrace old2WA (.decryptMsg bobAddr old2Msg (key 43) fun _ => key 44) := by
  decide +kernel

/-- `C116_other_versions`: a state of version 4. -/
example : versionOf ((({ old2WA with sessions := fun _ => some { old2Alice with sessionState :=
    { old2Alice.sessionState with sessionVersion := some 4 } } } : World).loadSession bobAddr).sessionState) = 4 := by decide +kernel

/-- The same for groups: the creator of a group encrypts, and reads their own message. -/
example : Op.hmac grpRand.senderKey [1] ∈ groupCallTrace ((GroupCall.create grp grpRand).next GroupStore.empty) (.encrypt grp [1] (key 9)) ∧
    Op.hmac grpRand.senderKey [2] ∈ groupCallTrace ((GroupCall.create grp grpRand).next GroupStore.empty) (.encrypt grp [1] (key 9)) ∧
    (match (GroupCipher.encrypt ((GroupCall.create grp grpRand).next GroupStore.empty) grp [1] grpSig).result with
      | .error _ => false
      | .ok b => decide (Op.hmac grpRand.senderKey [2] ∈ groupCallTrace ((GroupCall.create grp grpRand).next GroupStore.empty) (.decrypt grp b))) = true := by
  decide +kernel

end
end Axolotl
