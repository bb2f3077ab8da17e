import Verif.Spec.Calls
import Verif.Props.Verdict
import Verif.Props.Format
import Verif.Proofs.Stored

/-! # C59: the whole session API, in every case -/

namespace Axolotl
section
variable [C : Crypto]
open SessionState Spec SessionBuilder RatchetingSession Wire

/-! ## Sending -/

/-- The encryption of a body is determined. -/
theorem cbc_unique {key iv p c1 c2 : Bytes} (h1 : CbcEncryption key iv p c1) (h2 : CbcEncryption key iv p c2) : c1 = c2 := by
  have hpl : (padded p).length = p.length + (16 - p.length % 16) := AES.pad_length p
  have hl : c1.length = 16 * (c1.length / 16) := by have := h1.length; omega
  have hb : ∀ i, i < c1.length / 16 → block c1 i = block c2 i := by
    intro i
    induction i with
    | zero =>
      intro hi
      rw [h1.blocks 0 (by omega), h2.blocks 0 (by have := h1.length; have := h2.length; omega)]
      rfl
    | succ i ih =>
      intro hi
      rw [h1.blocks _ (by omega), h2.blocks _ (by have := h1.length; have := h2.length; omega)]
      show C.aesEnc key (xor16 (block c1 i) _) = C.aesEnc key (xor16 (block c2 i) _)
      rw [ih (by omega)]
  exact blocks_ext (c1.length / 16) hl (by have := h1.length; have := h2.length; omega) hb

theorem encrypt_of_cbc (hC : C.Lawful) {key iv p ct : Bytes} (hk : key.length = 32) (hi : iv.length = 16)
    (h : CbcEncryption key iv p ct) : AES.encrypt key iv p = .ok ct := by
  have hv : AES.validParams key iv = true := by
    unfold AES.validParams
    rw [hk, hi]
    rfl
  cases he : AES.encrypt key iv p with
  | error e => unfold AES.encrypt at he; rw [if_pos hv] at he; cases he
  | ok ct' => rw [cbc_unique h (aes_cbc hC he)]

theorem cbc_exists (hC : C.Lawful) {key iv : Bytes} (p : Bytes) (hk : key.length = 32) (hi : iv.length = 16) :
    ∃ ct, CbcEncryption key iv p ct := by
  have hv : AES.validParams key iv = true := by
    unfold AES.validParams
    rw [hk, hi]
    rfl
  cases he : AES.encrypt key iv p with
  | error e => unfold AES.encrypt at he; rw [if_pos hv] at he; cases he
  | ok ct => exact ⟨ct, aes_cbc hC he⟩

/-- What sending needs of a stored state. -/
structure Sendable (s : SessionState) : Prop where
  sane : Sane s
  numbers : SessionS.Ok s
  announced : ∀ p, s.pendingPreKey = some p → ∃ k, KeyOf p.baseKey k
  pending : ∀ p, s.pendingKeyExchange = some p → ∃ i b r, PendingKeys p i b r
  version : s.sessionVersion = none ∨ s.sessionVersion = some 3

theorem version_known_inv : StateInv fun s => s.sessionVersion = none ∨ s.sessionVersion = some 3 where
  empty := .inl rfl
  created := fun _ h => .inr (created_shape h).1
  encrypt := by
    intro s pt c s' hs h
    rw [(ews_same h).1.1]
    exact hs
  decrypt := by
    intro s m seed pt s' hs h
    rw [(dwss_same h).1.1]
    exact hs
  pending := by
    intro s q a b c s' hs h
    obtain ⟨_, rfl⟩ := setPending_ok h
    exact hs

theorem announced_inv : StateInv fun s => (∀ p, s.pendingPreKey = some p → ∃ k, KeyOf p.baseKey k) ∧
    ∀ p, s.pendingKeyExchange = some p → ∃ i b r, PendingKeys p i b r where
  empty := ⟨fun p h => (nomatch h), fun p h => (nomatch h)⟩
  created := by
    intro s h
    refine ⟨?_, fun p hp => by rw [(created_shape h).2.1] at hp; cases hp⟩
    intro p hp
    cases h with
    | bob h0 h1 h2 =>
      obtain ⟨_, _, rfl⟩ := initBob_ok h0
      obtain ⟨_, _, _, rfl⟩ := setLocalRegistrationId_ok h1
      obtain ⟨_, _, _, rfl⟩ := setRemoteRegistrationId_ok h2
      cases hp
    | alice h0 h1 h2 h3 =>
      obtain ⟨q, _, hb, _, _, _, _, rfl⟩ := setUnack_ok h1
      obtain ⟨_, _, _, rfl⟩ := setLocalRegistrationId_ok h2
      obtain ⟨_, _, _, rfl⟩ := setRemoteRegistrationId_ok h3
      have hp : some q = some p := hp
      obtain rfl := Option.some.inj hp
      exact ⟨_, _, hb, rfl⟩
    | sym h =>
      rcases initSession_ok h with ⟨_, h⟩ | ⟨_, h⟩
      · obtain ⟨_, _, _, _, _, rfl⟩ := initAlice_ok h
        cases hp
      · obtain ⟨_, _, rfl⟩ := initBob_ok h
        cases hp
  encrypt := by
    intro s pt c s' hs h
    obtain ⟨_, h1, h2, _⟩ := ews_same h
    rw [h1, h2]
    exact hs
  decrypt := by
    intro s m seed pt s' hs h
    obtain ⟨_, h1, h2⟩ := dwss_same h
    rw [h1, h2]
    exact ⟨fun p h => (nomatch h), hs.2⟩
  pending := by
    intro s q a b c s' hs h
    obtain ⟨_, rfl⟩ := setPending_ok h
    refine ⟨hs.1, ?_⟩
    intro p hp
    have hp : some (Axolotl.pendingOf q a b c) = some p := hp
    obtain rfl := Option.some.inj hp
    exact ⟨⟨c.pub.take 32, c.priv⟩, ⟨a.pub.take 32, a.priv⟩, ⟨b.pub.take 32, b.priv⟩, ⟨⟨_, rfl, rfl⟩, rfl⟩,
      ⟨⟨_, rfl, rfl⟩, rfl⟩, ⟨⟨_, rfl, rfl⟩, rfl⟩⟩

theorem sendable (hC : C.Lawful) (w0 : World) (hw : w0.NoSessions) (cs : List Call) (a : Address) (r : SessionRecord)
    (hr : (Call.after w0 cs).sessions a = some r) : r.All Sendable := by
  have h1 := sane hC w0 hw cs a r hr
  have h2 := reachable_all stateOk_inv w0 hw cs a r hr
  have h3 := reachable_all announced_inv w0 hw cs a r hr
  have h4 := reachable_all version_known_inv w0 hw cs a r hr
  exact ⟨⟨h1.1, h2.1, h3.1.1, h3.1.2, h4.1⟩, fun s hs => ⟨h1.2 s hs, h2.2 s hs, (h3.2 s hs).1, (h3.2 s hs).2, h4.2 s hs⟩⟩

theorem whisper_created (hlen : ∀ k m, (C.hmac k m).length = 32) {mk : Bytes} {e : ECPub} {n pc : Nat} {ct : Bytes}
    {a b : ECPub} (he : e.length ≤ 32) (hn : n < 2 ^ 32) (hp : pc < 2 ^ 32) (hct : ct.length < 2 ^ 63) :
    WhisperMessage.create 3 mk e n pc ct a b = .ok
      { serialized := sessionMessage e n pc ct ++ (C.hmac mk ((5 :: a) ++ (5 :: b) ++ sessionMessage e n pc ct)).take 8
        senderRatchetKey := e, messageVersion := 3, counter := n, previousCounter := pc, ciphertext := ct } := by
  cases h : WhisperMessage.create 3 mk e n pc ct a b with
  | error x =>
    unfold WhisperMessage.create at h
    rw [chkU32_ok hn, ok_bind, chkU32_ok hp] at h
    cases h
  | ok m =>
    have h1 := whisper_bytes hlen h he hct
    obtain ⟨h2, h3, h4, h5, h6⟩ := create_fields h
    obtain ⟨_, _, _, _, _, _⟩ := m
    simp only at h1 h2 h3 h4 h5 h6
    subst h1 h2 h3 h4 h5 h6
    rfl

omit C in
theorem prekey_created {reg : Nat} {pid : Option Nat} {sid : Nat} {bk ik : ECPub} {m : WhisperMessage}
    (hr : reg < 2 ^ 32) (hpid : OptLt pid (2 ^ 32)) (hs : sid < 2 ^ 32)
    (hb : bk.length ≤ 32) (hi : ik.length ≤ 32) (hm : m.serialized.length < 2 ^ 64) :
    PreKeyWhisperMessage.create 3 reg pid sid bk ik m = .ok
      { serialized := preKeyMessage pid bk ik m.serialized reg sid, version := 3, registrationId := reg, preKeyId := pid
        signedPreKeyId := sid, baseKey := bk, identityKey := ik, message := m } := by
  cases h : PreKeyWhisperMessage.create 3 reg pid sid bk ik m with
  | error x =>
    exfalso
    unfold PreKeyWhisperMessage.create at h
    rw [chkU32_ok hs, ok_bind, chkU32_ok hr, ok_bind] at h
    cases pid with
    | none => cases h
    | some i =>
      simp only at h
      rw [chkU32_ok (hpid i rfl)] at h
      cases h
  | ok pm =>
    have h1 := (prekey_bytes h hb hi hm).1
    unfold PreKeyWhisperMessage.create at h
    rw [chkU32_ok hs, ok_bind, chkU32_ok hr, ok_bind] at h
    cases pid with
    | none =>
      have h := Except.ok.inj h
      subst h
      simp only [Int.toNat_natCast] at h1
      rw [h1]
    | some i =>
      simp only at h
      rw [chkU32_ok (hpid i rfl)] at h
      have h := Except.ok.inj h
      subst h
      simp only [Int.toNat_natCast] at h1
      rw [h1]

/-- Sending, spelled out. -/
theorem ews_eval (hC : C.Lawful) {s : SessionState} (hs : Sendable s) {pt : Bytes} (hpt : pt.length < 2 ^ 62) {c : ChainS}
    (hc : s.senderChain = some c) {ratchetKey me you ct : Bytes} (h1 : KeyOf c.senderRatchetKey ratchetKey)
    (h2 : KeyOf s.localIdentityPublic me) (h3 : KeyOf s.remoteIdentityPublic you)
    (h4 : CbcEncryption (cipherKeyOf (Spec.sendKey s)) (ivOf (Spec.sendKey s)) pt ct) :
    SessionCipher.encryptWithState s pt = (do
      let x ← match s.pendingPreKey with
        | none => .ok (Ciphertext.whisper (sentMessage s ratchetKey me you ct))
        | some p => do
          let baseKey ← Curve.decodePoint (p.baseKey.getD [])
          let pm ← PreKeyWhisperMessage.create 3 (s.localRegistrationId.getD 0) p.preKeyId (p.signedPreKeyId.getD 0) baseKey
            me (sentMessage s ratchetKey me you ct)
          Except.ok (Ciphertext.preKey pm)
      let _ ← chkU32 ((Spec.sendCounter s + 1 : Nat) : Int)
      .ok (x, afterSending s c)) := by
  have hsome : s.senderChain.isSome := by rw [hc]; rfl
  have hv := hs.sane.version hsome
  have hv' : getSessionVersion s = 3 := by unfold getSessionVersion; rw [hv]; rfl
  have hd : senderChainD s = c := by unfold senderChainD; rw [hc]; rfl
  have hck : getSenderChainKey s = .ok ⟨.v3, Spec.sendKey s, Spec.sendCounter s⟩ := by
    rw [getSenderChainKey_eq (createFor_three hv), sendKey_eq, sendCounter_eq]
  have hct : ct.length < 2 ^ 62 + 16 := by
    have := padded_length pt
    rw [h4.length]
    omega
  have hn : Spec.sendCounter s < 2 ^ 32 := by rw [sendCounter_eq]; exact sendIndex_lt hs.numbers
  have hpc : s.previousCounter.getD 0 < 2 ^ 32 := OptLt.getD_lt hs.numbers.previousCounter (by decide)
  unfold SessionCipher.encryptWithState
  rw [hck, ok_bind, getMessageKeys_v3 hC.hmac_len _ rfl]
  unfold getSenderRatchetKey getLocalIdentityKey getRemoteIdentityKey getPreviousCounter
  rw [hd, KeyOf_iff.1 h1, KeyOf_iff.1 h2, KeyOf_iff.1 h3, hv']
  simp only [ok_bind]
  rw [encrypt_of_cbc hC (cipherKeyOf_len hC.hmac_len _) (ivOf_len hC.hmac_len _) h4, ok_bind,
    whisper_created hC.hmac_len h1.length_le hn hpc (by omega), ok_bind]
  have hset : setSenderChainKey s (ChainKey.getNextChainKey ⟨.v3, Spec.sendKey s, Spec.sendCounter s⟩) =
      (chkU32 ((Spec.sendCounter s + 1 : Nat) : Int) >>= fun _ => .ok (afterSending s c)) := by
    unfold setSenderChainKey
    rw [hd]
    show (chkU32 ((Spec.sendCounter s + 1 : Nat) : Int) >>= _) = _
    cases hq : chkU32 ((Spec.sendCounter s + 1 : Nat) : Int) with
    | error e => rfl
    | ok i =>
      obtain rfl : i = Spec.sendCounter s + 1 := by have := (chkU32_eq_ok.1 hq).1; omega
      rfl
  rw [hset]
  generalize afterSending s c = s'
  generalize chkU32 ((Spec.sendCounter s + 1 : Nat) : Int) = q
  unfold hasUnacknowledgedPreKeyMessage getUnacknowledgedPreKeyMessageItems getLocalRegistrationId
  cases s.pendingPreKey with
  | none => cases q <;> rfl
  | some p =>
    simp only [Option.isSome_some, if_true, Option.getD_some]
    cases Curve.decodePoint (p.baseKey.getD []) with
    | error e => rfl
    | ok bk =>
      simp only [ok_bind]
      show (PreKeyWhisperMessage.create 3 _ _ _ bk me (sentMessage s ratchetKey me you ct) >>= _) = _
      cases PreKeyWhisperMessage.create 3 (s.localRegistrationId.getD 0) p.preKeyId (p.signedPreKeyId.getD 0) bk
            me (sentMessage s ratchetKey me you ct) <;> cases q <;> rfl

omit C in
theorem prekey_create_error {v reg : Nat} {pid : Option Nat} {sid : Int} {bk ik : ECPub} {m : WhisperMessage} {e : Err}
    (h : PreKeyWhisperMessage.create v reg pid sid bk ik m = .error e) : e = .valueError := by
  unfold PreKeyWhisperMessage.create at h
  rcases bind_eq_error.1 h with h | ⟨_, _, h⟩
  · exact chkU32_error h
  rcases bind_eq_error.1 h with h | ⟨_, _, h⟩
  · exact chkU32_error h
  cases pid with
  | none => cases h
  | some i =>
    simp only at h
    cases hq : chkU32 (i : Int) with
    | error e' =>
      rw [hq] at h
      obtain rfl := Except.error.inj h
      exact chkU32_error hq
    | ok j =>
      rw [hq] at h
      cases h

omit C in
theorem chkU32_neg {n : Int} (h : n < 0) : chkU32 n = .error .valueError := by
  unfold chkU32
  rw [if_neg (by omega)]

omit C in
theorem chkU32_large {n : Nat} (h : 2 ^ 32 ≤ n) : chkU32 (n : Int) = .error .valueError := by
  unfold chkU32
  rw [if_neg (by omega)]

/-- Sending does what the relation says. -/
theorem ews_of_sends (hC : C.Lawful) {s : SessionState} (hs : Sendable s) {pt : Bytes} (hpt : pt.length < 2 ^ 62)
    {v : Except Err (Ciphertext × SessionS)} (h : Sends s pt v) : SessionCipher.encryptWithState s pt = v := by
  have parts : s.senderChain.isSome → ∃ c ratchetKey me you ct, s.senderChain = some c ∧ KeyOf c.senderRatchetKey ratchetKey ∧
      KeyOf s.localIdentityPublic me ∧ KeyOf s.remoteIdentityPublic you ∧
      CbcEncryption (cipherKeyOf (Spec.sendKey s)) (ivOf (Spec.sendKey s)) pt ct := by
    intro hsome
    obtain ⟨c, hc⟩ := Option.isSome_iff_exists.1 hsome
    obtain ⟨k, hk⟩ := hs.sane.sender c hc
    obtain ⟨⟨you, hy⟩, me, hm⟩ := hs.sane.identities hsome
    obtain ⟨ct, hct⟩ := cbc_exists hC pt (cipherKeyOf_len hC.hmac_len (Spec.sendKey s)) (ivOf_len hC.hmac_len _)
    exact ⟨c, k, me, you, ct, hc, hk, hm, hy, hct⟩
  cases h with
  | empty h =>
    have hd : senderChainD s = {} := by unfold senderChainD; rw [h]; rfl
    have hck : ∃ ck, getSenderChainKey s = .ok ck := by
      unfold getSenderChainKey getSessionVersion
      rcases hs.version with hv | hv
      · rw [hv]; exact ⟨_, rfl⟩
      · rw [hv]; exact ⟨_, rfl⟩
    obtain ⟨ck, hck⟩ := hck
    unfold SessionCipher.encryptWithState
    rw [hck, ok_bind]
    unfold getSenderRatchetKey
    rw [hd]
    rfl
  | exhausted hsome hx =>
    obtain ⟨c, k, me, you, ct, hc, hk, hm, hy, hct⟩ := parts hsome
    rw [ews_eval hC hs hpt hc hk hm hy hct, chkU32_large hx]
    cases hp : s.pendingPreKey with
    | none => rfl
    | some p =>
      obtain ⟨b, hb⟩ := hs.announced p hp
      simp only
      rw [KeyOf_iff.1 hb, ok_bind]
      cases hq : PreKeyWhisperMessage.create 3 (s.localRegistrationId.getD 0) p.preKeyId (p.signedPreKeyId.getD 0) b
            me (sentMessage s k me you ct) with
      | ok q => rfl
      | error e => rw [prekey_create_error hq]; rfl
  | @negative p hsome hp hn =>
    obtain ⟨c, k, me, you, ct, hc, hk, hm, hy, hct⟩ := parts hsome
    rw [ews_eval hC hs hpt hc hk hm hy hct]
    obtain ⟨b, hb⟩ := hs.announced p hp
    rw [hp]
    simp only
    rw [KeyOf_iff.1 hb, ok_bind]
    unfold PreKeyWhisperMessage.create
    rw [chkU32_neg hn]
    rfl
  | message hc hn hp hk hm hy hct =>
    rw [ews_eval hC hs hpt hc hk hm hy hct, hp, chkU32_ok hn]
    rfl
  | @announcement c p sid k me you b ct hc hn hp hsid hb hk hm hy hct =>
    have hl : ct.length < 2 ^ 62 + 16 := by
      have := padded_length pt
      rw [hct.length]
      omega
    have hok := hs.numbers.pendingPreKey p hp
    have hslt : sid < 2 ^ 32 := by
      cases hp : p.signedPreKeyId with
      | none => rw [hp] at hsid; simp only [Option.getD_none] at hsid; omega
      | some i =>
        have := hok.signedPreKeyId i hp
        rw [hp] at hsid
        simp only [Option.getD_some] at hsid
        omega
    have hc1 := prekey_created (reg := s.localRegistrationId.getD 0) (pid := p.preKeyId) (sid := sid) (bk := b) (ik := me)
      (m := sentMessage s k me you ct) (OptLt.getD_lt hs.numbers.localRegistrationId (by decide)) hok.preKeyId hslt
      hb.length_le hm.length_le (by
        have hn' : Spec.sendCounter s < 2 ^ 32 := by omega
        have := sessionMessage_length hk.length_le hn'
          (OptLt.getD_lt hs.numbers.previousCounter (by decide) : s.previousCounter.getD 0 < 2 ^ 32) (ct := ct) (by omega)
        unfold sentMessage
        simp only [List.length_append, List.length_take]
        omega)
    rw [ews_eval hC hs hpt hc hk hm hy hct, hp, chkU32_ok hn]
    simp only
    rw [KeyOf_iff.1 hb, ok_bind, hsid, hc1]
    rfl

theorem sends_exists (hC : C.Lawful) {s : SessionState} (hs : Sendable s) (pt : Bytes) : ∃ v, Sends s pt v := by
  cases hc : s.senderChain with
  | none => exact ⟨_, .empty hc⟩
  | some c =>
    have hsome : s.senderChain.isSome := by rw [hc]; rfl
    obtain ⟨k, hk⟩ := hs.sane.sender c hc
    obtain ⟨⟨you, hy⟩, me, hm⟩ := hs.sane.identities hsome
    obtain ⟨ct, hct⟩ := cbc_exists hC pt (cipherKeyOf_len hC.hmac_len (Spec.sendKey s)) (ivOf_len hC.hmac_len _)
    by_cases hn : Spec.sendCounter s + 1 < 2 ^ 32
    · cases hp : s.pendingPreKey with
      | none => exact ⟨_, .message hc hn hp hk hm hy hct⟩
      | some p =>
        by_cases hneg : p.signedPreKeyId.getD 0 < 0
        · exact ⟨_, .negative hsome hp hneg⟩
        · obtain ⟨b, hb⟩ := hs.announced p hp
          exact ⟨_, .announcement hc hn hp (signedId := (p.signedPreKeyId.getD 0).toNat) (by omega) hb hk hm hy hct⟩
    · exact ⟨_, .exhausted hsome (by omega)⟩

/-! ## Setup -/

theorem setupMaterial_unique {a base : ECPriv} {i k : ECPub} {o : Option ECPub} {x y : Bytes}
    (h1 : SetupMaterial a base i k o x) (h2 : SetupMaterial a base i k o y) : x = y := by
  obtain ⟨d1, d2, d3, d4, e1, e2, e3, e4, rfl⟩ := h1
  obtain ⟨f1, f2, f3, f4, g1, g2, g3, g4, rfl⟩ := h2
  obtain rfl := Option.some.inj (e1.symm.trans g1)
  obtain rfl := Option.some.inj (e2.symm.trans g2)
  obtain rfl := Option.some.inj (e3.symm.trans g3)
  cases o with
  | none => rw [show d4 = [] from e4, show f4 = [] from g4]
  | some k => obtain rfl := Option.some.inj ((show C.dh base k = some d4 from e4).symm.trans g4); rfl

theorem answerMaterial_unique {b spk : ECPriv} {o : Option ECPriv} {i k : ECPub} {x y : Bytes}
    (h1 : AnswerMaterial b spk o i k x) (h2 : AnswerMaterial b spk o i k y) : x = y := by
  obtain ⟨d1, d2, d3, d4, e1, e2, e3, e4, rfl⟩ := h1
  obtain ⟨f1, f2, f3, f4, g1, g2, g3, g4, rfl⟩ := h2
  obtain rfl := Option.some.inj (e1.symm.trans g1)
  obtain rfl := Option.some.inj (e2.symm.trans g2)
  obtain rfl := Option.some.inj (e3.symm.trans g3)
  cases o with
  | none => rw [show d4 = [] from e4, show f4 = [] from g4]
  | some p => obtain rfl := Option.some.inj ((show C.dh p k = some d4 from e4).symm.trans g4); rfl

theorem agreement_error {b a : Bytes} {e : Err} (h : Curve.calculateAgreement b a = .error e) :
    e = .valueError ∧ C.dh a b = none := by
  unfold Curve.calculateAgreement at h
  split at h
  · cases h
  · rename_i hn
    exact ⟨(Except.error.inj h).symm, hn⟩

theorem aliceSecrets_error {p : AliceParameters} {e : Err} (h : aliceSecrets p = .error e) :
    e = .valueError ∧ ∀ okm, ¬ SetupMaterial p.ourIdentityKey.priv p.ourBaseKey.priv p.theirIdentityKey p.theirSignedPreKey
      p.theirOneTimePreKey okm := by
  unfold aliceSecrets at h
  rcases bind_eq_error.1 h with h | ⟨d1, _, h⟩
  · obtain ⟨h1, h2⟩ := agreement_error h
    exact ⟨h1, fun okm ⟨_, _, _, _, g, _⟩ => by rw [h2] at g; cases g⟩
  rcases bind_eq_error.1 h with h | ⟨d2, _, h⟩
  · obtain ⟨h1, h2⟩ := agreement_error h
    exact ⟨h1, fun okm ⟨_, _, _, _, _, g, _⟩ => by rw [h2] at g; cases g⟩
  rcases bind_eq_error.1 h with h | ⟨d3, _, h⟩
  · obtain ⟨h1, h2⟩ := agreement_error h
    exact ⟨h1, fun okm ⟨_, _, _, _, _, _, g, _⟩ => by rw [h2] at g; cases g⟩
  cases hk : p.theirOneTimePreKey with
  | none => rw [hk] at h; cases h
  | some k =>
    rw [hk] at h
    rcases bind_eq_error.1 h with h | ⟨d4, _, h⟩
    · obtain ⟨h1, h2⟩ := agreement_error h
      exact ⟨h1, fun okm ⟨_, _, _, _, _, _, _, g, _⟩ => by
        have g : C.dh p.ourBaseKey.priv k = _ := g
        rw [h2] at g; cases g⟩
    · cases h

theorem bobSecrets_error {p : BobParameters} {e : Err} (h : bobSecrets p = .error e) :
    e = .valueError ∧ ∀ okm, ¬ AnswerMaterial p.ourIdentityKey.priv p.ourSignedPreKey.priv
      (p.ourOneTimePreKey.map KeyPair.priv) p.theirIdentityKey p.theirBaseKey okm := by
  unfold bobSecrets at h
  rcases bind_eq_error.1 h with h | ⟨d1, _, h⟩
  · obtain ⟨h1, h2⟩ := agreement_error h
    exact ⟨h1, fun okm ⟨_, _, _, _, g, _⟩ => by rw [h2] at g; cases g⟩
  rcases bind_eq_error.1 h with h | ⟨d2, _, h⟩
  · obtain ⟨h1, h2⟩ := agreement_error h
    exact ⟨h1, fun okm ⟨_, _, _, _, _, g, _⟩ => by rw [h2] at g; cases g⟩
  rcases bind_eq_error.1 h with h | ⟨d3, _, h⟩
  · obtain ⟨h1, h2⟩ := agreement_error h
    exact ⟨h1, fun okm ⟨_, _, _, _, _, _, g, _⟩ => by rw [h2] at g; cases g⟩
  cases hk : p.ourOneTimePreKey with
  | none => rw [hk] at h; cases h
  | some k =>
    rw [hk] at h
    rcases bind_eq_error.1 h with h | ⟨d4, _, h⟩
    · obtain ⟨h1, h2⟩ := agreement_error h
      exact ⟨h1, fun okm ⟨_, _, _, _, _, _, _, g, _⟩ => by
        have g : C.dh k.priv p.theirBaseKey = _ := g
        rw [h2] at g; cases g⟩
    · cases h

theorem alice_error (hlen : ∀ k m, (C.hmac k m).length = 32) {p : AliceParameters} {seed : Bytes} {e : Err}
    (h : initializeSessionAsAlice {} p seed = .error e) :
    e = .valueError ∧ ((∀ okm, ¬ SetupMaterial p.ourIdentityKey.priv p.ourBaseKey.priv p.theirIdentityKey
        p.theirSignedPreKey p.theirOneTimePreKey okm) ∨ C.dh (C.genPriv seed) p.theirRatchetKey = none) := by
  unfold initializeSessionAsAlice at h
  simp only at h
  rcases bind_eq_error.1 h with h | ⟨secrets, h1, h⟩
  · obtain ⟨h1, h2⟩ := aliceSecrets_error h
    exact ⟨h1, .inl h2⟩
  · have hroot : (calculateDerivedKeys secrets).1 = ⟨.v3, (calculateDerivedKeys secrets).1.key⟩ := rfl
    rw [hroot, createChain_v3 hlen] at h
    split at h
    · rename_i hn
      exact ⟨(Except.error.inj h).symm, .inr hn⟩
    · rw [ok_bind, addReceiverChain_eq (by simp [calculateDerivedKeys]), ok_bind, setSenderChain_eq (by simp), ok_bind] at h
      cases h

theorem bob_error {p : BobParameters} {e : Err} (h : initializeSessionAsBob {} p = .error e) :
    e = .valueError ∧ ∀ okm, ¬ AnswerMaterial p.ourIdentityKey.priv p.ourSignedPreKey.priv
      (p.ourOneTimePreKey.map KeyPair.priv) p.theirIdentityKey p.theirBaseKey okm := by
  unfold initializeSessionAsBob at h
  simp only at h
  rcases bind_eq_error.1 h with h | ⟨secrets, h1, h⟩
  · exact bobSecrets_error h
  · rw [setSenderChain_eq (by simp [calculateDerivedKeys]), ok_bind] at h
    cases h

/-- Setting up as initiator, in every case. -/
theorem alice_eval (hlen : ∀ k m, (C.hmac k m).length = 32) (p : AliceParameters) (seed : Bytes) :
    (∀ okm secret, SetupMaterial p.ourIdentityKey.priv p.ourBaseKey.priv p.theirIdentityKey p.theirSignedPreKey
        p.theirOneTimePreKey okm → C.dh (C.genPriv seed) p.theirRatchetKey = some secret →
      initializeSessionAsAlice {} p seed =
        .ok (initiatorState p.ourIdentityKey.pub p.theirIdentityKey okm p.theirRatchetKey seed secret)) ∧
    ((∀ okm, ¬ SetupMaterial p.ourIdentityKey.priv p.ourBaseKey.priv p.theirIdentityKey p.theirSignedPreKey
        p.theirOneTimePreKey okm) ∨ C.dh (C.genPriv seed) p.theirRatchetKey = none →
      initializeSessionAsAlice {} p seed = .error .valueError) := by
  cases h : initializeSessionAsAlice {} p seed with
  | ok s =>
    obtain ⟨okm, secret, m1, m2, rfl⟩ := alice_exact hlen h
    constructor
    · intro okm' secret' n1 n2
      rw [setupMaterial_unique m1 n1, Option.some.inj (m2.symm.trans n2)]
    · rintro (hn | hn)
      · exact absurd m1 (hn okm)
      · rw [m2] at hn; cases hn
  | error e =>
    obtain ⟨rfl, hn⟩ := alice_error hlen h
    refine ⟨?_, fun _ => rfl⟩
    intro okm secret m1 m2
    rcases hn with hn | hn
    · exact absurd m1 (hn okm)
    · rw [m2] at hn; cases hn

/-- Setting up as answerer, in every case. -/
theorem bob_eval (hlen : ∀ k m, (C.hmac k m).length = 32) (p : BobParameters) :
    (∀ okm, AnswerMaterial p.ourIdentityKey.priv p.ourSignedPreKey.priv (p.ourOneTimePreKey.map KeyPair.priv)
        p.theirIdentityKey p.theirBaseKey okm →
      initializeSessionAsBob {} p = .ok (answererState p.ourIdentityKey.pub p.theirIdentityKey okm p.ourRatchetKey)) ∧
    ((∀ okm, ¬ AnswerMaterial p.ourIdentityKey.priv p.ourSignedPreKey.priv (p.ourOneTimePreKey.map KeyPair.priv)
        p.theirIdentityKey p.theirBaseKey okm) → initializeSessionAsBob {} p = .error .valueError) := by
  cases h : initializeSessionAsBob {} p with
  | ok s =>
    obtain ⟨okm, m1, rfl⟩ := bob_exact hlen h
    exact ⟨fun okm' n1 => by rw [answerMaterial_unique m1 n1], fun hn => absurd m1 (hn okm)⟩
  | error e =>
    obtain ⟨rfl, hn⟩ := bob_error h
    exact ⟨fun okm n1 => absurd n1 (hn okm), fun _ => rfl⟩

omit C in
theorem new_record {w : World} {a : Address} (hl : ∀ r, w.sessions a = some r → r.previousStates.length ≤ 40)
    (s : SessionState) : (archiveUnlessFresh (w.loadSession a)).setState s = newRecord (w.sessions a) s := by
  have h := (archived_exact hl s).2
  have h3 : ((archiveUnlessFresh (w.loadSession a)).setState s).fresh = (w.sessions a).isNone := by
    unfold World.loadSession
    cases w.sessions a <;> rfl
  have h2 : ((archiveUnlessFresh (w.loadSession a)).setState s).previousStates = (newRecord (w.sessions a) s).previousStates := h
  generalize hr : (archiveUnlessFresh (w.loadSession a)).setState s = r at h2 h3
  have h1 : r.sessionState = s := by rw [← hr]; rfl
  obtain ⟨f, t, ps⟩ := r
  simp only at h1 h2 h3
  rw [h1, h2, h3]
  rfl

omit C in
theorem fits_chk {i : Int} : Fits i ↔ chkU32 i = .ok i.toNat := by
  unfold Fits chkU32
  constructor
  · intro h; rw [if_pos h]
  · intro h
    split at h
    · assumption
    · cases h

omit C in
theorem not_fits_chk {i : Int} (h : ¬ Fits i) : chkU32 i = .error .valueError := by
  unfold chkU32
  exact if_neg h

omit C in
theorem fits_nat (n : Nat) : Fits (n : Int) ↔ n < 2 ^ 32 := by
  unfold Fits
  omega

omit C in
theorem setLocal_eval {s : SessionState} {i : Int} (h : Fits i) :
    setLocalRegistrationId s i = .ok { s with localRegistrationId := some i.toNat } := by
  unfold setLocalRegistrationId
  rw [fits_chk.1 h]
  rfl

omit C in
theorem setRemote_eval {s : SessionState} {i : Int} (h : Fits i) :
    setRemoteRegistrationId s i = .ok { s with remoteRegistrationId := some i.toNat } := by
  unfold setRemoteRegistrationId
  rw [fits_chk.1 h]
  rfl

omit C in
theorem setLocal_error {s : SessionState} {i : Int} {e : Err} (h : setLocalRegistrationId s i = .error e) :
    e = .valueError := by
  unfold setLocalRegistrationId at h
  rcases bind_eq_error.1 h with h | ⟨_, _, h⟩
  · exact chkU32_error h
  · cases h

omit C in
theorem setRemote_error {s : SessionState} {i : Int} {e : Err} (h : setRemoteRegistrationId s i = .error e) :
    e = .valueError := by
  unfold setRemoteRegistrationId at h
  rcases bind_eq_error.1 h with h | ⟨_, _, h⟩
  · exact chkU32_error h
  · cases h

omit C in
theorem setUnack_eval {s : SessionState} {k : Option ECPub} {pk spk : Int} {bk : ECPub} (hs : s.pendingPreKey = none)
    (h1 : -2 ^ 31 ≤ spk) (h2 : spk < 2 ^ 31) (h3 : k.isSome → Fits pk) :
    setUnacknowledgedPreKeyMessage s (k.map fun _ => pk) spk bk = .ok { s with
      pendingPreKey := some { preKeyId := k.map fun _ => pk.toNat, signedPreKeyId := some spk, baseKey := some (5 :: bk) } } := by
  unfold setUnacknowledgedPreKeyMessage
  rw [chkI32_eq_ok.2 ⟨rfl, h1, h2⟩, ok_bind, hs]
  cases k with
  | none => rfl
  | some k =>
    simp only [Option.map_some]
    rw [fits_chk.1 (h3 rfl)]
    rfl

omit C in
theorem setUnack_error {s : SessionState} {pk : Option Int} {spk : Int} {bk : ECPub} {e : Err}
    (h : setUnacknowledgedPreKeyMessage s pk spk bk = .error e) : e = .valueError := by
  unfold setUnacknowledgedPreKeyMessage at h
  rcases bind_eq_error.1 h with h | ⟨_, _, h⟩
  · unfold chkI32 at h
    split at h
    · cases h
    · exact (Except.error.inj h).symm
  · cases pk with
    | none => cases h
    | some i =>
      simp only at h
      rcases bind_eq_error.1 h with h | ⟨_, _, h⟩
      · exact chkU32_error h
      · cases h

/-- The outcome of a call that stores a new session and the peer's identity key. -/
def stored {α : Type} (w : World) (a : Address) (k : ECPub) (x : α) : Except Err SessionS → Outcome α
  | .ok s => ⟨[.session a (newRecord (w.sessions a) s), .identity a.1 k], .ok x⟩
  | .error e => ⟨[], .error e⟩

theorem bundle_of (hlen : ∀ k m, (C.hmac k m).length = 32) {w : World} {a : Address} {b : PreKeyBundle}
    {baseSeed ratchetSeed : Bytes} (hl : ∀ r, w.sessions a = some r → r.previousStates.length ≤ 40)
    (ht : w.isTrusted a.1 b.identityKey = true) {v : Except Err SessionS} (h : FromBundle w b baseSeed ratchetSeed v) :
    processPreKeyBundle w a b baseSeed ratchetSeed = stored w a b.identityKey () v := by
  have hser : ∀ k : ECPub, Curve.serializePoint k = 5 :: k := fun _ => rfl
  unfold processPreKeyBundle
  simp only [ht, Bool.not_true, Bool.false_eq_true, if_false, archive_load_state]
  cases h with
  | noSignedPreKey h => rw [h]; rfl
  | badSignature h1 h2 =>
    rw [h1]
    simp only [Curve.verifySignature, hser, h2, ok_bind, Bool.not_false, if_true]
    rfl
  | unverifiable h1 h2 =>
    rw [h1]
    simp only [Curve.verifySignature, hser, h2]
    rfl
  | @noAgreement spk h1 h2 h3 =>
    rw [h1]
    simp only [Curve.verifySignature, hser, h2, ok_bind, Bool.not_true, Bool.false_eq_true, if_false]
    rw [(alice_eval hlen ⟨w.identityKeyPair, Curve.generateKeyPair baseSeed, b.identityKey, spk, spk, b.preKey⟩
      ratchetSeed).2 h3]
    rfl
  | @badNumber spk h1 h2 h3 =>
    rw [h1]
    simp only [Curve.verifySignature, hser, h2, ok_bind, Bool.not_true, Bool.false_eq_true, if_false]
    cases hA : initializeSessionAsAlice {}
        ⟨w.identityKeyPair, Curve.generateKeyPair baseSeed, b.identityKey, spk, spk, b.preKey⟩ ratchetSeed with
    | error e => rw [(alice_error hlen hA).1]; rfl
    | ok s0 =>
      rw [ok_bind]
      cases hU : setUnacknowledgedPreKeyMessage s0 (b.preKey.map fun _ => b.preKeyId) b.signedPreKeyId
          (Curve.generateKeyPair baseSeed).pub with
      | error e => rw [setUnack_error hU]; rfl
      | ok s1 =>
        rw [ok_bind]
        cases hL : setLocalRegistrationId s1 w.registrationId with
        | error e => rw [setLocal_error hL]; rfl
        | ok s2 =>
          rw [ok_bind]
          cases hR : setRemoteRegistrationId s2 b.registrationId with
          | error e => rw [setRemote_error hR]; rfl
          | ok s3 =>
            exfalso
            obtain ⟨_, _, _, u1, u2, _, u3, _⟩ := setUnack_ok hU
            obtain ⟨n, e1, l1, _⟩ := setLocalRegistrationId_ok hL
            obtain ⟨n', e2, l2, _⟩ := setRemoteRegistrationId_ok hR
            rcases h3 with h3 | h3 | h3 | ⟨h3, h4⟩
            · rw [e1, fits_nat] at h3; exact h3 l1
            · rw [e2, fits_nat] at h3; exact h3 l2
            · exact h3 ⟨u1, u2⟩
            · obtain ⟨k, hk⟩ := Option.isSome_iff_exists.1 h3
              obtain ⟨i, e3, l3, _⟩ := u3 b.preKeyId (by rw [hk]; rfl)
              rw [e3, fits_nat] at h4
              exact h4 l3
  | @session spk okm secret h1 h2 h3 h4 h5 h6 h7 h8 h9 =>
    rw [h1]
    simp only [Curve.verifySignature, hser, h2, ok_bind, Bool.not_true, Bool.false_eq_true, if_false]
    rw [(alice_eval hlen ⟨w.identityKeyPair, Curve.generateKeyPair baseSeed, b.identityKey, spk, spk, b.preKey⟩
      ratchetSeed).1 okm secret h3 h4, ok_bind, setUnack_eval rfl h7 h8 h9, ok_bind, setLocal_eval h5, ok_bind,
      setRemote_eval h6, ok_bind, new_record hl]
    rfl

theorem fromBundle_exists (w : World) (b : PreKeyBundle) (baseSeed ratchetSeed : Bytes) :
    ∃ v, FromBundle w b baseSeed ratchetSeed v := by
  cases h1 : b.signedPreKey with
  | none => exact ⟨_, .noSignedPreKey h1⟩
  | some spk =>
    cases h2 : C.verifySig b.identityKey (5 :: spk) b.signedPreKeySignature with
    | none => exact ⟨_, .unverifiable h1 h2⟩
    | some t =>
      cases t with
      | false => exact ⟨_, .badSignature h1 h2⟩
      | true =>
        by_cases hn : ¬ Fits w.registrationId ∨ ¬ Fits b.registrationId ∨
            ¬ (-2 ^ 31 ≤ b.signedPreKeyId ∧ b.signedPreKeyId < 2 ^ 31) ∨ (b.preKey.isSome ∧ ¬ Fits b.preKeyId)
        · exact ⟨_, .badNumber h1 h2 hn⟩
        · by_cases hm : ∃ okm, SetupMaterial w.identityKeyPair.priv (C.genPriv baseSeed) b.identityKey spk b.preKey okm
          · cases hd : C.dh (C.genPriv ratchetSeed) spk with
            | none => exact ⟨_, .noAgreement h1 h2 (.inr hd)⟩
            | some secret =>
              obtain ⟨okm, hm⟩ := hm
              have a1 : Fits w.registrationId := Classical.byContradiction fun h => hn (.inl h)
              have a2 : Fits b.registrationId := Classical.byContradiction fun h => hn (.inr (.inl h))
              have a3 := Classical.byContradiction fun h => hn (.inr (.inr (.inl h)))
              exact ⟨_, .session h1 h2 hm hd a1 a2 a3.1 a3.2 fun ho => Classical.byContradiction fun h =>
                hn (.inr (.inr (.inr ⟨ho, h⟩)))⟩
          · exact ⟨_, .noAgreement h1 h2 (.inl fun okm h => hm ⟨okm, h⟩)⟩

omit C in
theorem unreadable_iff {o : Option Bytes} {e : Err} : Unreadable o e ↔ Curve.decodePoint (o.getD []) = .error e := by
  constructor
  · rintro (h | ⟨rfl, h⟩)
    · rw [h]; rfl
    · exact if_neg h
  · intro h
    cases o with
    | none => obtain rfl := Except.error.inj h; exact .empty rfl
    | some x =>
      cases x with
      | nil => obtain rfl := Except.error.inj h; exact .empty rfl
      | cons t x =>
        have h : (if t = Curve.DJB_TYPE then _ else _) = _ := h
        split at h
        · cases h
        · obtain rfl := Except.error.inj h
          exact .type rfl ‹_›

omit C in
theorem signedPair_iff {r : SignedPreKeyRecord} {k : KeyPair} :
    PairOf r.publicKey r.privateKey k ↔ SignedPreKeyRecord.getKeyPair r = .ok k := by
  refine ⟨?_, signedPair_of⟩
  rintro ⟨h1, h2⟩
  unfold SignedPreKeyRecord.getKeyPair
  rw [KeyOf_iff.1 h1, ok_bind]
  obtain ⟨_, _⟩ := k
  simp only at h2
  subst h2
  rfl

omit C in
theorem signed_unreadable_iff {r : SignedPreKeyRecord} {e : Err} :
    Unreadable r.publicKey e ↔ SignedPreKeyRecord.getKeyPair r = .error e := by
  rw [unreadable_iff]
  unfold SignedPreKeyRecord.getKeyPair
  cases Curve.decodePoint (r.publicKey.getD []) with
  | ok k => exact ⟨fun h => (nomatch h), fun h => (nomatch h)⟩
  | error e' => rw [error_bind]; constructor <;> intro h <;> exact congrArg _ (Except.error.inj h)

omit C in
theorem oneTimePair_iff {r : PreKeyRecord} {k : KeyPair} :
    PairOf r.publicKey r.privateKey k ↔ PreKeyRecord.getKeyPair r = .ok k := by
  refine ⟨?_, oneTimePair_of⟩
  rintro ⟨h1, h2⟩
  unfold PreKeyRecord.getKeyPair
  rw [KeyOf_iff.1 h1, ok_bind]
  obtain ⟨_, _⟩ := k
  simp only at h2
  subst h2
  rfl

omit C in
theorem oneTime_unreadable_iff {r : PreKeyRecord} {e : Err} :
    Unreadable r.publicKey e ↔ PreKeyRecord.getKeyPair r = .error e := by
  rw [unreadable_iff]
  unfold PreKeyRecord.getKeyPair
  cases Curve.decodePoint (r.publicKey.getD []) with
  | ok k => exact ⟨fun h => (nomatch h), fun h => (nomatch h)⟩
  | error e' => rw [error_bind]; constructor <;> intro h <;> exact congrArg _ (Except.error.inj h)

omit C in
/-- The one-time prekey as `processV3` fetches it. -/
def fetchOneTime (w : World) : Option Nat → Res (Option KeyPair)
  | none => .ok none
  | some id => do
    let pk ← w.loadPreKey id
    let kp ← PreKeyRecord.getKeyPair pk
    Except.ok (some kp)

omit C in
theorem oneTime_iff {w : World} {id : Option Nat} {v : Except Err (Option KeyPair)} :
    OneTime w id v ↔ fetchOneTime w id = v := by
  have key : ∀ {v}, OneTime w id v → fetchOneTime w id = v := by
    intro v h
    cases h with
    | unnamed => rfl
    | missing h => unfold fetchOneTime World.loadPreKey; simp only [h]; rfl
    | unreadable h hu =>
      unfold fetchOneTime World.loadPreKey
      simp only [h, ok_bind]
      rw [oneTime_unreadable_iff.1 hu]
      rfl
    | pair h hp =>
      unfold fetchOneTime World.loadPreKey
      simp only [h, ok_bind]
      rw [oneTimePair_iff.1 hp]
      rfl
  refine ⟨key, ?_⟩
  rintro rfl
  have : ∃ v, OneTime w id v := by
    cases id with
    | none => exact ⟨_, .unnamed⟩
    | some i =>
      cases h : w.preKeys i with
      | none => exact ⟨_, .missing h⟩
      | some p =>
        cases hk : PreKeyRecord.getKeyPair p with
        | ok k => exact ⟨_, .pair h (oneTimePair_iff.2 hk)⟩
        | error e => exact ⟨_, .unreadable h (oneTime_unreadable_iff.2 hk)⟩
  obtain ⟨v, hv⟩ := this
  rw [key hv]
  exact hv

theorem fromPreKeyMessage_exists (w : World) (m : PreKeyWhisperMessage) : ∃ v, FromPreKeyMessage w m v := by
  cases h1 : w.signedPreKeys m.signedPreKeyId with
  | none => exact ⟨_, .noSignedPreKey h1⟩
  | some p =>
    cases h2 : SignedPreKeyRecord.getKeyPair p with
    | error e => exact ⟨_, .badSignedPreKey h1 (signed_unreadable_iff.2 h2)⟩
    | ok k =>
      cases h3 : fetchOneTime w m.preKeyId with
      | error e => exact ⟨_, .badPreKey h1 (signedPair_iff.2 h2) (oneTime_iff.2 h3)⟩
      | ok o =>
        by_cases hn : ¬ Fits w.registrationId ∨ ¬ Fits m.registrationId
        · exact ⟨_, .badNumber h1 (signedPair_iff.2 h2) (oneTime_iff.2 h3) hn⟩
        · by_cases hm : ∃ okm, AnswerMaterial w.identityKeyPair.priv k.priv (o.map KeyPair.priv) m.identityKey m.baseKey okm
          · obtain ⟨okm, hm⟩ := hm
            exact ⟨_, .session h1 (signedPair_iff.2 h2) (oneTime_iff.2 h3) hm
              (Classical.byContradiction fun h => hn (.inl h)) (Classical.byContradiction fun h => hn (.inr h))⟩
          · exact ⟨_, .noAgreement h1 (signedPair_iff.2 h2) (oneTime_iff.2 h3) fun okm h => hm ⟨okm, h⟩⟩

theorem processV3_of (hlen : ∀ k m, (C.hmac k m).length = 32) {w : World} {a : Address} {m : PreKeyWhisperMessage}
    (hl : ∀ r, w.sessions a = some r → r.previousStates.length ≤ 40) (hnew : ¬ alreadyKnown w a m)
    {v : Except Err SessionS} (h : FromPreKeyMessage w m v) :
    processV3 w (w.loadSession a) m = v.map fun s => (newRecord (w.sessions a) s, consumedId m.preKeyId) := by
  have hk : (w.loadSession a).hasSessionState m.version (Curve.serializePoint m.baseKey) = false := by
    cases hk : (w.loadSession a).hasSessionState m.version (Curve.serializePoint m.baseKey) with
    | false => rfl
    | true => exact absurd ((loaded_known w a m).1 hk) hnew
  have hun : (match m.preKeyId with
      | none => none
      | some id => if id ≠ Medium.MAX_VALUE then some id else none) = consumedId m.preKeyId := by
    unfold consumedId
    cases m.preKeyId with
    | none => rfl
    | some i =>
      simp only
      by_cases hi : i = 0xFFFFFF
      · rw [if_pos hi, if_neg (fun h => h hi)]
      · rw [if_neg hi, if_pos (show i ≠ Medium.MAX_VALUE from hi)]
  have hbody : ∀ {p k}, w.signedPreKeys m.signedPreKeyId = some p → SignedPreKeyRecord.getKeyPair p = .ok k →
      processV3 w (w.loadSession a) m = (fetchOneTime w m.preKeyId >>= fun o => do
        let s ← initializeSessionAsBob {} ⟨w.identityKeyPair, k, k, o, m.identityKey, m.baseKey⟩
        let s ← s.setLocalRegistrationId w.registrationId
        let s ← s.setRemoteRegistrationId m.registrationId
        .ok (newRecord (w.sessions a) (s.setAliceBaseKey (5 :: m.baseKey)), consumedId m.preKeyId)) := by
    intro p k h1 h2
    rw [← hun]
    unfold processV3 World.loadSignedPreKey
    rw [hk, h1]
    simp only [Bool.false_eq_true, if_false, ok_bind, archive_load_state, new_record hl, h2]
    cases m.preKeyId with
    | none => rfl
    | some i =>
      unfold fetchOneTime
      simp only
      cases w.loadPreKey i with
      | error e => rfl
      | ok p =>
        simp only [ok_bind]
        cases PreKeyRecord.getKeyPair p <;> rfl
  cases h with
  | noSignedPreKey h1 =>
    unfold processV3 World.loadSignedPreKey
    rw [hk, h1]
    rfl
  | badSignedPreKey h1 h2 =>
    unfold processV3 World.loadSignedPreKey
    rw [hk, h1]
    simp only [Bool.false_eq_true, if_false, ok_bind, signed_unreadable_iff.1 h2]
    rfl
  | badPreKey h1 h2 h3 =>
    rw [hbody h1 (signedPair_iff.1 h2), oneTime_iff.1 h3]
    rfl
  | @noAgreement p k o h1 h2 h3 h4 =>
    rw [hbody h1 (signedPair_iff.1 h2), oneTime_iff.1 h3, ok_bind,
      (bob_eval hlen ⟨w.identityKeyPair, k, k, o, m.identityKey, m.baseKey⟩).2 h4]
    rfl
  | @badNumber p k o h1 h2 h3 h4 =>
    rw [hbody h1 (signedPair_iff.1 h2), oneTime_iff.1 h3, ok_bind]
    cases hB : initializeSessionAsBob {} ⟨w.identityKeyPair, k, k, o, m.identityKey, m.baseKey⟩ with
    | error e => rw [(bob_error hB).1]; rfl
    | ok s0 =>
      rw [ok_bind]
      cases hL : setLocalRegistrationId s0 w.registrationId with
      | error e => rw [setLocal_error hL]; rfl
      | ok s2 =>
        rw [ok_bind]
        cases hR : setRemoteRegistrationId s2 m.registrationId with
        | error e => rw [setRemote_error hR]; rfl
        | ok s3 =>
          exfalso
          obtain ⟨n, e1, l1, _⟩ := setLocalRegistrationId_ok hL
          obtain ⟨n', e2, l2, _⟩ := setRemoteRegistrationId_ok hR
          rcases h4 with h3 | h3
          · rw [e1, fits_nat] at h3; exact h3 l1
          · rw [e2, fits_nat] at h3; exact h3 l2
  | @session p k o okm h1 h2 h3 h4 h5 h6 =>
    rw [hbody h1 (signedPair_iff.1 h2), oneTime_iff.1 h3, ok_bind,
      (bob_eval hlen ⟨w.identityKeyPair, k, k, o, m.identityKey, m.baseKey⟩).1 okm h4, ok_bind, setLocal_eval h5, ok_bind,
      setRemote_eval h6, ok_bind]
    rfl

/-- The session a prekey message creates is one that setup creates. -/
theorem created_of_fromPreKey (hlen : ∀ k m, (C.hmac k m).length = 32) {w : World} {m : PreKeyWhisperMessage} {s : SessionS}
    (h : FromPreKeyMessage w m (.ok s)) : Created s := by
  cases h with
  | @session p k o okm h1 h2 h3 h4 h5 h6 =>
    have := Created.bob (k := 5 :: m.baseKey)
      ((bob_eval hlen ⟨w.identityKeyPair, k, k, o, m.identityKey, m.baseKey⟩).1 okm h4) (setLocal_eval h5) (setRemote_eval h6)
    exact this

/-! ## Key exchange -/

omit C in
theorem unpackI_length : ∀ {n : Nat} {a : Bytes} {l : List Int}, Curve.unpackI n a = .ok l → a.length = 4 * n := by
  intro n
  induction n with
  | zero =>
    intro a l h
    cases a with
    | nil => rfl
    | cons => simp [Curve.unpackI] at h
  | succ n ih =>
    intro a l h
    unfold Curve.unpackI at h
    split at h
    · cases ‹n + 1 = 0›
    · rename_i n' x y z t rest e
      injection e with e
      subst e
      obtain ⟨l1, g1, h⟩ := bind_eq_ok.1 h
      have := ih g1
      simp only [List.length_cons]
      omega
    · cases h

omit C in
theorem unpackI_error : ∀ {n : Nat} {a : Bytes} {e : Err}, Curve.unpackI n a = .error e →
    e = .structError ∧ a.length ≠ 4 * n := by
  intro n
  induction n with
  | zero =>
    intro a e h
    cases a with
    | nil => cases h
    | cons =>
      simp only [Curve.unpackI] at h
      exact ⟨(Except.error.inj h).symm, by simp⟩
  | succ n ih =>
    intro a e h
    match a, h with
    | [], h | [_], h | [_, _], h | [_, _, _], h =>
      exact ⟨(Except.error.inj h).symm, by simp only [List.length_cons, List.length_nil]; omega⟩
    | x :: y :: z :: t :: rest, h =>
      rcases bind_eq_error.1 h with h | ⟨_, _, h⟩
      · obtain ⟨h1, h2⟩ := ih h
        refine ⟨h1, ?_⟩
        simp only [List.length_cons]
        omega
      · cases h

omit C in
theorem pubLt_length {a b : ECPub} {t : Bool} (h : Curve.pubLt a b = .ok t) : a.length = 32 ∧ b.length = 32 := by
  unfold Curve.pubLt at h
  obtain ⟨_, h1, h⟩ := bind_eq_ok.1 h
  obtain ⟨_, h2, h⟩ := bind_eq_ok.1 h
  exact ⟨unpackI_length h1, unpackI_length h2⟩

omit C in
theorem pubLt_error {a b : ECPub} {e : Err} (h : Curve.pubLt a b = .error e) :
    e = .structError ∧ (a.length ≠ 32 ∨ b.length ≠ 32) := by
  unfold Curve.pubLt at h
  rcases bind_eq_error.1 h with h | ⟨_, _, h⟩
  · exact ⟨(unpackI_error h).1, .inl (unpackI_error h).2⟩
  rcases bind_eq_error.1 h with h | ⟨_, _, h⟩
  · exact ⟨(unpackI_error h).1, .inr (unpackI_error h).2⟩
  · cases h

/-- The arguments of a key exchange. -/
def exchangeParams (identity base ratchet : KeyPair) (m : KeyExchangeMessage) : SymmetricParameters :=
  { ourBaseKey := base, ourRatchetKey := ratchet, ourIdentityKey := identity, theirBaseKey := m.baseKey,
    theirRatchetKey := m.ratchetKey, theirIdentityKey := m.identityKey }

theorem exchanged_unique {identity base ratchet : KeyPair} {ti tb tr : ECPub} {seed : Bytes} {s s' : SessionS}
    (h : Exchanged identity base ratchet ti tb tr seed s) (h' : Exchanged identity base ratchet ti tb tr seed s') : s = s' := by
  cases h with
  | initiator h1 h2 h3 =>
    cases h' with
    | initiator g1 g2 g3 => rw [setupMaterial_unique h2 g2, Option.some.inj (h3.symm.trans g3)]
    | answerer g1 _ => exact absurd h1 g1
  | answerer h1 h2 =>
    cases h' with
    | initiator g1 _ _ => exact absurd g1 h1
    | answerer g1 g2 => rw [answerMaterial_unique h2 g2]

theorem exchange_error (hlen : ∀ k m, (C.hmac k m).length = 32) {identity base ratchet : KeyPair} {m : KeyExchangeMessage}
    {seed : Bytes} {e : Err} (h : initializeSession {} (exchangeParams identity base ratchet m) seed = .error e) :
    (e = .structError ∧ (base.pub.length ≠ 32 ∨ m.baseKey.length ≠ 32)) ∨
    (e = .valueError ∧ base.pub.length = 32 ∧ m.baseKey.length = 32 ∧
      ∀ s, ¬ Exchanged identity base ratchet m.identityKey m.baseKey m.ratchetKey seed s) := by
  unfold initializeSession isAlice exchangeParams at h
  rcases bind_eq_error.1 h with h | ⟨b, hb, h⟩
  · exact .inl (pubLt_error h)
  · right
    obtain ⟨l1, l2⟩ := pubLt_length hb
    have hsm := pubLt_iff hb
    simp only at l1 l2 hsm
    cases b with
    | true =>
      have hsm := hsm.1 rfl
      obtain ⟨h1, h2⟩ := alice_error hlen h
      refine ⟨h1, l1, l2, ?_⟩
      intro s hs
      cases hs with
      | initiator _ g1 g2 =>
        rcases h2 with h2 | h2
        · exact h2 _ g1
        · rw [show C.dh (C.genPriv seed) m.ratchetKey = none from h2] at g2; cases g2
      | answerer hn _ => exact hn hsm
    | false =>
      obtain ⟨h1, h2⟩ := bob_error h
      refine ⟨h1, l1, l2, ?_⟩
      intro s hs
      cases hs with
      | initiator hs _ _ => have := hsm.2 hs; cases this
      | answerer _ g => exact h2 _ g

theorem exchange_lengths {identity base ratchet : KeyPair} {m : KeyExchangeMessage}
    {seed : Bytes} {s : SessionState} (h : initializeSession {} (exchangeParams identity base ratchet m) seed = .ok s) :
    base.pub.length = 32 ∧ m.baseKey.length = 32 := by
  unfold initializeSession isAlice exchangeParams at h
  obtain ⟨b, hb, h⟩ := bind_eq_ok.1 h
  exact pubLt_length hb

theorem fromExchange_iff (hlen : ∀ k m, (C.hmac k m).length = 32) {identity base ratchet : KeyPair}
    {m : KeyExchangeMessage} {seed : Bytes} {v : Except Err SessionS} :
    FromExchange identity base ratchet m seed v ↔
      initializeSession {} (exchangeParams identity base ratchet m) seed = v := by
  constructor
  · intro h
    cases hx : initializeSession {} (exchangeParams identity base ratchet m) seed with
    | ok s =>
      obtain ⟨l1, l2⟩ := exchange_lengths hx
      have hs := exchange_exact hlen hx
      cases h with
      | badSize h => rcases h with h | h <;> contradiction
      | noAgreement _ _ h => exact absurd hs (h s)
      | session _ _ h => rw [exchanged_unique hs h]
    | error e =>
      rcases exchange_error hlen hx with ⟨rfl, hl⟩ | ⟨rfl, l1, l2, hn⟩
      · cases h with
        | badSize _ => rfl
        | noAgreement l1 l2 _ => rcases hl with h | h <;> contradiction
        | session l1 l2 _ => rcases hl with h | h <;> contradiction
      · cases h with
        | badSize h => rcases h with h | h <;> contradiction
        | noAgreement _ _ _ => rfl
        | session _ _ h => exact absurd h (hn _)
  · rintro rfl
    cases hx : initializeSession {} (exchangeParams identity base ratchet m) seed with
    | ok s =>
      obtain ⟨l1, l2⟩ := exchange_lengths hx
      exact .session l1 l2 (exchange_exact hlen hx)
    | error e =>
      rcases exchange_error hlen hx with ⟨rfl, hl⟩ | ⟨rfl, l1, l2, hn⟩
      · exact .badSize hl
      · exact .noAgreement l1 l2 hn

omit C in
theorem exchange_id (seq flags : Nat) (hf : flags < 32) : seq <<< 5 ||| flags = seq * 32 + flags := by
  rw [← Nat.shiftLeft_add_eq_or_of_lt (by omega : flags < 2 ^ 5), Nat.shiftLeft_eq]

omit C in
/-- Making a key exchange message, in every case. -/
theorem exchange_create {seq flags : Nat} {bk rk ik : ECPub} {sig : Bytes} (hf : flags < 32)
    (h1 : bk.length ≤ 32) (h2 : rk.length ≤ 32) (h3 : ik.length ≤ 32) (h4 : sig.length < 2 ^ 64) :
    KeyExchangeMessage.create 3 seq flags bk sig rk ik =
      if seq * 32 + flags < 2 ^ 32 then .ok (exchangeMessage seq flags bk rk ik sig) else .error .valueError := by
  cases h : KeyExchangeMessage.create 3 seq flags bk sig rk ik with
  | ok m =>
    have hb := keyExchange_bytes h hf h1 h2 h3 h4
    unfold KeyExchangeMessage.create at h
    obtain ⟨i, q, h⟩ := bind_eq_ok.1 h
    obtain ⟨e1, l1⟩ := chkU32_eq_ok.1 q
    rw [exchange_id _ _ hf] at e1
    rw [if_pos (by omega)]
    have h := Except.ok.inj h
    subst h
    unfold exchangeMessage
    simp only at hb
    rw [hb]
    rfl
  | error e =>
    unfold KeyExchangeMessage.create at h
    rcases bind_eq_error.1 h with h | ⟨_, _, h⟩
    · rw [chkU32_error h]
      rw [exchange_id _ _ hf] at h
      by_cases hl : seq * 32 + flags < 2 ^ 32
      · rw [chkU32_ok hl] at h; cases h
      · rw [if_neg hl]
    · cases h

theorem calculateSignature_eq {r k m : Bytes} : Curve.calculateSignature r k m =
    match C.calcSig r k m with | some s => .ok s | none => .error .valueError := rfl

theorem answers_iff (hC : C.Lawful) {identity base ratchet : KeyPair} {seq flags : Nat} {sigRand : Bytes}
    (hf : flags < 32) (h1 : base.pub.length ≤ 32) (h2 : ratchet.pub.length ≤ 32) (h3 : identity.pub.length ≤ 32)
    {v : Except Err KeyExchangeMessage} :
    Answers identity base ratchet seq flags sigRand v ↔
      (do
        let sig ← Curve.calculateSignature sigRand identity.priv (5 :: base.pub)
        KeyExchangeMessage.create 3 seq flags base.pub sig ratchet.pub identity.pub) = v := by
  rw [calculateSignature_eq]
  cases hs : C.calcSig sigRand identity.priv (5 :: base.pub) with
  | none =>
    simp only [error_bind]
    constructor
    · intro h
      cases h with
      | unsigned _ => rfl
      | tooLarge _ => rfl
      | message h _ => rw [hs] at h; cases h
    · rintro rfl
      exact .unsigned hs
  | some sig =>
    have hsl : sig.length < 2 ^ 64 := by rw [(hC.sig_size _ _ _ _ hs).2]; decide
    simp only [ok_bind]
    rw [exchange_create hf h1 h2 h3 hsl]
    constructor
    · intro h
      cases h with
      | unsigned h => rw [hs] at h; cases h
      | tooLarge h => rw [if_neg (by omega)]
      | message h hl =>
        obtain rfl := Option.some.inj (hs.symm.trans h)
        rw [if_pos hl]
    · rintro rfl
      split
      · rename_i hl
        exact .message hs hl
      · rename_i hl
        exact .tooLarge (by omega)

omit C in
theorem pairOf_get {pub priv : Option Bytes} {k : KeyPair} (h : PairOf pub priv k) :
    (do
      let p ← Curve.decodePoint (pub.getD [])
      .ok { pub := p, priv := Curve.decodePrivatePoint (priv.getD []) } : Res KeyPair) = .ok k := by
  obtain ⟨h1, h2⟩ := h
  rw [KeyOf_iff.1 h1, ok_bind, h2]
  rfl

omit C in
theorem pendingKeys_get {s : SessionState} {p : PendingKeyExchangeS} {ik bk rk : KeyPair}
    (hp : s.pendingKeyExchange = some p) (h : PendingKeys p ik bk rk) :
    getPendingKeyExchangeIdentityKey s = .ok ik ∧ getPendingKeyExchangeBaseKey s = .ok bk ∧
    getPendingKeyExchangeRatchetKey s = .ok rk := by
  have hd : SessionState.pendingKED s = p := by
    unfold SessionState.pendingKED
    rw [hp]
    rfl
  unfold getPendingKeyExchangeIdentityKey getPendingKeyExchangeBaseKey getPendingKeyExchangeRatchetKey
  rw [hd]
  exact ⟨pairOf_get h.identity, pairOf_get h.base, pairOf_get h.ratchet⟩

theorem initiate_eval {w : World} {a : Address} {m : KeyExchangeMessage} {rnd : InitiateRand}
    (hl : ∀ r, w.sessions a = some r → r.previousStates.length ≤ 40)
    {identity base ratchet : KeyPair} {flags : Nat} (hs : exchangeSignature m = some true)
    (hk : AnswerKeys w a rnd identity base ratchet flags) :
    processInitiateState w a m rnd = (do
      let s ← initializeSession {} (exchangeParams identity base ratchet m) rnd.sendSeed
      .ok (newRecord (w.sessions a) s, flags, exchangeParams identity base ratchet m)) := by
  have hpl := pending_loaded w a
  unfold processInitiateState Curve.verifySignature
  rw [show C.verifySig m.identityKey (Curve.serializePoint m.baseKey) m.baseKeySignature = some true from hs]
  simp only [ok_bind, Bool.not_true, Bool.false_eq_true, if_false, archive_load_state, new_record hl]
  cases hk with
  | new hp =>
    unfold hasPendingKeyExchange
    rw [hpl, hp]
    rfl
  | pending hp hk =>
    have hp' := hpl.trans hp
    obtain ⟨g1, g2, g3⟩ := pendingKeys_get hp' hk
    unfold hasPendingKeyExchange
    rw [hp']
    simp only [Option.isSome_some, Bool.not_true, Bool.false_eq_true, if_false, g1, g2, g3, ok_bind]
    rfl

/-- Keys that go on the wire have their size. -/
structure KeysFit (w : World) (rnd : InitiateRand) : Prop where
  identity : w.identityKeyPair.pub.length = 32
  base : rnd.baseSeed.length = 32
  ratchet : rnd.ratchetSeed.length = 32

theorem answerKeys_fit (hC : C.Lawful) {w : World} {a : Address} {rnd : InitiateRand} (hf : KeysFit w rnd)
    {identity base ratchet : KeyPair} {flags : Nat} (hk : AnswerKeys w a rnd identity base ratchet flags) :
    flags < 32 ∧ base.pub.length ≤ 32 ∧ ratchet.pub.length ≤ 32 ∧ identity.pub.length ≤ 32 := by
  cases hk with
  | new _ =>
    exact ⟨by decide, Nat.le_of_eq (hC.genPub_len _ (hC.genPriv_len _ hf.base)),
      Nat.le_of_eq (hC.genPub_len _ (hC.genPriv_len _ hf.ratchet)), Nat.le_of_eq hf.identity⟩
  | pending _ hk =>
    exact ⟨by decide, hk.base.1.length_le, hk.ratchet.1.length_le, hk.identity.1.length_le⟩

theorem created_of_fromExchange (hlen : ∀ k m, (C.hmac k m).length = 32) {identity base ratchet : KeyPair}
    {m : KeyExchangeMessage} {seed : Bytes} {s : SessionS} (h : FromExchange identity base ratchet m seed (.ok s)) :
    Created s := .sym ((fromExchange_iff hlen).1 h)

theorem request_of (hC : C.Lawful) {w : World} {a : Address} {m : KeyExchangeMessage} {rnd : InitiateRand}
    (hl : ∀ r, w.sessions a = some r → r.previousStates.length ≤ 40) (hf : KeysFit w rnd)
    {o : Outcome (Option KeyExchangeMessage)} (h : Request w a m rnd o) : processInitiate w a m rnd = o := by
  have reply : ∀ {identity base ratchet flags s v}, exchangeSignature m = some true →
      AnswerKeys w a rnd identity base ratchet flags → FromExchange identity base ratchet m rnd.sendSeed (.ok s) →
      Answers identity base ratchet m.sequence flags rnd.sigRand v →
      processInitiate w a m rnd =
        ⟨[.session a (newRecord (w.sessions a) s), .identity a.1 m.identityKey], v.map some⟩ := by
    intro identity base ratchet flags s v h1 h2 h3 h4
    obtain ⟨f1, f2, f3, f4⟩ := answerKeys_fit hC hf h2
    have hv : getSessionVersion s = 3 := by
      unfold getSessionVersion
      rw [(created_shape (created_of_fromExchange hC.hmac_len h3)).1]
      rfl
    unfold processInitiate
    rw [initiate_eval hl h1 h2, (fromExchange_iff hC.hmac_len).1 h3]
    simp only [ok_bind]
    have h4 := (answers_iff hC f1 f2 f3 f4).1 h4
    refine congrArg (Outcome.mk _) ?_
    rw [← h4]
    show (Curve.calculateSignature rnd.sigRand identity.priv (5 :: base.pub) >>= fun sig =>
      KeyExchangeMessage.create (getSessionVersion s) m.sequence flags base.pub sig ratchet.pub identity.pub >>= fun x =>
        .ok (some x)) = _
    rw [hv]
    cases Curve.calculateSignature rnd.sigRand identity.priv (5 :: base.pub) with
    | error e => rfl
    | ok sig =>
      simp only [ok_bind]
      cases KeyExchangeMessage.create 3 m.sequence flags base.pub sig ratchet.pub identity.pub <;> rfl
  cases h with
  | badSignature h =>
    unfold processInitiate processInitiateState Curve.verifySignature
    rw [show C.verifySig m.identityKey (Curve.serializePoint m.baseKey) m.baseKeySignature = some false from h]
    rfl
  | unverifiable h =>
    unfold processInitiate processInitiateState Curve.verifySignature
    rw [show C.verifySig m.identityKey (Curve.serializePoint m.baseKey) m.baseKeySignature = none from h]
    rfl
  | noSession h1 h2 h3 =>
    unfold processInitiate
    rw [initiate_eval hl h1 h2, (fromExchange_iff hC.hmac_len).1 h3]
    rfl
  | noReply h1 h2 h3 h4 => exact reply h1 h2 h3 h4
  | reply h1 h2 h3 h4 => exact reply h1 h2 h3 h4

theorem request_exists (hC : C.Lawful) {w : World} {a : Address} (m : KeyExchangeMessage) {rnd : InitiateRand}
    (hp : ∀ p, Spec.pendingOf (w.sessions a) = some p → ∃ i b r, PendingKeys p i b r) (hf : KeysFit w rnd) :
    ∃ o, Request w a m rnd o := by
  cases h1 : exchangeSignature m with
  | none => exact ⟨_, .unverifiable h1⟩
  | some t =>
    cases t with
    | false => exact ⟨_, .badSignature h1⟩
    | true =>
      obtain ⟨i, b, r, flags, hk⟩ : ∃ i b r flags, AnswerKeys w a rnd i b r flags := by
        cases hq : Spec.pendingOf (w.sessions a) with
        | none => exact ⟨_, _, _, _, .new hq⟩
        | some p =>
          obtain ⟨i, b, r, h⟩ := hp p hq
          exact ⟨i, b, r, _, .pending hq h⟩
      obtain ⟨f1, f2, f3, f4⟩ := answerKeys_fit hC hf hk
      cases hx : initializeSession {} (exchangeParams i b r m) rnd.sendSeed with
      | error e => exact ⟨_, .noSession h1 hk ((fromExchange_iff hC.hmac_len).2 hx)⟩
      | ok s =>
        have ha := (answers_iff hC (seq := m.sequence) (sigRand := rnd.sigRand) f1 f2 f3 f4).2 rfl
        revert ha
        generalize (do
          let sig ← Curve.calculateSignature rnd.sigRand i.priv (5 :: b.pub)
          KeyExchangeMessage.create 3 m.sequence flags b.pub sig r.pub i.pub) = v
        intro ha
        cases v with
        | error e => exact ⟨_, .noReply h1 hk ((fromExchange_iff hC.hmac_len).2 hx) ha⟩
        | ok x => exact ⟨_, .reply h1 hk ((fromExchange_iff hC.hmac_len).2 hx) ha⟩

omit C in
theorem crossing_flag (m : KeyExchangeMessage) : m.isResponseForSimultaneousInitiate = true ↔ m.flags / 4 % 2 = 1 := by
  unfold KeyExchangeMessage.isResponseForSimultaneousInitiate KeyExchangeMessage.SIMULTAENOUS_INITIATE_FLAG
  have h1 : (m.flags &&& 4) / 4 = m.flags / 4 % 2 := by
    have := Nat.shiftRight_and_distrib (a := m.flags) (b := 4) (i := 2)
    rw [Nat.shiftRight_eq_div_pow, Nat.shiftRight_eq_div_pow, show (4 >>> 2 : Nat) = 1 from rfl, Nat.and_one_is_mod] at this
    exact this
  have h2 : (m.flags &&& 4) % 4 = 0 := by
    have := Nat.and_mod_two_pow (a := m.flags) (b := 4) (n := 2)
    rw [show (4 % 2 ^ 2 : Nat) = 0 from rfl, Nat.and_zero] at this
    exact this
  rw [bne_iff_ne]
  omega

omit C in
theorem initiate_flag (m : KeyExchangeMessage) : m.isInitiate = true ↔ m.flags % 2 = 1 := by
  unfold KeyExchangeMessage.isInitiate KeyExchangeMessage.INITIATE_FLAG
  rw [Nat.and_one_is_mod]
  rcases Nat.mod_two_eq_zero_or_one m.flags with h | h <;> rw [h] <;> decide

theorem response_of (hlen : ∀ k m, (C.hmac k m).length = 32) {w : World} {a : Address} {m : KeyExchangeMessage} {seed : Bytes}
    (hl : ∀ r, w.sessions a = some r → r.previousStates.length ≤ 40)
    {o : Outcome (Option KeyExchangeMessage)} (h : Response w a m seed o) : processResponse w a m seed = o := by
  have hpl := pending_loaded w a
  have hno : (∀ p, ¬ Awaited w a m p) → (!(w.loadSession a).sessionState.hasPendingKeyExchange ||
      (w.loadSession a).sessionState.getPendingKeyExchangeSequence != m.sequence) = true := by
    intro hn
    unfold hasPendingKeyExchange getPendingKeyExchangeSequence SessionState.pendingKED
    rw [hpl]
    cases hq : Spec.pendingOf (w.sessions a) with
    | none => rfl
    | some p =>
      have : p.sequence.getD 0 ≠ m.sequence := fun h => hn p ⟨hq, h⟩
      simpa using this
  have body : ∀ {p identity base ratchet}, Awaited w a m p → PendingKeys p identity base ratchet →
      processResponse w a m seed = Outcome.ofRes (do
        let s ← initializeSession {} (exchangeParams identity base ratchet m) seed
        let ok ← Curve.verifySignature m.identityKey (Curve.serializePoint m.baseKey) m.baseKeySignature
        if !ok then .error .invalidKey
        else .ok ([.session a (newRecord (w.sessions a) s), .identity a.1 m.identityKey], none)) := by
    intro p identity base ratchet ⟨hp, hq⟩ hk
    have hp' := hpl.trans hp
    obtain ⟨g1, g2, g3⟩ := pendingKeys_get hp' hk
    have hc : (!(w.loadSession a).sessionState.hasPendingKeyExchange ||
        (w.loadSession a).sessionState.getPendingKeyExchangeSequence != m.sequence) = false := by
      unfold hasPendingKeyExchange getPendingKeyExchangeSequence SessionState.pendingKED
      rw [hp']
      simpa using hq
    unfold processResponse
    simp only [hc, Bool.false_eq_true, if_false, g1, g2, g3, ok_bind, archive_load_state, new_record hl]
    rfl
  cases h with
  | stale h1 h2 =>
    unfold processResponse
    simp only [hno h1, if_true]
    have : m.isResponseForSimultaneousInitiate = false := by
      cases hc : m.isResponseForSimultaneousInitiate with
      | false => rfl
      | true => have := (crossing_flag m).1 hc; omega
    rw [this]
    rfl
  | crossing h1 h2 =>
    unfold processResponse
    simp only [hno h1, if_true]
    rw [(crossing_flag m).2 h2]
    rfl
  | noSession h1 h2 h3 =>
    rw [body h1 h2, (fromExchange_iff hlen).1 h3]
    rfl
  | badSignature h1 h2 h3 h4 =>
    rw [body h1 h2, (fromExchange_iff hlen).1 h3]
    unfold Curve.verifySignature
    rw [show C.verifySig m.identityKey (Curve.serializePoint m.baseKey) m.baseKeySignature = some false from h4]
    rfl
  | unverifiable h1 h2 h3 h4 =>
    rw [body h1 h2, (fromExchange_iff hlen).1 h3]
    unfold Curve.verifySignature
    rw [show C.verifySig m.identityKey (Curve.serializePoint m.baseKey) m.baseKeySignature = none from h4]
    rfl
  | done h1 h2 h3 h4 =>
    rw [body h1 h2, (fromExchange_iff hlen).1 h3]
    unfold Curve.verifySignature
    rw [show C.verifySig m.identityKey (Curve.serializePoint m.baseKey) m.baseKeySignature = some true from h4]
    rfl

theorem response_exists (hlen : ∀ k m, (C.hmac k m).length = 32) {w : World} {a : Address} (m : KeyExchangeMessage)
    (seed : Bytes) (hp : ∀ p, Spec.pendingOf (w.sessions a) = some p → ∃ i b r, PendingKeys p i b r) :
    ∃ o, Response w a m seed o := by
  by_cases hw : ∃ p, Awaited w a m p
  · obtain ⟨p, hw⟩ := hw
    obtain ⟨i, b, r, hk⟩ := hp p hw.1
    cases hx : initializeSession {} (exchangeParams i b r m) seed with
    | error e => exact ⟨_, .noSession hw hk ((fromExchange_iff hlen).2 hx)⟩
    | ok s =>
      have hx := (fromExchange_iff hlen).2 hx
      cases h1 : exchangeSignature m with
      | none => exact ⟨_, .unverifiable hw hk hx h1⟩
      | some t =>
        cases t with
        | false => exact ⟨_, .badSignature hw hk hx h1⟩
        | true => exact ⟨_, .done hw hk hx h1⟩
  · have hw : ∀ p, ¬ Awaited w a m p := fun p h => hw ⟨p, h⟩
    rcases Nat.mod_two_eq_zero_or_one (m.flags / 4) with h | h
    · exact ⟨_, .stale hw h⟩
    · exact ⟨_, .crossing hw h⟩

/-! ## Asking for a key exchange -/

theorem pending_record {w : World} {a : Address} {n : Nat} {baseSeed ratchetSeed : Bytes} (h : n < 2 ^ 32) :
    (do
      let s ← (w.loadSession a).sessionState.setPendingKeyExchange n (Curve.generateKeyPair baseSeed)
        (Curve.generateKeyPair ratchetSeed) w.identityKeyPair
      Except.ok ((w.loadSession a).setState s) : Res SessionRecord) = .ok (withPending w a n baseSeed ratchetSeed) := by
  unfold setPendingKeyExchange
  have hq := chkU32_ok h
  revert hq
  generalize chkU32 (n : Int) = q
  rintro rfl
  unfold withPending World.loadSession
  cases w.sessions a <;> rfl

theorem init_stores (hC : C.Lawful) {w : World} {a : Address} {n : Nat} {baseSeed ratchetSeed sigRand sig : Bytes}
    (hid : w.identityKeyPair.pub.length = 32) (h1 : baseSeed.length = 32) (h2 : ratchetSeed.length = 32)
    (hsig : C.calcSig sigRand w.identityKeyPair.priv (5 :: C.genPub (C.genPriv baseSeed)) = some sig) (hn : n + 1 < 2 ^ 32) :
    processInitKeyExchangeMessage w a n baseSeed ratchetSeed sigRand =
      ⟨[.session a (withPending w a (n + 1) baseSeed ratchetSeed)],
        if (n + 1) * 32 + 1 < 2 ^ 32 then .ok (exchangeMessage (n + 1) 1 (C.genPub (C.genPriv baseSeed))
          (C.genPub (C.genPriv ratchetSeed)) w.identityKeyPair.pub sig) else .error .valueError⟩ := by
  have hc := exchange_create (seq := n + 1) (flags := 1) (bk := C.genPub (C.genPriv baseSeed))
    (rk := C.genPub (C.genPriv ratchetSeed)) (ik := w.identityKeyPair.pub) (sig := sig) (by decide)
    (Nat.le_of_eq (hC.genPub_len _ (hC.genPriv_len _ h1))) (Nat.le_of_eq (hC.genPub_len _ (hC.genPriv_len _ h2)))
    (Nat.le_of_eq hid) (by rw [(hC.sig_size _ _ _ _ hsig).2]; decide)
  rw [← hc]
  obtain ⟨s, e1, e2⟩ := bind_eq_ok.1
    (pending_record (w := w) (a := a) (baseSeed := baseSeed) (ratchetSeed := ratchetSeed) hn)
  have hs : Curve.calculateSignature sigRand w.identityKeyPair.priv (Curve.serializePoint (Curve.generateKeyPair baseSeed).pub) =
      .ok sig := by
    unfold Curve.calculateSignature
    rw [show Curve.serializePoint (Curve.generateKeyPair baseSeed).pub = 5 :: C.genPub (C.genPriv baseSeed) from rfl, hsig]
  unfold processInitKeyExchangeMessage
  simp only
  rw [hs, e1, ← Except.ok.inj e2]
  rfl

theorem init_fails {w : World} {a : Address} {n : Nat} {baseSeed ratchetSeed sigRand : Bytes}
    (h : C.calcSig sigRand w.identityKeyPair.priv (5 :: C.genPub (C.genPriv baseSeed)) = none ∨ 2 ^ 32 ≤ n + 1) :
    processInitKeyExchangeMessage w a n baseSeed ratchetSeed sigRand = ⟨[], .error .valueError⟩ := by
  unfold processInitKeyExchangeMessage
  simp only
  rw [show Curve.serializePoint (Curve.generateKeyPair baseSeed).pub = 5 :: C.genPub (C.genPriv baseSeed) from rfl]
  unfold Curve.calculateSignature
  rcases h with h | h
  · rw [h]
    rfl
  · have hp : ∀ s x y z, setPendingKeyExchange s (n + 1) x y z = .error .valueError := by
      intro s x y z
      unfold setPendingKeyExchange
      rw [chkU32_large h]
      rfl
    simp only [hp]
    cases C.calcSig sigRand w.identityKeyPair.priv (5 :: C.genPub (C.genPriv baseSeed)) <;> rfl

/-! ## All calls -/

/-- Stores that calls can produce. -/
structure Reached (w : World) : Prop where
  identity : w.identityKeyPair.pub.length = 32
  states : ∀ a r, w.sessions a = some r → r.All Sendable
  forty : ∀ a r, w.sessions a = some r → r.previousStates.length ≤ 40

theorem keeps_identity (w0 : World) (cs : List Call) : (Call.after w0 cs).identityKeyPair = w0.identityKeyPair := by
  unfold Call.after
  induction cs generalizing w0 with
  | nil => rfl
  | cons c cs ih => rw [List.foldl_cons, ih]; exact applyAll_other.2.1

theorem reached (hC : C.Lawful) (w0 : World) (hw : w0.NoSessions) (hid : w0.identityKeyPair.pub.length = 32) (cs : List Call) :
    Reached (Call.after w0 cs) :=
  ⟨by rw [keeps_identity]; exact hid, fun a r h => sendable hC w0 hw cs a r h, fun a r h => (C22_bounded w0 hw cs a r h).1⟩

theorem sane_created (hC : C.Lawful) {s : SessionState} (h : Created s) : Sane s :=
  have h4 := (keySizes_inv hC).created s h
  ⟨(goodChains_inv hC).created s h, senderKey_inv.created s h, h4.1, h4.2.1, identities_inv.created s h, h4.2.2⟩

theorem sane_new (hC : C.Lawful) {w : World} (hw : Reached w) {a : Address} {s : SessionState} (h : Created s) :
    (newRecord (w.sessions a) s).All Sane ∧ (newRecord (w.sessions a) s).previousStates.length ≤ 40 := by
  refine ⟨⟨sane_created hC h, ?_⟩, ?_⟩
  · intro x hx
    unfold newRecord at hx
    cases hr : w.sessions a with
    | none => rw [hr] at hx; cases hx
    | some r =>
      rw [hr] at hx
      have hall := hw.states a r hr
      rcases List.mem_cons.1 (List.mem_of_mem_take hx) with rfl | hx
      · exact hall.1.sane
      · exact (hall.2 x hx).sane
  · unfold newRecord
    cases w.sessions a with
    | none => exact Nat.zero_le _
    | some r => exact List.length_take_le ..

omit C in
theorem load_some {w : World} {a : Address} {r : SessionRecord} (h : w.sessions a = some r) :
    w.loadSession a = { r with fresh := false } := by
  unfold World.loadSession
  rw [h]

omit C in
theorem pending_reached {w : World} (hw : Reached w) {a : Address} :
    ∀ p, Spec.pendingOf (w.sessions a) = some p → ∃ i b r, PendingKeys p i b r := by
  intro p hp
  cases hr : w.sessions a with
  | none => rw [hr] at hp; cases hp
  | some r =>
    rw [hr] at hp
    exact (hw.states a r hr).1.pending p hp

theorem readMsg_of (hC : C.Lawful) {w : World} (hw : Reached w) {a : Address} {r : SessionRecord} (hr : w.sessions a = some r)
    {m : WhisperMessage} {seed : Bytes} {seeds : Nat → Bytes} {v : Except Err (Bytes × SessionRecord)}
    (h : RecordVerdict { r with fresh := false } m seed seeds v) :
    SessionCipher.decryptWithSessionRecord (w.loadSession a) m seed seeds = v := by
  have hall : SessionRecord.All Sane { r with fresh := false } :=
    ⟨(hw.states a r hr).1.sane, fun s hs => ((hw.states a r hr).2 s hs).sane⟩
  rw [load_some hr]
  exact dwsr_of_verdict hC hall (hw.forty a r hr) h

theorem processV3_known {w : World} {a : Address} {m : PreKeyWhisperMessage} {r : SessionRecord}
    (hr : w.sessions a = some r) (hk : knowsBaseKey r m.version m.baseKey) :
    processV3 w (w.loadSession a) m = .ok (w.loadSession a, none) := by
  unfold processV3
  rw [(loaded_known w a m).2 ⟨r, hr, hk⟩]
  rfl

theorem does_run (hC : C.Lawful) {w : World} (hw : Reached w) {c : Call} (hc : Sized c) {o : Outcome Reply}
    (h : Does w c o) : c.run w = o := by
  have hlen := hC.hmac_len
  cases h with
  | @encryptNothing a pt h =>
    simp only [Call.run]
    unfold SessionCipher.encrypt World.loadSession
    rw [h]
    rfl
  | @encryptFails a pt r e h1 h2 =>
    simp only [Call.run]
    unfold SessionCipher.encrypt
    rw [load_some h1]
    simp only [ews_of_sends hC (hw.states a r h1).1 hc h2]
    rfl
  | @encrypt a pt r c s h1 h2 =>
    simp only [Call.run]
    unfold SessionCipher.encrypt
    rw [load_some h1]
    simp only [ews_of_sends hC (hw.states a r h1).1 hc h2]
    rfl
  | @readNothing a m seed seeds h =>
    simp only [Call.run]
    unfold SessionCipher.decryptMsg World.containsSession
    rw [h]
    rfl
  | @readFails a m seed seeds r e h1 h2 =>
    simp only [Call.run]
    unfold SessionCipher.decryptMsg World.containsSession
    simp only [readMsg_of hC hw h1 h2, h1]
    rfl
  | @read a m seed seeds r r' pt h1 h2 =>
    simp only [Call.run]
    unfold SessionCipher.decryptMsg World.containsSession
    simp only [readMsg_of hC hw h1 h2, h1]
    rfl
  | @preKeyUntrusted a m seed seeds h =>
    simp only [Call.run]
    unfold SessionCipher.decryptPkmsg SessionBuilder.process
    rw [h]
    rfl
  | @preKeyAgainFails a m seed seeds r e h1 h2 h3 h4 =>
    simp only [Call.run]
    unfold SessionCipher.decryptPkmsg SessionBuilder.process
    rw [h1, processV3_known h2 h3]
    simp only [Bool.not_true, Bool.false_eq_true, if_false, readMsg_of hC hw h2 h4]
    rfl
  | @preKeyAgain a m seed seeds r r' pt h1 h2 h3 h4 =>
    simp only [Call.run]
    unfold SessionCipher.decryptPkmsg SessionBuilder.process
    rw [h1, processV3_known h2 h3]
    simp only [Bool.not_true, Bool.false_eq_true, if_false, readMsg_of hC hw h2 h4]
    rfl
  | @preKeyNoSession a m seed seeds e h1 h2 h3 =>
    simp only [Call.run]
    unfold SessionCipher.decryptPkmsg SessionBuilder.process
    rw [h1, processV3_of hlen (hw.forty a) (fun ⟨r, hr, hk⟩ => h2 r hr hk) h3]
    rfl
  | @preKeyNewFails a m seed seeds s e h1 h2 h3 h4 =>
    obtain ⟨n1, n2⟩ := sane_new hC hw (a := a) (created_of_fromPreKey hlen h3)
    simp only [Call.run]
    unfold SessionCipher.decryptPkmsg SessionBuilder.process
    rw [h1, processV3_of hlen (hw.forty a) (fun ⟨r, hr, hk⟩ => h2 r hr hk) h3]
    simp only [Bool.not_true, Bool.false_eq_true, if_false, Except.map, dwsr_of_verdict hC n1 n2 h4]
    rfl
  | @preKeyNew a m seed seeds s r' pt h1 h2 h3 h4 =>
    obtain ⟨n1, n2⟩ := sane_new hC hw (a := a) (created_of_fromPreKey hlen h3)
    simp only [Call.run]
    unfold SessionCipher.decryptPkmsg SessionBuilder.process
    rw [h1, processV3_of hlen (hw.forty a) (fun ⟨r, hr, hk⟩ => h2 r hr hk) h3]
    simp only [Bool.not_true, Bool.false_eq_true, if_false, Except.map, dwsr_of_verdict hC n1 n2 h4]
    rfl
  | @bundleUntrusted a b baseSeed ratchetSeed h =>
    simp only [Call.run]
    unfold processPreKeyBundle
    rw [h]
    rfl
  | @bundleFails a b baseSeed ratchetSeed e h1 h2 =>
    simp only [Call.run]
    rw [bundle_of hlen (hw.forty a) h1 h2]
    rfl
  | @bundle a b baseSeed ratchetSeed s h1 h2 =>
    simp only [Call.run]
    rw [bundle_of hlen (hw.forty a) h1 h2]
    rfl
  | @exchangeUntrusted a m rnd h =>
    simp only [Call.run]
    unfold processKeyExchangeMessage
    rw [h]
    rfl
  | @request a m rnd o h1 h2 h3 =>
    simp only [Call.run]
    unfold processKeyExchangeMessage
    simp only [h1, (initiate_flag m).2 h2, Bool.not_true, Bool.false_eq_true, if_false, if_true]
    rw [request_of hC (hw.forty a) ⟨hw.identity, hc.1, hc.2⟩ h3]
  | @response a m rnd o h1 h2 h3 =>
    have hf : m.isInitiate = false := by
      cases hf : m.isInitiate with
      | false => rfl
      | true => have := (initiate_flag m).1 hf; omega
    simp only [Call.run]
    unfold processKeyExchangeMessage
    simp only [h1, hf, Bool.not_true, Bool.false_eq_true, if_false]
    rw [response_of hlen (hw.forty a) h3]
  | @ask a n baseSeed ratchetSeed sigRand sig h1 h2 =>
    simp only [Call.run]
    rw [init_stores hC hw.identity hc.1 hc.2 h1 (by omega), if_pos h2]
    rfl
  | @askFails a n baseSeed ratchetSeed sigRand h =>
    simp only [Call.run]
    rw [init_fails h]
    rfl
  | @askUnsendable a n baseSeed ratchetSeed sigRand sig h1 h2 h3 =>
    simp only [Call.run]
    rw [init_stores hC hw.identity hc.1 hc.2 h1 h2, if_neg (by omega)]
    rfl

theorem does_exists (hC : C.Lawful) {w : World} (hw : Reached w) (c : Call) (hc : Sized c) : ∃ o, Does w c o := by
  have hlen := hC.hmac_len
  have hall : ∀ a r, w.sessions a = some r → SessionRecord.All Sane { r with fresh := false } := fun a r hr =>
    ⟨(hw.states a r hr).1.sane, fun s hs => ((hw.states a r hr).2 s hs).sane⟩
  cases c with
  | encrypt a pt =>
    cases hr : w.sessions a with
    | none => exact ⟨_, .encryptNothing hr⟩
    | some r =>
      obtain ⟨v, hv⟩ := sends_exists hC (hw.states a r hr).1 pt
      cases v with
      | error e => exact ⟨_, .encryptFails hr hv⟩
      | ok x => exact ⟨_, .encrypt hr hv⟩
  | decryptMsg a m seed seeds =>
    cases hr : w.sessions a with
    | none => exact ⟨_, .readNothing hr⟩
    | some r =>
      obtain ⟨v, hv⟩ := recordVerdict_exists hC (hall a r hr) m seed seeds
      cases v with
      | error e => exact ⟨_, .readFails hr hv⟩
      | ok x => exact ⟨_, .read hr hv⟩
  | decryptPkmsg a m seed seeds =>
    cases ht : w.isTrusted a.1 m.identityKey with
    | false => exact ⟨_, .preKeyUntrusted ht⟩
    | true =>
      by_cases hk : ∃ r, w.sessions a = some r ∧ knowsBaseKey r m.version m.baseKey
      · obtain ⟨r, hr, hk⟩ := hk
        obtain ⟨v, hv⟩ := recordVerdict_exists hC (hall a r hr) m.message seed seeds
        cases v with
        | error e => exact ⟨_, .preKeyAgainFails ht hr hk hv⟩
        | ok x => exact ⟨_, .preKeyAgain ht hr hk hv⟩
      · have hk : ∀ r, w.sessions a = some r → ¬ knowsBaseKey r m.version m.baseKey := fun r hr h => hk ⟨r, hr, h⟩
        obtain ⟨v, hv⟩ := fromPreKeyMessage_exists w m
        cases v with
        | error e => exact ⟨_, .preKeyNoSession ht hk hv⟩
        | ok s =>
          obtain ⟨x, hx⟩ := recordVerdict_exists hC (sane_new hC hw (a := a) (created_of_fromPreKey hlen hv)).1 m.message seed seeds
          cases x with
          | error e => exact ⟨_, .preKeyNewFails ht hk hv hx⟩
          | ok y => exact ⟨_, .preKeyNew ht hk hv hx⟩
  | processBundle a b baseSeed ratchetSeed =>
    cases ht : w.isTrusted a.1 b.identityKey with
    | false => exact ⟨_, .bundleUntrusted ht⟩
    | true =>
      obtain ⟨v, hv⟩ := fromBundle_exists w b baseSeed ratchetSeed
      cases v with
      | error e => exact ⟨_, .bundleFails ht hv⟩
      | ok x => exact ⟨_, .bundle ht hv⟩
  | processKeyExchange a m rnd =>
    cases ht : w.isTrusted a.1 m.identityKey with
    | false => exact ⟨_, .exchangeUntrusted ht⟩
    | true =>
      rcases Nat.mod_two_eq_zero_or_one m.flags with hf | hf
      · obtain ⟨o, ho⟩ := response_exists hlen m rnd.sendSeed (pending_reached hw (a := a))
        exact ⟨_, .response ht hf ho⟩
      · obtain ⟨o, ho⟩ := request_exists hC m (pending_reached hw (a := a)) (rnd := rnd) ⟨hw.identity, hc.1, hc.2⟩
        exact ⟨_, .request ht hf ho⟩
  | initKeyExchange a n baseSeed ratchetSeed sigRand =>
    cases hs : C.calcSig sigRand w.identityKeyPair.priv (5 :: C.genPub (C.genPriv baseSeed)) with
    | none => exact ⟨_, .askFails (.inl hs)⟩
    | some sig =>
      by_cases h1 : n + 1 < 2 ^ 32
      · by_cases h2 : (n + 1) * 32 + 1 < 2 ^ 32
        · exact ⟨_, .ask hs h2⟩
        · exact ⟨_, .askUnsendable hs h1 (by omega)⟩
      · exact ⟨_, .askFails (.inr (by omega))⟩

/-- **C59.** What a call does, in any reachable state, is what the case list says: it writes and returns or raises
exactly that. -/
theorem C59_exact (hC : C.Lawful) (w0 : World) (hw : w0.NoSessions) (hid : w0.identityKeyPair.pub.length = 32)
    (cs : List Call) (c : Call) (hc : Sized c) (o : Outcome Reply) :
    Does (Call.after w0 cs) c o ↔ c.run (Call.after w0 cs) = o := by
  have hr := reached hC w0 hw hid cs
  constructor
  · exact does_run hC hr hc
  · intro h
    obtain ⟨o', ho⟩ := does_exists hC hr c hc
    rw [← h, does_run hC hr hc ho]
    exact ho

/-- **C59.** The cases exclude each other and leave nothing out. -/
theorem C59_one_outcome (hC : C.Lawful) (w0 : World) (hw : w0.NoSessions) (hid : w0.identityKeyPair.pub.length = 32)
    (cs : List Call) (c : Call) (hc : Sized c) :
    ∃ o, Does (Call.after w0 cs) c o ∧ ∀ o', Does (Call.after w0 cs) c o' → o' = o := by
  refine ⟨_, (C59_exact hC w0 hw hid cs c hc _).2 rfl, fun o' h => ?_⟩
  exact ((C59_exact hC w0 hw hid cs c hc o').1 h).symm

/-- What the calls of a history did, one after another. -/
def outcomes : World → List Call → List (Outcome Reply)
  | _, [] => []
  | w, c :: cs => c.run w :: outcomes (c.next w) cs

theorem runs_iff (hC : C.Lawful) (w0 : World) (hw : w0.NoSessions) (hid : w0.identityKeyPair.pub.length = 32)
    (cs : List Call) : ∀ (ds : List Call), (∀ c ∈ ds, Sized c) → ∀ (os : List (Outcome Reply)) (w' : World),
    Runs (Call.after w0 cs) ds os w' ↔
      os = outcomes (Call.after w0 cs) ds ∧ w' = Call.after w0 (cs ++ ds) := by
  intro ds
  induction ds generalizing cs with
  | nil =>
    intro _ os w'
    rw [List.append_nil]
    constructor
    · intro h
      cases h
      exact ⟨rfl, rfl⟩
    · rintro ⟨rfl, rfl⟩
      exact .nil
  | cons d ds ih =>
    intro hs os w'
    have hnext : Call.after w0 (cs ++ [d]) = d.next (Call.after w0 cs) := by
      unfold Call.after
      rw [List.foldl_append]
      rfl
    have ih := ih (cs ++ [d]) (fun c hc => hs c (List.mem_cons_of_mem _ hc))
    rw [hnext, List.append_assoc] at ih
    constructor
    · intro h
      cases h with
      | cons h1 h2 =>
        have e := (C59_exact hC w0 hw hid cs d (hs d (List.mem_cons_self ..)) _).1 h1
        subst e
        obtain ⟨e1, e2⟩ := (ih _ _).1 h2
        exact ⟨by rw [e1]; rfl, e2⟩
    · rintro ⟨rfl, rfl⟩
      exact .cons ((C59_exact hC w0 hw hid cs d (hs d (List.mem_cons_self ..)) _).2 rfl) ((ih _ _).2 ⟨rfl, rfl⟩)

/-- **C59.** Whole histories: the outcomes of all calls and the stores at the end are exactly those that the case list
allows, and there is one such list of outcomes. -/
theorem C59_history (hC : C.Lawful) (w0 : World) (hw : w0.NoSessions) (hid : w0.identityKeyPair.pub.length = 32)
    (cs : List Call) (hs : ∀ c ∈ cs, Sized c) (os : List (Outcome Reply)) (w' : World) :
    Runs w0 cs os w' ↔ os = outcomes w0 cs ∧ w' = Call.after w0 cs :=
  runs_iff hC w0 hw hid [] cs hs os w'

end

section
attribute [local instance] toy
open Example Spec

/-- A history of Alice with six calls: a bundle, two messages, a reply, a second reading of it, and a key exchange. -/
def Example.aliceCalls : List Call :=
  [.processBundle bobAddr bobBundle (key 41) (key 42), .encrypt bobAddr [104, 105],
   .decryptMsg bobAddr replyMsg (key 43) (fun _ => key 44), .decryptMsg bobAddr replyMsg (key 43) (fun _ => key 44),
   .encrypt bobAddr [], .initKeyExchange bobAddr 7 (key 61) (key 62) (List.replicate 64 3)]

/-- `C59_history`: its hypotheses hold for that history, and the specification says what it does. -/
example : ∃ os w', Runs alice0 aliceCalls os w' :=
  ⟨_, _, (C59_history toy_lawful alice0 (fun _ => rfl) (by decide +kernel) aliceCalls
    (by
      intro c hc
      simp only [aliceCalls, List.mem_cons, List.not_mem_nil, or_false] at hc
      rcases hc with rfl | rfl | rfl | rfl | rfl | rfl
      · trivial
      · exact (by decide : 2 < 2 ^ 62)
      · trivial
      · trivial
      · exact (by decide : 0 < 2 ^ 62)
      · exact ⟨by decide +kernel, by decide +kernel⟩) _ _).2 ⟨rfl, rfl⟩⟩

/-- The replies in that history. -/
example : ((outcomes alice0 aliceCalls).map fun o => match o.result with
    | .ok (.plaintext p) => some p | .ok _ => some [] | .error e => if e = .duplicateMessage then none else some [0]) =
    [some [], some [], some [121, 111], none, some [], some []] := by decide +kernel

end
end Axolotl
