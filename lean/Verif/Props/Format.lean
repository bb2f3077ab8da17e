import Verif.Spec.Format
import Verif.Proofs.Shape
import Verif.Proofs.KeySchedule
import Verif.Proofs.GroupSteps
import Verif.Props.Group
import Verif.Props.Records
import Verif.Props.Session
import Verif.Example

/-! # C53, C54: the exact bytes sent, and the keys and cipher they are made with -/

namespace Axolotl
open Spec Wire ByteUtil

/-! ## Encoding -/

theorem encVarintF_leb (f n : Nat) (h : n < 128 ^ f) : encVarintF f n = leb n ∨ f = 0 := by
  induction f generalizing n with
  | zero => exact .inr rfl
  | succ f ih =>
    left
    unfold encVarintF
    rw [leb]
    split
    · rfl
    · rename_i hn
      have h1 : n / 128 < 128 ^ f := by
        rw [Nat.pow_succ] at h
        omega
      rcases ih (n / 128) h1 with h2 | h2
      · rw [h2]
      · subst h2
        simp at h
        omega

theorem encVarint_leb {n : Nat} (h : n < 2 ^ 64) : encVarint n = leb n := by
  rcases encVarintF_leb 10 n (by omega) with h1 | h1
  · exact h1
  · cases h1

theorem leb_small {n : Nat} (h : n < 128) : leb n = [UInt8.ofNat n] := by
  rw [leb, if_pos h]

theorem encFields_bytes {n : Nat} {b : Bytes} (hn : n * 8 + 2 < 128) (hb : b.length < 2 ^ 64) :
    encFields (putBytes n (some b)) = bytesField (UInt8.ofNat (n * 8 + 2)) b := by
  simp only [putBytes, Option.map_some, Option.toList_some, encFields, List.map_cons, List.map_nil, List.flatten_cons,
    List.flatten_nil, List.append_nil, encField]
  rw [encVarint_leb (by omega), encVarint_leb hb, leb_small hn]
  rfl

theorem encFields_num {n v : Nat} (hn : n * 8 < 128) (hv : v < 2 ^ 64) :
    encFields (putVarint n (some v)) = numField (UInt8.ofNat (n * 8)) v := by
  simp only [putVarint, Option.map_some, Option.toList_some, encFields, List.map_cons, List.map_nil, List.flatten_cons,
    List.flatten_nil, List.append_nil, encField]
  rw [encVarint_leb (by omega), encVarint_leb hv, leb_small hn]
  rfl

/-! ## The body cipher -/

section
variable [C : Crypto]

omit C in
theorem block_append_zero {a b : Bytes} (h : a.length = 16) : block (a ++ b) 0 = a := by
  unfold block
  rw [Nat.mul_zero, List.drop_zero, ← h, List.take_left]

omit C in
theorem block_append_succ {a b : Bytes} (h : a.length = 16) (i : Nat) : block (a ++ b) (i + 1) = block b i := by
  unfold block
  have : 16 * (i + 1) = a.length + 16 * i := by omega
  rw [this, List.drop_append, List.drop_of_length_le (by omega), List.nil_append, Nat.add_sub_cancel_left]

omit C in
theorem block_drop (d : Bytes) (i : Nat) : block (d.drop 16) i = block d (i + 1) := by
  unfold block
  rw [List.drop_drop]
  congr 2
  omega

omit C in
theorem chained_append {iv a b : Bytes} (h : a.length = 16) (i : Nat) : chained iv (a ++ b) (i + 1) = chained a b i := by
  cases i with
  | zero => exact block_append_zero h
  | succ i => exact block_append_succ h i

theorem cbcEnc_blocks (hC : C.Lawful) (key : Bytes) (n : Nat) (prev d : Bytes) (hp : prev.length = 16)
    (hd : d.length = 16 * n) (i : Nat) (hi : i < n) :
    block (AES.cbcEnc key n prev d) i =
      C.aesEnc key (xor16 (chained prev (AES.cbcEnc key n prev d) i) (block d i)) := by
  induction n generalizing prev d i with
  | zero => omega
  | succ n ih =>
    have ht : (d.take 16).length = 16 := by rw [List.length_take]; omega
    have hc : (C.aesEnc key (AES.xorB prev (d.take 16))).length = 16 :=
      hC.aes_len _ _ (by rw [AES.xorB_length]; omega)
    unfold AES.cbcEnc
    cases i with
    | zero =>
      rw [block_append_zero hc]
      simp only [chained, block, Nat.mul_zero, List.drop_zero]
      rfl
    | succ i =>
      simp only
      rw [block_append_succ hc, chained_append hc, ih _ _ hc (by rw [List.length_drop]; omega) i (by omega), block_drop]

/-- What the message cipher produces is AES-CBC of the padded plaintext. -/
theorem aes_cbc (hC : C.Lawful) {key iv p ct : Bytes} (h : AES.encrypt key iv p = .ok ct) : CbcEncryption key iv p ct := by
  unfold AES.encrypt at h
  split at h
  · rename_i hv
    have hiv : iv.length = 16 := by
      unfold AES.validParams at hv
      simp only [Bool.and_eq_true, beq_iff_eq] at hv
      exact hv.2
    have hl : (AES.pad p).length = 16 * ((AES.pad p).length / 16) := by
      have := AES.pad_length p
      omega
    have h := Except.ok.inj h
    subst h
    have hlen := AES.cbcEnc_length hC key ((AES.pad p).length / 16) iv (AES.pad p) hiv hl
    refine ⟨?_, ?_⟩
    · show _ = (AES.pad p).length
      omega
    · intro i hi
      exact cbcEnc_blocks hC key _ iv (AES.pad p) hiv hl i (by omega)
  · cases h

theorem cbcDec_blocks (hC : C.Lawful) (key : Bytes) (n : Nat) (prev d : Bytes) (hp : prev.length = 16)
    (hd : d.length = 16 * n) : (AES.cbcDec key n prev d).length = 16 * n ∧ ∀ i, i < n →
    block (AES.cbcDec key n prev d) i = xor16 (chained prev d i) (C.aesDec key (block d i)) := by
  induction n generalizing prev d with
  | zero => exact ⟨rfl, by intro i hi; omega⟩
  | succ n ih =>
    have ht : (d.take 16).length = 16 := by rw [List.length_take]; omega
    have hc : (AES.xorB prev (C.aesDec key (d.take 16))).length = 16 := by
      rw [AES.xorB_length, hC.aes_dec_len _ _ ht]; omega
    obtain ⟨h1, h2⟩ := ih (d.take 16) (d.drop 16) ht (by rw [List.length_drop]; omega)
    unfold AES.cbcDec
    refine ⟨by rw [List.length_append, h1, hc]; omega, ?_⟩
    intro i hi
    cases i with
    | zero =>
      rw [block_append_zero hc]
      simp only [chained, block, Nat.mul_zero, List.drop_zero]
      rfl
    | succ i =>
      rw [block_append_succ hc, h2 i (by omega), block_drop]
      congr 1
      have := chained_append (iv := prev) (a := d.take 16) (b := d.drop 16) ht i
      rw [List.take_append_drop] at this
      exact this.symm

/-- What decryption returns is the AES-CBC decryption with the padding removed. -/
theorem aes_cbc_dec (hC : C.Lawful) {key iv p ct : Bytes} (h : AES.decrypt key iv ct = .ok p) :
    CbcDecryption key iv ct p := by
  unfold AES.decrypt at h
  split at h
  · rename_i hv
    have hiv : iv.length = 16 := by
      unfold AES.validParams at hv
      simp only [Bool.and_eq_true, beq_iff_eq] at hv
      exact hv.2
    split at h
    · rename_i hm
      have hl : ct.length = 16 * (ct.length / 16) := by omega
      obtain ⟨h1, h2⟩ := cbcDec_blocks hC key (ct.length / 16) iv ct hiv hl
      have hpad : padded p = AES.cbcDec key (ct.length / 16) iv ct := by
        generalize AES.cbcDec key (ct.length / 16) iv ct = d at h h1
        unfold AES.unpad at h
        split at h
        · cases h
        · rename_i v _
          simp only at h
          split at h
          · rename_i hn
            obtain ⟨n1, n2, n3, n4⟩ := hn
            have h := Except.ok.inj h
            subst h
            have hlen : (d.take (d.length - v.toNat)).length = d.length - v.toNat := by rw [List.length_take]; omega
            have e : 16 - (d.take (d.length - v.toNat)).length % 16 = v.toNat := by rw [hlen]; omega
            unfold padded
            rw [e]
            have ev : UInt8.ofNat v.toNat = v := by simp
            rw [ev, ← n4, List.take_append_drop]
          · cases h
      refine ⟨by rw [hpad, h1]; omega, ?_⟩
      intro i hi
      rw [hpad]
      exact h2 i (by omega)
    · cases h
  · cases h

/-- **C54.** The body cipher is AES-CBC with PKCS7 padding, block by block, in both directions. -/
theorem C54_cipher (hC : C.Lawful) (key iv p ct : Bytes) :
    (AES.encrypt key iv p = .ok ct → CbcEncryption key iv p ct) ∧
    (AES.decrypt key iv ct = .ok p → CbcDecryption key iv ct p) :=
  ⟨aes_cbc hC, aes_cbc_dec hC⟩

/-! ## The bytes sent -/

omit C in
theorem padded_length (p : Bytes) : (padded p).length ≤ p.length + 16 := by
  unfold padded
  simp only [List.length_append, List.length_replicate]
  omega

omit C in
theorem decodePoint_KeyOf {o : Option Bytes} {k : ECPub} (h : Curve.decodePoint (o.getD []) = .ok k) : KeyOf o k := by
  obtain ⟨r, h1, h2⟩ := decodePoint_ok h
  cases o with
  | none => cases h1
  | some b => exact ⟨r, congrArg some h1, h2⟩

omit C in
theorem Spec.KeyOf.length_le {o : Option Bytes} {k : ECPub} (h : KeyOf o k) : k.length ≤ 32 := by
  obtain ⟨x, _, rfl⟩ := h
  rw [List.length_take]
  omega

omit C in
theorem sendRatchet_eq {s : SessionState} {k : ECPub} (h : SessionState.getSenderRatchetKey s = .ok k) :
    KeyOf (sendRatchet s) k := by
  unfold SessionState.getSenderRatchetKey at h
  have := decodePoint_KeyOf h
  unfold sendRatchet
  unfold SessionState.senderChainD at this
  cases hs : s.senderChain with
  | none =>
    rw [hs] at this
    obtain ⟨x, hx, _⟩ := this
    cases hx
  | some c =>
    rw [hs] at this
    exact this

omit C in
theorem serializePoint_cons (k : ECPub) : Curve.serializePoint k = 5 :: k := rfl

/-- The bytes of a version-3 session message. -/
theorem whisper_bytes (hlen : ∀ k m, (C.hmac k m).length = 32) {mk : Bytes} {e : ECPub} {n pc : Nat} {ct : Bytes}
    {a b : ECPub} {m : WhisperMessage} (h : WhisperMessage.create 3 mk e n pc ct a b = .ok m)
    (he : e.length ≤ 32) (hct : ct.length < 2 ^ 63) :
    m.serialized = sessionMessage e n pc ct ++
      (C.hmac mk ((5 :: a) ++ (5 :: b) ++ sessionMessage e n pc ct)).take 8 := by
  unfold WhisperMessage.create at h
  obtain ⟨c', h1, h⟩ := bind_eq_ok.1 h
  obtain ⟨p', h2, h⟩ := bind_eq_ok.1 h
  obtain ⟨e1, l1⟩ := chkU32_eq_ok.1 h1
  obtain ⟨e2, l2⟩ := chkU32_eq_ok.1 h2
  have e1 : c' = n := by omega
  have e2 : p' = pc := by omega
  subst e1 e2
  have h := Except.ok.inj h
  have hv : intsToByteHighAndLow 3 CiphertextMessage.CURRENT_VERSION = 0x33 := by decide
  have hb : serializeWith WhisperMessageP.toFields
      { ratchetKey := some (Curve.serializePoint e), counter := some c',
        previousCounter := some p', ciphertext := some ct } =
      bytesField 0x0A (5 :: e) ++ numField 0x10 c' ++ numField 0x18 p' ++ bytesField 0x22 ct := by
    unfold serializeWith WhisperMessageP.toFields
    simp only [encFields_append]
    rw [encFields_bytes (by decide) (by rw [serializePoint_length]; omega), encFields_num (by decide) (by omega),
      encFields_num (by decide) (by omega), encFields_bytes (by decide) (by omega)]
    rfl
  rw [hb, hv] at h
  rw [← h]
  simp only [WhisperMessage.getMac, ge_iff_le, Nat.le_refl, if_true]
  rw [trim_eq_take (by rw [hlen]; decide)]
  rfl

omit C in
theorem pkCreate_serialized {v reg : Nat} {pk : Option Nat} {spk : Int} {bk ik : ECPub} {m : WhisperMessage}
    {pm : PreKeyWhisperMessage} (h : PreKeyWhisperMessage.create v reg pk spk bk ik m = .ok pm) :
    pm.serialized = intsToByteHighAndLow v CiphertextMessage.CURRENT_VERSION ::
      serializeWith PreKeyWhisperMessageP.toFields
        { signedPreKeyId := some spk.toNat, baseKey := some (Curve.serializePoint bk),
          identityKey := some (Curve.serializePoint ik), message := some m.serialized,
          registrationId := some reg, preKeyId := pk } ∧
    (0 ≤ spk ∧ spk.toNat < 2 ^ 32) ∧ reg < 2 ^ 32 ∧ ∀ i, pk = some i → i < 2 ^ 32 := by
  unfold PreKeyWhisperMessage.create at h
  obtain ⟨spk', t1, h⟩ := bind_eq_ok.1 h
  obtain ⟨rg, t2, h⟩ := bind_eq_ok.1 h
  rw [chkU32_eq_ok] at t1 t2
  have e1 : spk' = spk.toNat := by omega
  have e2 : rg = reg := by omega
  rw [e1, e2] at h
  cases pk with
  | none =>
    simp only [ok_bind] at h
    rw [← Except.ok.inj h]
    exact ⟨rfl, ⟨by omega, by omega⟩, by omega, fun i hi => by cases hi⟩
  | some i =>
    simp only at h
    obtain ⟨n, t3, h⟩ := bind_eq_ok.1 h
    simp only [ok_bind] at h
    rw [chkU32_eq_ok] at t3
    have e3 : n = i := by omega
    rw [e3] at h
    rw [← Except.ok.inj h]
    exact ⟨rfl, ⟨by omega, by omega⟩, by omega, fun j hj => by cases hj; omega⟩

omit C in
theorem prekey_bytes {reg : Nat} {pid : Option Nat} {sid : Int} {bk ik : ECPub} {m : WhisperMessage}
    {pm : PreKeyWhisperMessage} (h : PreKeyWhisperMessage.create 3 reg pid sid bk ik m = .ok pm)
    (hb : bk.length ≤ 32) (hi : ik.length ≤ 32) (hm : m.serialized.length < 2 ^ 64) :
    pm.serialized = preKeyMessage pid bk ik m.serialized reg sid.toNat ∧ 0 ≤ sid := by
  obtain ⟨h, ⟨h0, h1⟩, h2, h3⟩ := pkCreate_serialized h
  have hv : intsToByteHighAndLow 3 CiphertextMessage.CURRENT_VERSION = 0x33 := by decide
  refine ⟨?_, h0⟩
  rw [h, hv]
  unfold serializeWith PreKeyWhisperMessageP.toFields preKeyMessage
  simp only [encFields_append]
  rw [encFields_bytes (by decide) (by rw [serializePoint_length]; omega),
    encFields_bytes (by decide) (by rw [serializePoint_length]; omega), encFields_bytes (by decide) (by omega),
    encFields_num (by decide) (by omega), encFields_num (by decide) (by omega)]
  cases pid with
  | none => rfl
  | some i =>
    rw [encFields_num (by decide) (by have := h3 i rfl; omega)]
    rfl

omit C in
theorem leb_length (f : Nat) : ∀ n, n < 128 ^ f → (leb n).length ≤ f ∨ f = 0 := by
  induction f with
  | zero => exact fun n _ => .inr rfl
  | succ f ih =>
    intro n h
    left
    rw [leb]
    split
    · simp
    · rename_i hn
      have h1 : n / 128 < 128 ^ f := by
        rw [Nat.pow_succ] at h
        omega
      rcases ih (n / 128) h1 with h2 | h2
      · simp only [List.length_cons]; omega
      · subst h2
        simp at h
        omega

omit C in
theorem leb_le {n : Nat} (h : n < 2 ^ 64) : (leb n).length ≤ 10 := by
  rcases leb_length 10 n (by omega) with h1 | h1
  · exact h1
  · cases h1

omit C in
theorem sessionMessage_length {e : ECPub} {n pc : Nat} {ct : Bytes} (he : e.length ≤ 32) (hn : n < 2 ^ 32)
    (hp : pc < 2 ^ 32) (hc : ct.length < 2 ^ 63) : (sessionMessage e n pc ct).length ≤ ct.length + 100 := by
  unfold sessionMessage bytesField numField
  have h1 := leb_le (n := (5 :: e).length) (by simp only [List.length_cons]; omega)
  have h2 := leb_le (n := n) (by omega)
  have h3 := leb_le (n := pc) (by omega)
  have h4 := leb_le (n := ct.length) (by omega)
  simp only [List.length_cons, List.length_append] at h1 ⊢
  omega

/-- **C53.** The bytes `SessionCipher.encrypt` returns, for a version-3 session. -/
theorem C53_encrypt (hC : C.Lawful) (w : World) (a : Address) (pt : Bytes) (c : Ciphertext)
    (h : (SessionCipher.encrypt w a pt).result = .ok c)
    (hv : (w.loadSession a).sessionState.sessionVersion = some 3) (hpt : pt.length < 2 ^ 62) :
    let s := (w.loadSession a).sessionState
    ∃ ratchetKey me you ct, KeyOf (sendRatchet s) ratchetKey ∧ KeyOf s.localIdentityPublic me ∧
      KeyOf s.remoteIdentityPublic you ∧
      CbcEncryption (cipherKeyOf (sendKey s)) (ivOf (sendKey s)) pt ct ∧
      let body := sessionMessage ratchetKey (sendCounter s) (s.previousCounter.getD 0) ct
      let message := body ++ (C.hmac (macKeyOf (sendKey s)) ((5 :: me) ++ (5 :: you) ++ body)).take 8
      match s.pendingPreKey with
      | none => c.getType = 2 ∧ c.serialize = message
      | some p => ∃ baseKey signedId, KeyOf p.baseKey baseKey ∧ p.signedPreKeyId.getD 0 = Int.ofNat signedId ∧
          c.getType = 3 ∧
          c.serialize = preKeyMessage p.preKeyId baseKey me message (s.localRegistrationId.getD 0) signedId := by
  unfold SessionCipher.encrypt at h
  have h := Outcome.ofRes_ok h
  simp only at h ⊢
  generalize (w.loadSession a).sessionState = s at h hv ⊢
  obtain ⟨⟨c', s'⟩, he, h⟩ := bind_eq_ok.1 h
  obtain ⟨_, rfl⟩ := Prod.mk.inj (Except.ok.inj h)
  obtain ⟨kdf, eph, ct, lid, rid, m, h1, h2, h3, h4, h5, h6, h7, h8, h9, h10, _⟩ := SessionCipher.ews_ok he
  have hkdf : kdf = .v3 := (Except.ok.inj ((createFor_three hv).symm.trans h1)).symm
  have hv' : SessionState.getSessionVersion s = 3 := by unfold SessionState.getSessionVersion; rw [hv]; rfl
  subst hkdf
  rw [getMessageKeys_v3 hC.hmac_len _ rfl] at h3 h6
  simp only at h3 h6
  rw [hv'] at h6 h10
  rw [sendKey_eq, sendCounter_eq]
  have k1 := sendRatchet_eq h2
  have k2 := decodePoint_KeyOf h4
  have k3 := decodePoint_KeyOf h5
  have k4 := aes_cbc hC h3
  have hct : ct.length < 2 ^ 62 + 16 := by
    have := padded_length pt
    rw [k4.length]
    omega
  have hw := whisper_bytes hC.hmac_len h6 k1.length_le (by omega)
  refine ⟨eph, lid, rid, ct, k1, k2, k3, k4, ?_⟩
  unfold SessionState.getPreviousCounter at hw h6
  cases hp : s.pendingPreKey with
  | none =>
    obtain rfl := h9 (by unfold SessionState.hasUnacknowledgedPreKeyMessage; rw [hp]; rfl)
    exact ⟨rfl, hw⟩
  | some p =>
    obtain ⟨items, pm, g1, g2, rfl⟩ := h10 (by unfold SessionState.hasUnacknowledgedPreKeyMessage; rw [hp]; rfl)
    unfold SessionState.getUnacknowledgedPreKeyMessageItems at g1
    rw [hp] at g1
    obtain ⟨bk, g3, g1⟩ := bind_eq_ok.1 g1
    obtain rfl := Except.ok.inj g1
    have k5 := decodePoint_KeyOf g3
    have hsz : m.serialized.length < 2 ^ 64 := by
      rw [hw]
      unfold WhisperMessage.create at h6
      obtain ⟨_, q1, h6⟩ := bind_eq_ok.1 h6
      obtain ⟨_, q2, _⟩ := bind_eq_ok.1 h6
      obtain ⟨q3, q4⟩ := chkU32_eq_ok.1 q1
      obtain ⟨q5, q6⟩ := chkU32_eq_ok.1 q2
      have := sessionMessage_length (n := SessionState.sendIndex s) (pc := s.previousCounter.getD 0) (ct := ct)
        k1.length_le (by omega) (by omega) (by omega)
      simp only [List.length_append, List.length_take]
      omega
    obtain ⟨g4, g5⟩ := prekey_bytes g2 k5.length_le k2.length_le hsz
    refine ⟨bk, (p.signedPreKeyId.getD 0).toNat, k5, ?_, rfl, ?_⟩
    · exact (Int.toNat_of_nonneg g5).symm
    · show pm.serialized = _
      rw [g4, hw]
      rfl

/-- **C53, groups.** The bytes `GroupCipher.encrypt` returns. -/
theorem C53_group_encrypt (hC : C.Lawful) (g : GroupStore) (n : SenderKeyName) (pt rand b : Bytes)
    (h : (GroupCipher.encrypt g n pt rand).result = .ok b) (hpt : pt.length < 2 ^ 62) :
    ∃ s ct sig, sendingState (g n) = some s ∧
      CbcEncryption (groupCipherKey (groupSeed (chainKeyOf s))) (groupIv (groupSeed (chainKeyOf s))) pt ct ∧
      C.calcSig rand ((s.senderSigningKey.getD {}).priv.getD [])
        (groupMessage (s.senderKeyId.getD 0) (iterationOf s) ct) = some sig ∧
      b = groupMessage (s.senderKeyId.getD 0) (iterationOf s) ct ++ sig := by
  obtain ⟨s, ct, m, h1, h2, h3, rfl, _, _⟩ := GroupCipher.encrypt_ok h
  rw [senderMessageKey_eq hC.hmac_len] at h2
  have k4 := aes_cbc hC h2
  have hct : ct.length < 2 ^ 62 + 16 := by
    have := padded_length pt
    rw [k4.length]
    omega
  unfold SenderKeyMessage.create at h3
  obtain ⟨i', q1, h3⟩ := bind_eq_ok.1 h3
  obtain ⟨j', q2, h3⟩ := bind_eq_ok.1 h3
  obtain ⟨sig, q3, h3⟩ := bind_eq_ok.1 h3
  obtain ⟨e1, l1⟩ := chkU32_eq_ok.1 q1
  obtain ⟨e2, l2⟩ := chkU32_eq_ok.1 q2
  have e1 : i' = SenderKeyState.getKeyId s := by omega
  have e2 : j' = iterationOf s := by omega
  subst e1 e2
  have hb : (intsToByteHighAndLow CiphertextMessage.CURRENT_VERSION CiphertextMessage.CURRENT_VERSION ::
      serializeWith SenderKeyMessageP.toFields
        { id := some (SenderKeyState.getKeyId s), iteration := some (iterationOf s), ciphertext := some ct }) =
      groupMessage (s.senderKeyId.getD 0) (iterationOf s) ct := by
    have hv : intsToByteHighAndLow CiphertextMessage.CURRENT_VERSION CiphertextMessage.CURRENT_VERSION = 0x33 := by
      decide
    rw [hv]
    unfold serializeWith SenderKeyMessageP.toFields groupMessage
    simp only [encFields_append]
    rw [encFields_num (by decide) (by omega), encFields_num (by decide) (by omega),
      encFields_bytes (by decide) (by omega)]
    rfl
  rw [hb] at q3
  rw [← List.cons_append, hb] at h3
  refine ⟨s, ct, sig, h1, k4, ?_, by rw [← Except.ok.inj h3]⟩
  unfold Curve.calculateSignature at q3
  split at q3
  · rename_i x hx
    obtain rfl := Except.ok.inj q3
    exact hx
  · cases q3

omit C in
theorem distribution_bytes {id it : Nat} {ck : Bytes} {pub : ECPub} {m : SenderKeyDistributionMessage}
    (h : SenderKeyDistributionMessage.create id it ck pub = .ok m) (hp : pub.length ≤ 32) (hl : ck.length < 2 ^ 64) :
    m.serialized = distributionMessage id it ck pub := by
  unfold SenderKeyDistributionMessage.create at h
  obtain ⟨i', q3, h⟩ := bind_eq_ok.1 h
  obtain ⟨j', q4, h⟩ := bind_eq_ok.1 h
  obtain ⟨e1, l1⟩ := chkU32_eq_ok.1 q3
  obtain ⟨e2, l2⟩ := chkU32_eq_ok.1 q4
  have e1 : i' = id := by omega
  have e2 : j' = it := by omega
  subst e1 e2
  have hv : intsToByteHighAndLow CiphertextMessage.CURRENT_VERSION CiphertextMessage.CURRENT_VERSION = 0x33 := by
    decide
  have hb : serializeWith SenderKeyDistributionMessageP.toFields
      { id := some i', iteration := some j', chainKey := some ck, signingKey := some (Curve.serializePoint pub) } =
      numField 0x08 i' ++ numField 0x10 j' ++ bytesField 0x1A ck ++ bytesField 0x22 (5 :: pub) := by
    unfold serializeWith SenderKeyDistributionMessageP.toFields
    simp only [encFields_append]
    rw [encFields_num (by decide) (by omega), encFields_num (by decide) (by omega),
      encFields_bytes (by decide) (by omega), encFields_bytes (by decide) (by rw [serializePoint_length]; omega)]
    rfl
  rw [hb, hv] at h
  rw [← Except.ok.inj h]
  rfl

theorem distributionOf_bytes {r : SenderKeyRecord} {m : SenderKeyDistributionMessage}
    (hr : GroupSessionBuilder.distributionOf r = .ok m) :
    ∃ s signingKey, sendingState r = some s ∧ KeyOf (s.senderSigningKey.getD {}).pub signingKey ∧
      ((chainKeyOf s).length < 2 ^ 64 →
        m.serialized = distributionMessage (s.senderKeyId.getD 0) (iterationOf s) (chainKeyOf s) signingKey) := by
  unfold GroupSessionBuilder.distributionOf at hr
  obtain ⟨s, q1, hr⟩ := bind_eq_ok.1 hr
  obtain ⟨pub, q2, hr⟩ := bind_eq_ok.1 hr
  have k := decodePoint_KeyOf q2
  refine ⟨s, pub, SenderKeyRecord.getFirstState_ok.1 q1, k, fun hl => ?_⟩
  rw [chainKeyOf_eq, position_eq] at hr
  unfold SenderKeyState.getKeyId at hr
  exact distribution_bytes hr k.length_le hl

omit C in
theorem wrapAssert_ok {α : Type} {x : Res α} {m : α} (h : GroupSessionBuilder.wrapAssert x = .ok m) : x = .ok m := by
  unfold GroupSessionBuilder.wrapAssert at h
  split at h
  · cases h
  · cases h
  · exact h

omit C in
theorem storeCreated_distribution {g : GroupStore} {n : SenderKeyName} {x : Res SenderKeyRecord}
    {m : SenderKeyDistributionMessage} (h : (GroupSessionBuilder.storeCreated x).result = .ok m) :
    GroupSessionBuilder.distributionOf ((GroupSessionBuilder.storeCreated x).final g n n) = .ok m := by
  cases x with
  | error e => cases wrapAssert_ok (x := .error e) h
  | ok r =>
    have e : (GroupSessionBuilder.storeCreated (.ok r)).final g n n = r := by
      simp only [GroupSessionBuilder.storeCreated, GOutcome.final, GroupStore.store, if_true]
    rw [e]
    exact wrapAssert_ok h

/-- What `create` returns describes the first state of the record it leaves. -/
theorem create_distribution {g : GroupStore} {n : SenderKeyName} {rnd : GroupSessionBuilder.CreateRand}
    {m : SenderKeyDistributionMessage} (h : (GroupSessionBuilder.create g n rnd).result = .ok m) :
    GroupSessionBuilder.distributionOf ((GroupSessionBuilder.create g n rnd).final g n n) = .ok m := by
  unfold GroupSessionBuilder.create at h ⊢
  by_cases he : (g n).isEmpty = true
  · rw [if_pos he] at h ⊢
    exact storeCreated_distribution h
  · rw [if_neg he] at h ⊢
    exact wrapAssert_ok h

/-- **C53, group keys.** The bytes of the message announcing a sender key. -/
theorem C53_distribution (g : GroupStore) (n : SenderKeyName) (rnd : GroupSessionBuilder.CreateRand)
    (m : SenderKeyDistributionMessage) (h : (GroupSessionBuilder.create g n rnd).result = .ok m) :
    ∃ s signingKey, sendingState ((GroupSessionBuilder.create g n rnd).final g n n) = some s ∧
      KeyOf (s.senderSigningKey.getD {}).pub signingKey ∧
      ((chainKeyOf s).length < 2 ^ 64 →
        m.serialized = distributionMessage (s.senderKeyId.getD 0) (iterationOf s) (chainKeyOf s) signingKey) :=
  distributionOf_bytes (create_distribution h)

omit C in
theorem keyExchange_bytes {seq flags : Nat} {bk rk ik : ECPub} {sig : Bytes} {m : KeyExchangeMessage}
    (h : KeyExchangeMessage.create 3 seq flags bk sig rk ik = .ok m) (hf : flags < 32)
    (h1 : bk.length ≤ 32) (h2 : rk.length ≤ 32) (h3 : ik.length ≤ 32) (h4 : sig.length < 2 ^ 64) :
    m.serialized = keyExchangeMessage seq flags bk rk ik sig := by
  unfold KeyExchangeMessage.create at h
  obtain ⟨i, q, h⟩ := bind_eq_ok.1 h
  obtain ⟨e1, l1⟩ := chkU32_eq_ok.1 q
  have e1 : i = seq * 32 + flags := by
    have : i = seq <<< 5 ||| flags := by omega
    rw [this, ← Nat.shiftLeft_add_eq_or_of_lt (by omega : flags < 2 ^ 5), Nat.shiftLeft_eq]
  subst e1
  rw [← Except.ok.inj h]
  have hv : intsToByteHighAndLow 3 CiphertextMessage.CURRENT_VERSION = 0x33 := by decide
  show intsToByteHighAndLow 3 CiphertextMessage.CURRENT_VERSION :: serializeWith _ _ = _
  rw [hv]
  unfold serializeWith KeyExchangeMessageP.toFields keyExchangeMessage
  simp only [encFields_append, ge_iff_le, Nat.le_refl, if_true]
  rw [encFields_num (by decide) (by omega), encFields_bytes (by decide) (by rw [serializePoint_length]; omega),
    encFields_bytes (by decide) (by rw [serializePoint_length]; omega),
    encFields_bytes (by decide) (by rw [serializePoint_length]; omega), encFields_bytes (by decide) (by omega)]
  rfl

theorem calculateSignature_ok {r k m sig : Bytes} (h : Curve.calculateSignature r k m = .ok sig) :
    C.calcSig r k m = some sig := by
  unfold Curve.calculateSignature at h
  split at h
  · rename_i x hx
    obtain rfl := Except.ok.inj h
    exact hx
  · cases h

/-- **C53, key exchange.** The bytes of a key exchange request: sequence number one more than what was drawn, the
`initiate` flag, the two fresh public keys, our identity key and its signature of the base key. -/
theorem C53_request (hC : C.Lawful) (w : World) (a : Address) (rnd : Nat) (baseSeed ratchetSeed sigRand : Bytes)
    (hb : baseSeed.length = 32) (hr : ratchetSeed.length = 32) (hi : w.identityKeyPair.pub.length = 32)
    (m : KeyExchangeMessage)
    (h : (SessionBuilder.processInitKeyExchangeMessage w a rnd baseSeed ratchetSeed sigRand).result = .ok m) :
    ∃ sig, C.calcSig sigRand w.identityKeyPair.priv (5 :: C.genPub (C.genPriv baseSeed)) = some sig ∧
      m.serialized = keyExchangeMessage (rnd + 1) 1 (C.genPub (C.genPriv baseSeed)) (C.genPub (C.genPriv ratchetSeed))
        w.identityKeyPair.pub sig := by
  unfold SessionBuilder.processInitKeyExchangeMessage at h
  simp only at h
  split at h
  · cases h
  · rename_i sig r hs
    obtain ⟨sig', h1, hs⟩ := bind_eq_ok.1 hs
    obtain ⟨s', h2, hs⟩ := bind_eq_ok.1 hs
    obtain ⟨rfl, _⟩ := Prod.mk.inj (Except.ok.inj hs)
    have hsig := calculateSignature_ok h1
    refine ⟨sig', hsig, keyExchange_bytes h (by decide) ?_ ?_ (by omega) ?_⟩
    · exact Nat.le_of_eq (hC.genPub_len _ (hC.genPriv_len _ hb))
    · exact Nat.le_of_eq (hC.genPub_len _ (hC.genPriv_len _ hr))
    · rw [(hC.sig_size _ _ _ _ hsig).2]
      decide

/-- What a returned key exchange response consists of. -/
theorem processInitiate_response {w : World} {a : Address} {m resp : KeyExchangeMessage} {rnd : SessionBuilder.InitiateRand}
    (h : (SessionBuilder.processInitiate w a m rnd).result = .ok (some resp)) :
    ∃ flags identity base ratchet sig,
      ((w.loadSession a).sessionState.pendingKeyExchange = none ∧ flags = 2 ∧ identity = w.identityKeyPair ∧
        base = Curve.generateKeyPair rnd.baseSeed ∧ ratchet = Curve.generateKeyPair rnd.ratchetSeed ∨
       ∃ p, (w.loadSession a).sessionState.pendingKeyExchange = some p ∧ flags = 6 ∧
        KeyOf p.localIdentityKey identity.pub ∧ identity.priv = p.localIdentityKeyPrivate.getD [] ∧
        KeyOf p.localBaseKey base.pub ∧ base.priv = p.localBaseKeyPrivate.getD [] ∧
        KeyOf p.localRatchetKey ratchet.pub ∧ ratchet.priv = p.localRatchetKeyPrivate.getD []) ∧
      C.calcSig rnd.sigRand identity.priv (5 :: base.pub) = some sig ∧
      KeyExchangeMessage.create 3 m.sequence flags base.pub sig ratchet.pub identity.pub = .ok resp := by
  unfold SessionBuilder.processInitiate at h
  cases hs : SessionBuilder.processInitiateState w a m rnd with
  | error e => rw [hs] at h; cases h
  | ok y =>
    obtain ⟨r, flags, p⟩ := y
    rw [hs] at h
    simp only at h
    obtain ⟨sig, g1, h⟩ := bind_eq_ok.1 h
    obtain ⟨resp', g2, h⟩ := bind_eq_ok.1 h
    obtain rfl := Option.some.inj (Except.ok.inj h)
    have hv3 : ∀ s : SessionState, RatchetingSession.initializeSession {} p rnd.sendSeed = .ok s →
        SessionState.getSessionVersion s = 3 := by
      intro s hi
      have : s.sessionVersion = some 3 := (created_shape (.sym hi)).1
      unfold SessionState.getSessionVersion
      rw [this]
      rfl
    unfold SessionBuilder.processInitiateState at hs
    obtain ⟨ok, hok, hs⟩ := bind_eq_ok.1 hs
    split at hs
    · cases hs
    dsimp only at hs
    split at hs
    · rename_i hp
      simp only [ok_bind] at hs
      obtain ⟨s, h3, hs⟩ := bind_eq_ok.1 hs
      obtain ⟨u1, u2⟩ := Prod.mk.inj (Except.ok.inj hs)
      obtain ⟨u3, u4⟩ := Prod.mk.inj u2
      subst u1 u3 u4
      rw [archive_load_state] at h3
      have hv := hv3 s h3
      simp only [SessionRecord.setState, hv] at g2
      refine ⟨_, _, _, _, sig, .inl ⟨?_, rfl, rfl, rfl, rfl⟩, calculateSignature_ok g1, g2⟩
      unfold SessionState.hasPendingKeyExchange at hp
      cases hq : (w.loadSession a).sessionState.pendingKeyExchange with
      | none => rfl
      | some q => rw [hq] at hp; cases hp
    · rename_i hp
      obtain ⟨ik, q1, hs⟩ := bind_eq_ok.1 hs
      obtain ⟨bk, q2, hs⟩ := bind_eq_ok.1 hs
      obtain ⟨rk, q3, hs⟩ := bind_eq_ok.1 hs
      simp only [ok_bind] at hs
      obtain ⟨s, h3, hs⟩ := bind_eq_ok.1 hs
      obtain ⟨u1, u2⟩ := Prod.mk.inj (Except.ok.inj hs)
      obtain ⟨u3, u4⟩ := Prod.mk.inj u2
      subst u1 u3 u4
      rw [archive_load_state] at h3
      have hv := hv3 s h3
      simp only [SessionRecord.setState, hv] at g2
      cases hq : (w.loadSession a).sessionState.pendingKeyExchange with
      | none =>
        unfold SessionState.hasPendingKeyExchange at hp
        rw [hq] at hp
        exact absurd rfl hp
      | some q =>
        have hd : SessionState.pendingKED (w.loadSession a).sessionState = q := by
          unfold SessionState.pendingKED
          rw [hq]
          rfl
        unfold SessionState.getPendingKeyExchangeIdentityKey at q1
        unfold SessionState.getPendingKeyExchangeBaseKey at q2
        unfold SessionState.getPendingKeyExchangeRatchetKey at q3
        rw [hd] at q1 q2 q3
        obtain ⟨_, p1, e1⟩ := bind_eq_ok.1 q1
        obtain ⟨_, p2, e2⟩ := bind_eq_ok.1 q2
        obtain ⟨_, p3, e3⟩ := bind_eq_ok.1 q3
        obtain rfl := Except.ok.inj e1
        obtain rfl := Except.ok.inj e2
        obtain rfl := Except.ok.inj e3
        exact ⟨_, _, _, _, sig, .inr ⟨q, rfl, rfl, decodePoint_KeyOf p1, rfl, decodePoint_KeyOf p2, rfl,
          decodePoint_KeyOf p3, rfl⟩, calculateSignature_ok g1, g2⟩

/-- **C53, key exchange.** The bytes of the response to a request: the sequence number of the request, the `response` flag
(and the `simultaneous` flag if a request of ours was pending), our keys, and our identity's signature of the base key.
Without a pending request the keys are our identity and two fresh pairs; otherwise they are those of the pending request. -/
theorem C53_response (hC : C.Lawful) (w : World) (a : Address) (m resp : KeyExchangeMessage)
    (rnd : SessionBuilder.InitiateRand) (hb : rnd.baseSeed.length = 32) (hr : rnd.ratchetSeed.length = 32)
    (hi : w.identityKeyPair.pub.length = 32)
    (h : (SessionBuilder.processKeyExchangeMessage w a m rnd).result = .ok (some resp)) :
    ∃ identity base ratchet sig, C.calcSig rnd.sigRand identity.priv (5 :: base.pub) = some sig ∧
      match (w.loadSession a).sessionState.pendingKeyExchange with
      | none => identity = w.identityKeyPair ∧ base = Curve.generateKeyPair rnd.baseSeed ∧
          ratchet = Curve.generateKeyPair rnd.ratchetSeed ∧
          resp.serialized = keyExchangeMessage m.sequence 2 base.pub ratchet.pub identity.pub sig
      | some p => KeyOf p.localIdentityKey identity.pub ∧ identity.priv = p.localIdentityKeyPrivate.getD [] ∧
          KeyOf p.localBaseKey base.pub ∧ KeyOf p.localRatchetKey ratchet.pub ∧
          resp.serialized = keyExchangeMessage m.sequence 6 base.pub ratchet.pub identity.pub sig := by
  unfold SessionBuilder.processKeyExchangeMessage at h
  split at h
  · cases h
  split at h
  · obtain ⟨flags, identity, base, ratchet, sig, hk, hsig, hc⟩ := processInitiate_response h
    have hsl := (hC.sig_size _ _ _ _ hsig).2
    refine ⟨identity, base, ratchet, sig, hsig, ?_⟩
    rcases hk with ⟨k1, rfl, rfl, rfl, rfl⟩ | ⟨p, k1, rfl, k2, k3, k4, k5, k6, k7⟩
    · rw [k1]
      have hb' := hC.genPub_len _ (hC.genPriv_len _ hb)
      have hr' := hC.genPub_len _ (hC.genPriv_len _ hr)
      exact ⟨rfl, rfl, rfl, keyExchange_bytes hc (by decide) (Nat.le_of_eq hb') (Nat.le_of_eq hr') (Nat.le_of_eq hi)
        (by rw [hsl]; decide)⟩
    · rw [k1]
      exact ⟨k2, k3, k4, k6, keyExchange_bytes hc (by decide) k4.length_le k6.length_le k2.length_le (by rw [hsl]; decide)⟩
  · exfalso
    unfold SessionBuilder.processResponse at h
    simp only at h
    split at h
    · split at h <;> cases h
    · have h := Outcome.ofRes_ok h
      obtain ⟨_, _, h⟩ := bind_eq_ok.1 h
      obtain ⟨_, _, h⟩ := bind_eq_ok.1 h
      obtain ⟨_, _, h⟩ := bind_eq_ok.1 h
      obtain ⟨_, _, h⟩ := bind_eq_ok.1 h
      obtain ⟨_, _, h⟩ := bind_eq_ok.1 h
      split at h
      · cases h
      · cases (Prod.mk.inj (Except.ok.inj h)).2

/-! ## What is read -/

/-- The keys a successful decryption used are ones the state offers. -/
theorem dwss_keys (hC : C.Lawful) {s : SessionState} {m : WhisperMessage} {seed : Bytes}
    {pt : Bytes} {s' : SessionState} (h : SessionCipher.decryptWithSessionState s m seed = .ok (pt, s'))
    (hv : s.sessionVersion = some 3) :
    ∃ ck mk iv rid lid, MessageKey s m.senderRatchetKey m.counter ck mk iv ∧ KeyOf s.remoteIdentityPublic rid ∧
      KeyOf s.localIdentityPublic lid ∧ m.messageVersion = 3 ∧
      WhisperMessage.verifyMac m m.messageVersion rid lid mk = .ok () ∧ CbcDecryption ck iv m.ciphertext pt := by
  have hlen := hC.hmac_len
  obtain ⟨hsc, hver, ck, s1, mk, s2, rid, lid, h1, h2, h3, h4, h5, h6, h7⟩ := SessionCipher.dwss_ok h
  have h6 := aes_cbc_dec hC h6
  have hm3 : m.messageVersion = 3 := by rw [hver]; unfold SessionState.getSessionVersion; rw [hv]; rfl
  obtain ⟨c, j, hc, h2⟩ := SessionCipher.gocmk_ok h2
  have hs2 : ∃ c', s2 = SessionState.setChainAt s1 j c' := by
    rcases h2 with ⟨_, _, _, _, _, h⟩ | ⟨_, _, _, _, _, _, h⟩
    · exact ⟨_, h⟩
    · exact ⟨_, h⟩
  obtain ⟨c', hs2⟩ := hs2
  rcases SessionCipher.gocck_ok h1 with ⟨c1, j1, kdf, g1, g2, g3, g4⟩ | ⟨kdf, our, rk1, rk2, sck, g1, g2, g3, g4, g5, g6⟩
  · subst g4
    rw [g1] at hc
    obtain ⟨rfl, rfl⟩ := Prod.mk.inj (Option.some.inj (Except.ok.inj hc))
    obtain ⟨_, hcm, hck⟩ := SessionState.findChain_some g1
    have hcm := List.mem_of_getElem? hcm
    have hck := decodePoint_KeyOf hck
    rw [createFor_three hv] at g2
    obtain rfl := Except.ok.inj g2
    refine ⟨mk.cipherKey, mk.macKey, mk.iv, rid, lid, ?_, ?_, ?_, hm3, h5, h6⟩
    · rcases h2 with ⟨_, e, rest, ht, hmk, _⟩ | ⟨hle, _, _, hmk, _⟩
      · subst hmk
        obtain ⟨t1, t2⟩ := takeKey_mem ht
        exact .stored hcm hck t1 t2
      · subst hmk; subst g3
        rw [getMessageKeys_v3 hlen _ (by rw [ChainKey.iter_kdf]; rfl), iter_key]
        exact .ahead hcm hck hle rfl
    · rw [hs2] at h3; exact decodePoint_KeyOf h3
    · rw [hs2] at h4; exact decodePoint_KeyOf h4
  · obtain ⟨secret, hsec, e1, e2, e3⟩ := RootKey.createChain_ok g4
    rw [createFor_three hv] at g2
    obtain rfl := Except.ok.inj g2
    rw [createChain_v3 hlen] at g4
    cases hdh : C.dh our.priv m.senderRatchetKey with
    | none => rw [hdh] at g4; cases g4
    | some sec =>
    rw [hdh] at g4
    simp only at g4
    obtain ⟨g4, g4'⟩ := Prod.mk.inj (Except.ok.inj g4)
    subst g4; subst g4'
    refine ⟨mk.cipherKey, mk.macKey, mk.iv, rid, lid, ?_, ?_, ?_, hm3, h5, h6⟩
    · rcases h2 with ⟨hlt, _⟩ | ⟨hle, _, _, hmk, _⟩
      · exact absurd hlt (by simp)
      · subst hmk
        rw [getMessageKeys_v3 hlen _ (by rw [ChainKey.iter_kdf]), iter_key]
        simp only [Nat.sub_zero]
        unfold SessionState.getSenderRatchetKeyPair at g3
        obtain ⟨pub, _, g3⟩ := bind_eq_ok.1 g3
        obtain rfl := Except.ok.inj g3
        cases hsc' : s.senderChain with
        | none => unfold SessionState.hasSenderChain at hsc; rw [hsc'] at hsc; cases hsc
        | some c0 =>
          refine .ratchet hsc' ?_ rfl
          unfold SessionState.senderChainD at hdh
          rw [hsc'] at hdh
          exact hdh
    · rw [hs2, g6] at h3; exact decodePoint_KeyOf h3
    · rw [hs2, g6] at h4; exact decodePoint_KeyOf h4

/-- **C54, reading.** What `decryptMsg` returns is the AES-CBC decryption of the message's ciphertext under the cipher key and
IV of the position in the chain that its header names, one of the stored states offering them; and the MAC was made with the
MAC key of the same position. -/
theorem C54_decrypt (hC : C.Lawful) (w : World) (a : Address) (r : SessionRecord) (hr : w.sessions a = some r)
    (hv : ∀ s ∈ Spec.states r, s.senderChain.isSome → s.sessionVersion = some 3)
    (bs : Bytes) (m : WhisperMessage) (hp : WhisperMessage.parse bs = .ok m)
    (seed : Bytes) (seeds : Nat → Bytes) (pt : Bytes)
    (h : (SessionCipher.decryptMsg w a m seed seeds).result = .ok pt) :
    ∃ s ∈ Spec.states r, ∃ cipherKey macKey iv them me body mac,
      MessageKey s m.senderRatchetKey m.counter cipherKey macKey iv ∧
      KeyOf s.remoteIdentityPublic them ∧ KeyOf s.localIdentityPublic me ∧
      CbcDecryption cipherKey iv m.ciphertext pt ∧ bs = body ++ mac ∧ mac.length = 8 ∧
      mac = (C.hmac macKey ((5 :: them) ++ (5 :: me) ++ body)).take 8 := by
  have h0 := Outcome.ofRes_ok h
  split at h0
  · cases h0
  · obtain ⟨⟨pt', r'⟩, hd, h1⟩ := bind_eq_ok.1 h0
    obtain ⟨_, h2⟩ := Prod.mk.inj (Except.ok.inj h1)
    simp only at h2
    subst h2
    obtain ⟨s, hs, seed', s', hd⟩ := dwsr_state hd
    have hs : s ∈ Spec.states r := by
      unfold World.loadSession at hs
      rw [hr] at hs
      exact hs
    have hsc := (SessionCipher.dwss_ok hd).1
    obtain ⟨ck, mk, iv, rid, lid, g1, g2, g3, g4, g5, g6⟩ := dwss_keys hC hd (hv s hs hsc)
    obtain ⟨body, mac, f1, f2, f3⟩ := verifyMac_ok hC.hmac_len g5 (by omega)
    rw [parse_serialized hp] at f1
    exact ⟨s, hs, ck, mk, iv, rid, lid, body, mac, g1, g2, g3, g6, f1, f2, f3⟩

omit C in
theorem groupTake_mem {i : Nat} {x : SenderSeedS} : ∀ {l rest : List SenderSeedS},
    SenderKeyState.takeKey i l = some (x, rest) → x ∈ l ∧ x.iteration.getD 0 = i := by
  intro l
  induction l with
  | nil => intro rest h; cases h
  | cons k l ih =>
    intro rest h
    unfold SenderKeyState.takeKey at h
    split at h
    · rename_i hk
      obtain ⟨rfl, _⟩ := Prod.mk.inj (Option.some.inj h)
      exact ⟨List.mem_cons_self .., hk⟩
    · cases ht : SenderKeyState.takeKey i l with
      | none => rw [ht] at h; cases h
      | some p =>
        rw [ht] at h
        obtain ⟨h1, h2⟩ := Prod.mk.inj (Option.some.inj h)
        obtain ⟨q1, q2⟩ := ih (rest := p.2) (by rw [ht, ← h1])
        exact ⟨List.mem_cons_of_mem _ q1, q2⟩

/-- **C54, groups.** What `GroupCipher.decrypt` returns is the AES-CBC decryption of the ciphertext under the key and IV of the
message's iteration in the state its key id names. -/
theorem C54_group_decrypt (hC : C.Lawful) (g : GroupStore) (n : SenderKeyName) (b pt : Bytes)
    (h : (GroupCipher.decrypt g n b).result = .ok pt) :
    ∃ m s messageSeed, SenderKeyMessage.parse b = .ok m ∧ stateFor (g n) m.keyId = some s ∧
      SeedFor s m.iteration messageSeed ∧
      CbcDecryption (groupCipherKey messageSeed) (groupIv messageSeed) m.ciphertext pt := by
  obtain ⟨m, s, j, pub, k, s', h1, h2, h3, h4, h5, h6, _⟩ := GroupCipher.decrypt_ok h
  have h6 := aes_cbc_dec hC h6
  have hs := (SenderKeyRecord.getStateById_ok h2).1
  rcases (getSenderKey_step h5).2 with ⟨hlt, x, rest, ht, rfl, _⟩ | ⟨hle, _, rfl, _⟩
  · rw [senderMessageKey_eq hC.hmac_len] at h6
    obtain ⟨q1, q2⟩ := groupTake_mem ht
    exact ⟨m, s, _, h1, hs, .stored q1 q2 hlt, h6⟩
  · rw [senderMessageKey_eq hC.hmac_len] at h6
    exact ⟨m, s, _, h1, hs, .ahead hle, h6⟩

end

/-! ## Cases meeting the hypotheses -/

section
attribute [local instance] toy
open Example

/-- `C53_encrypt`: Alice's first message carries a pending prekey, Bob's reply none; both encryptions succeed in version-3
sessions, and the bytes start with the version byte, the tag and the length of the first field. -/
example : (first.result.toOption.map fun c => (c.getType, c.serialize.take 3)) = some (3, [0x33, 0x08, 31]) ∧
    (alice1.loadSession bobAddr).sessionState.sessionVersion = some 3 ∧
    (alice1.loadSession bobAddr).sessionState.pendingPreKey.isSome ∧
    (reply.result.toOption.map fun c => (c.getType, c.serialize.take 3)) = some (2, [0x33, 0x0A, 33]) ∧
    (bob1.loadSession aliceAddr).sessionState.sessionVersion = some 3 ∧
    (bob1.loadSession aliceAddr).sessionState.pendingPreKey = none := by decide +kernel

/-- `C53_group_encrypt` and `C53_distribution`: the sender of the example group. -/
example : (GroupSessionBuilder.create GroupStore.empty grp grpRand).result.toOption.isSome ∧
    (GroupCipher.encrypt ((GroupCall.create grp grpRand).next GroupStore.empty) grp [1, 2] grpSig).result.toOption.isSome := by
  decide +kernel

/-- `C53_request` and `C53_response`: a request, and the answer to it without and with a pending request. -/
example : (keAsk.result.toOption.map fun m => m.serialized.take 4) = some [0x33, 0x08, 0xC1, 0x13] ∧
    ((keAnswer.result.toOption.bind id).map fun m => m.serialized.take 4) = some [0x33, 0x08, 0xC2, 0x13] ∧
    (((SessionBuilder.processKeyExchangeMessage keAlice1 bobAddr
        { keAskMsg with sequence := 5 } keRand).result.toOption.bind id).map fun m => m.serialized.take 4) =
      some [0x33, 0x08, 0xA6, 0x01] := by decide +kernel

/-- `C54_decrypt`: Alice reads Bob's reply (a ratchet step). -/
example : (WhisperMessage.parse replyMsg.serialized).toOption = some replyMsg ∧
    (SessionCipher.decryptMsg alice2 bobAddr replyMsg (key 43) (fun _ => key 44)).result = .ok [121, 111] ∧
    (alice2.sessions bobAddr).all (fun r => (Spec.states r).all fun s => s.sessionVersion == some 3) ∧
    (alice2.sessions bobAddr).isSome := by decide +kernel

/-- `C54_group_decrypt`: a member reads the second message first, then the first with the key kept for it. -/
example : let g := (GroupCall.process grp grpDist).next GroupStore.empty
    (GroupCipher.decrypt g grp (grpMsg 1)).result.toOption.isSome ∧
    (GroupCipher.decrypt ((GroupCall.decrypt grp (grpMsg 1)).next g) grp (grpMsg 0)).result.toOption.isSome := by
  decide +kernel

/-- `C54_cipher`: encryption and decryption succeed on two blocks. -/
example : ((AES.encrypt (List.replicate 32 7) (List.replicate 16 9) (List.replicate 17 1)).toOption.map
    fun ct => (ct.length, (AES.decrypt (List.replicate 32 7) (List.replicate 16 9) ct).toOption)) =
    some (32, some (List.replicate 17 1)) := by decide +kernel

end
end Axolotl
