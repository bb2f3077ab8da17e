import Verif.Proofs.Messages
import Verif.Toy

/-! # C02–C05, C08–C10: messages on the wire -/

namespace Axolotl
open Wire ByteUtil

/-! ## C10: public keys -/

/-- Encoding then decoding a key of at most 32 bytes is the identity. -/
theorem C10_decode_encode (k : ECPub) (h : k.length ≤ 32) :
    Curve.decodePoint (Curve.serializePoint k) = .ok k := decodePoint_serializePoint h

/-- On strings of at most 33 bytes decoding is injective: what decodes is the encoding of the result.
Missing for the full statement: longer strings, where it is false (`C10_not_canonical`). -/
theorem C10_canonical_partial (bs : Bytes) (k : ECPub) (hl : bs.length ≤ 33)
    (h : Curve.decodePoint bs = .ok k) : bs = Curve.serializePoint k := by
  cases bs with
  | nil => simp [Curve.decodePoint] at h
  | cons t rest =>
    simp only [Curve.decodePoint] at h
    split at h
    · rename_i ht
      injection h with h
      rw [List.take_of_length_le (by simpa using hl)] at h
      simp [Curve.serializePoint, ht, h]
    · cases h

/-- Whatever decodes starts with the type byte 5, and the key is the following (at most) 32 bytes. -/
theorem C10_decode_shape (bs : Bytes) (k : ECPub) (h : Curve.decodePoint bs = .ok k) :
    ∃ tail, bs = 5 :: tail ∧ k = tail.take 32 := by
  cases bs with
  | nil => simp [Curve.decodePoint] at h
  | cons t rest =>
    simp only [Curve.decodePoint] at h
    split at h
    · rename_i ht
      injection h with h
      exact ⟨rest, by rw [ht]; rfl, h.symm⟩
    · cases h

/-- The full statement is false: trailing bytes are ignored. -/
theorem C10_not_canonical : ¬ ∀ (bs : Bytes) (k : ECPub), Curve.decodePoint bs = .ok k →
    bs = Curve.serializePoint k := by
  intro h
  have := h (5 :: List.replicate 33 0) (List.replicate 32 0) (by decide)
  revert this
  decide

/-- Also false: keys shorter than 32 bytes are accepted. -/
theorem C10_short_key_accepted : Curve.decodePoint [5, 1, 2] = .ok [1, 2] := by decide

section
variable [C : Crypto]

/-! ## C02: session messages -/

theorem C02_whisper_roundtrip (hlen : ∀ k m, (C.hmac k m).length = 32) (version : Nat)
    (hv : version = 2 ∨ version = 3) (macKey : Bytes) (ratchetKey : ECPub)
    (hr : ratchetKey.length = 32) (counter previousCounter : Nat) (hc : counter < 2 ^ 32)
    (hp : previousCounter < 2 ^ 32) (ciphertext : Bytes) (hct : ciphertext ≠ [])
    (hsz : ciphertext.length < 2 ^ 63) (senderId receiverId : ECPub) :
    ∃ m, WhisperMessage.create version macKey ratchetKey counter previousCounter ciphertext senderId
        receiverId = .ok m ∧
      WhisperMessage.parse m.serialized = .ok m ∧
      m.messageVersion = version ∧ m.senderRatchetKey = ratchetKey ∧ m.counter = counter ∧
      m.previousCounter = previousCounter ∧ m.ciphertext = ciphertext := by
  unfold WhisperMessage.create
  rw [chkU32_ok hc, chkU32_ok hp]
  simp only [ok_bind]
  refine ⟨_, rfl, ?_, rfl, rfl, rfl, rfl, rfl⟩
  simp only
  generalize hb : serializeWith WhisperMessageP.toFields
    { ratchetKey := some (Curve.serializePoint ratchetKey), counter := some counter,
      previousCounter := some previousCounter, ciphertext := some ciphertext } = body
  generalize hm : WhisperMessage.getMac version senderId receiverId macKey _ = mac
  have hml : mac.length = 8 := by rw [← hm]; exact getMac_length hlen _ _ _ _ _
  unfold WhisperMessage.parse
  rw [if_neg (by simp)]
  unfold WhisperMessage.parseBody
  have hsp := split3_msg (intsToByteHighAndLow version CiphertextMessage.CURRENT_VERSION) body mac
    WhisperMessage.MAC_LENGTH hml
  simp only [hsp, version_high hv]
  rw [if_neg (by unfold CiphertextMessage.UNSUPPORTED_VERSION; omega),
    if_neg (by unfold CiphertextMessage.CURRENT_VERSION; omega)]
  have hps : parseWith WhisperMessageP.ofFields body = .ok
      { ratchetKey := some (Curve.serializePoint ratchetKey), counter := some counter,
        previousCounter := some previousCounter, ciphertext := some ciphertext } := by
    rw [← hb]
    apply WhisperMessageP.parse_serialize
    · exact ⟨OptLt.some hc, OptLt.some hp⟩
    · unfold serializeWith WhisperMessageP.toFields
      simp only [encFields_append, List.length_append]
      have h1 := putBytes_size_le 1 (Curve.serializePoint ratchetKey)
      have h2 := putVarint_size_le 2 (some counter)
      have h3 := putVarint_size_le 3 (some previousCounter)
      have h4 := putBytes_size_le 4 ciphertext
      rw [serializePoint_length] at h1
      omega
  rw [hps]
  simp only [ok_bind, Option.getD_some, WhisperMessage.wrapInvalidKey]
  rw [if_neg (by simp [hct, serializePoint_ne_nil]), decodePoint_serializePoint (by omega)]
  rfl

example := C02_whisper_roundtrip (C := toy) toy_lawful.hmac_len 3 (Or.inr rfl) [1] (List.replicate 32 4)
  (by simp) 300 7 (by omega) (by omega) [1, 2, 3] (by simp) (by simp) [1] [2]

end

/-! ## C03: prekey messages -/

/-- What the wire does to a prekey message, with the prekey id present or not: everything survives except
that an absent one-time prekey id comes back as 0. -/
theorem prekey_wire (registrationId : Nat) (hreg : registrationId < 2 ^ 32) (preKeyId : Option Nat)
    (hpk : OptLt preKeyId (2 ^ 32)) (signedPreKeyId : Nat) (hspk : signedPreKeyId < 2 ^ 32)
    (baseKey identityKey : ECPub) (hbk : baseKey.length = 32) (hik : identityKey.length = 32)
    (inner : WhisperMessage) (hin : WhisperMessage.parse inner.serialized = .ok inner)
    (hsz : inner.serialized.length < 2 ^ 63) :
    ∃ m, PreKeyWhisperMessage.create 3 registrationId preKeyId signedPreKeyId baseKey identityKey inner
        = .ok m ∧
      PreKeyWhisperMessage.parse m.serialized = .ok { m with preKeyId := some (preKeyId.getD 0) } ∧
      m.version = 3 ∧ m.registrationId = registrationId ∧ m.preKeyId = preKeyId ∧
      m.signedPreKeyId = signedPreKeyId ∧ m.baseKey = baseKey ∧ m.identityKey = identityKey ∧
      m.message = inner := by
  have hne : inner.serialized ≠ [] := by
    intro h
    rw [h] at hin
    simp [WhisperMessage.parse] at hin
  have hcr : PreKeyWhisperMessage.create 3 registrationId preKeyId signedPreKeyId baseKey identityKey inner
      = .ok { serialized := intsToByteHighAndLow 3 CiphertextMessage.CURRENT_VERSION ::
                serializeWith PreKeyWhisperMessageP.toFields
                  { signedPreKeyId := some signedPreKeyId, baseKey := some (Curve.serializePoint baseKey),
                    identityKey := some (Curve.serializePoint identityKey),
                    message := some inner.serialized,
                    registrationId := some registrationId, preKeyId := preKeyId },
              version := 3, registrationId := registrationId, preKeyId := preKeyId,
              signedPreKeyId := signedPreKeyId, baseKey := baseKey, identityKey := identityKey,
              message := inner } := by
    unfold PreKeyWhisperMessage.create
    rw [chkU32_ok hreg, chkU32_ok hspk]
    simp only [ok_bind]
    cases preKeyId with
    | none => rfl
    | some i => simp only [chkU32_ok (hpk i rfl), ok_bind]
  rw [hcr]
  refine ⟨_, rfl, ?_, rfl, rfl, rfl, rfl, rfl, rfl, rfl⟩
  simp only
  generalize hb : serializeWith PreKeyWhisperMessageP.toFields _ = body
  unfold PreKeyWhisperMessage.parse
  rw [if_neg (by simp)]
  unfold PreKeyWhisperMessage.parseBody
  simp only [version_high (Or.inr rfl)]
  rw [if_neg (by decide), if_neg (by decide)]
  have hps : parseWith PreKeyWhisperMessageP.ofFields body = .ok
      { signedPreKeyId := some signedPreKeyId, baseKey := some (Curve.serializePoint baseKey),
        identityKey := some (Curve.serializePoint identityKey), message := some inner.serialized,
        registrationId := some registrationId, preKeyId := preKeyId } := by
    rw [← hb]
    apply PreKeyWhisperMessageP.parse_serialize
    · exact ⟨hpk, OptLt.some hreg, OptLt.some hspk⟩
    · unfold serializeWith PreKeyWhisperMessageP.toFields
      simp only [encFields_append, List.length_append]
      have h1 := putBytes_size_le 2 (Curve.serializePoint baseKey)
      have h2 := putBytes_size_le 3 (Curve.serializePoint identityKey)
      have h3 := putBytes_size_le 4 inner.serialized
      have h4 := putVarint_size_le 1 preKeyId
      have h5 := putVarint_size_le 5 (some registrationId)
      have h6 := putVarint_size_le 6 (some signedPreKeyId)
      rw [serializePoint_length] at h1 h2
      omega
  rw [hps]
  simp only [ok_bind, Option.getD_some]
  rw [if_neg (by simp [hne, serializePoint_ne_nil]), decodePoint_serializePoint (by omega),
    decodePoint_serializePoint (by omega), hin]
  rfl

/-- Round-trip of prekey messages that name a one-time prekey.  Missing for the full statement: an
absent one-time prekey id, where it is false (`C03_not_roundtrip`). -/
theorem C03_prekey_roundtrip_partial (registrationId preKeyId signedPreKeyId : Nat)
    (hreg : registrationId < 2 ^ 32) (hpk : preKeyId < 2 ^ 32) (hspk : signedPreKeyId < 2 ^ 32)
    (baseKey identityKey : ECPub) (hbk : baseKey.length = 32) (hik : identityKey.length = 32)
    (inner : WhisperMessage) (hin : WhisperMessage.parse inner.serialized = .ok inner)
    (hsz : inner.serialized.length < 2 ^ 63) :
    ∃ m, PreKeyWhisperMessage.create 3 registrationId (some preKeyId) signedPreKeyId baseKey identityKey
        inner = .ok m ∧
      PreKeyWhisperMessage.parse m.serialized = .ok m ∧
      m.version = 3 ∧ m.registrationId = registrationId ∧ m.preKeyId = some preKeyId ∧
      m.signedPreKeyId = signedPreKeyId ∧ m.baseKey = baseKey ∧ m.identityKey = identityKey ∧
      m.message = inner := by
  obtain ⟨m, h1, h2, h3, h4, h5, h6⟩ := prekey_wire registrationId hreg (some preKeyId) (OptLt.some hpk)
    signedPreKeyId hspk baseKey identityKey hbk hik inner hin hsz
  refine ⟨m, h1, ?_, h3, h4, h5, h6⟩
  rw [h2]
  cases m
  simp only at h5
  subst h5
  rfl

/-- Without a one-time prekey the other side always sees prekey id 0. -/
theorem C03_absent_prekey_becomes_zero (registrationId signedPreKeyId : Nat)
    (hreg : registrationId < 2 ^ 32) (hspk : signedPreKeyId < 2 ^ 32)
    (baseKey identityKey : ECPub) (hbk : baseKey.length = 32) (hik : identityKey.length = 32)
    (inner : WhisperMessage) (hin : WhisperMessage.parse inner.serialized = .ok inner)
    (hsz : inner.serialized.length < 2 ^ 63) :
    ∃ m m', PreKeyWhisperMessage.create 3 registrationId none signedPreKeyId baseKey identityKey inner
        = .ok m ∧ m.preKeyId = none ∧
      PreKeyWhisperMessage.parse m.serialized = .ok m' ∧ m'.preKeyId = some 0 := by
  obtain ⟨m, h1, h2, h3, h4, h5, h6⟩ := prekey_wire registrationId hreg none OptLt.none
    signedPreKeyId hspk baseKey identityKey hbk hik inner hin hsz
  exact ⟨m, _, h1, h5, h2, rfl⟩

/-- A concrete inner message for the examples. -/
def exampleInner : WhisperMessage :=
  match @WhisperMessage.create toy 3 [1] (List.replicate 32 4) 0 0 [1, 2, 3] [1] [2] with
  | .ok m => m
  | .error _ => ⟨[], [], 0, 0, 0, []⟩

example := C03_prekey_roundtrip_partial 5 6 7 (by omega) (by omega) (by omega) (List.replicate 32 1)
  (List.replicate 32 2) (by simp) (by simp) exampleInner (by decide +kernel) (by decide +kernel)

/-- The full round-trip statement is false. -/
theorem C03_not_roundtrip : ¬ ∀ (preKeyId : Option Nat) (m : PreKeyWhisperMessage),
    PreKeyWhisperMessage.create 3 1 preKeyId 2 (List.replicate 32 1) (List.replicate 32 2) exampleInner
      = .ok m → PreKeyWhisperMessage.parse m.serialized = .ok m := by
  intro h
  obtain ⟨m, m', h1, h2, h3, h4⟩ := C03_absent_prekey_becomes_zero 1 2 (by omega) (by omega)
    (List.replicate 32 1) (List.replicate 32 2) (by simp) (by simp) exampleInner (by decide +kernel)
    (by decide +kernel)
  have := h none m h1
  rw [h3] at this
  injection this with this
  rw [this, h2] at h4
  cases h4

/-! ## C04: key-exchange messages -/

theorem pack_shift (s f : Nat) (hf : f < 32) : (s <<< 5 ||| f) >>> 5 = s := by
  rw [← Nat.shiftLeft_add_eq_or_of_lt (by omega : f < 2 ^ 5), Nat.shiftLeft_eq, Nat.shiftRight_eq_div_pow]
  omega

theorem pack_mask (s f : Nat) (hf : f < 32) : (s <<< 5 ||| f) &&& 0x1f = f := by
  have : (0x1f : Nat) = 2 ^ 5 - 1 := rfl
  rw [← Nat.shiftLeft_add_eq_or_of_lt (by omega : f < 2 ^ 5), Nat.shiftLeft_eq, this,
    Nat.and_two_pow_sub_one_eq_mod]
  omega

theorem C04_keyexchange_roundtrip (sequence flags : Nat) (hs : sequence < 2 ^ 27) (hf : flags < 32)
    (baseKey ratchetKey identityKey : ECPub) (hb : baseKey.length = 32) (hr : ratchetKey.length = 32)
    (hi : identityKey.length = 32) (signature : Bytes) (hsig : signature.length < 2 ^ 63) :
    ∃ m, KeyExchangeMessage.create 3 sequence flags baseKey signature ratchetKey identityKey = .ok m ∧
      KeyExchangeMessage.parse m.serialized = .ok m ∧
      m.sequence = sequence ∧ m.flags = flags ∧ m.baseKey = baseKey ∧ m.baseKeySignature = signature ∧
      m.ratchetKey = ratchetKey ∧ m.identityKey = identityKey := by
  have hpk : sequence <<< 5 ||| flags < 2 ^ 32 := by
    rw [← Nat.shiftLeft_add_eq_or_of_lt (by omega : flags < 2 ^ 5), Nat.shiftLeft_eq]
    omega
  unfold KeyExchangeMessage.create
  rw [chkU32_ok hpk]
  simp only [ok_bind]
  refine ⟨_, rfl, ?_, rfl, rfl, rfl, rfl, rfl, rfl⟩
  simp only
  rw [if_pos (by omega)]
  generalize hbd : serializeWith KeyExchangeMessageP.toFields _ = body
  unfold KeyExchangeMessage.parse
  rw [if_neg (by simp)]
  unfold KeyExchangeMessage.parseBody
  have hsp := split2_head (intsToByteHighAndLow 3 CiphertextMessage.CURRENT_VERSION) body
  simp only [hsp, version_high (Or.inr rfl)]
  rw [if_neg (by decide), if_neg (by decide)]
  have hps : parseWith KeyExchangeMessageP.ofFields body = .ok
      { id := some (sequence <<< 5 ||| flags), baseKey := some (Curve.serializePoint baseKey),
        ratchetKey := some (Curve.serializePoint ratchetKey),
        identityKey := some (Curve.serializePoint identityKey),
        baseKeySignature := some signature } := by
    rw [← hbd]
    apply KeyExchangeMessageP.parse_serialize
    · exact ⟨OptLt.some hpk⟩
    · unfold serializeWith KeyExchangeMessageP.toFields
      simp only [encFields_append, List.length_append]
      have h1 := putBytes_size_le 2 (Curve.serializePoint baseKey)
      have h2 := putBytes_size_le 3 (Curve.serializePoint ratchetKey)
      have h3 := putBytes_size_le 4 (Curve.serializePoint identityKey)
      have h4 := putVarint_size_le 1 (some (sequence <<< 5 ||| flags))
      have h5 := putBytes_size_le 5 signature
      rw [serializePoint_length] at h1 h2 h3
      omega
  rw [hps]
  simp only [ok_bind]
  rw [decodePoint_serializePoint (by omega), decodePoint_serializePoint (by omega),
    decodePoint_serializePoint (by omega), pack_shift _ _ hf, pack_mask _ _ hf, version_low]
  rfl

example := C04_keyexchange_roundtrip 65534 3 (by omega) (by omega) (List.replicate 32 1)
  (List.replicate 32 2) (List.replicate 32 3) (by simp) (by simp) (by simp) [1, 2] (by simp)

/-! ## C05: group messages -/

section
variable [C : Crypto]

/-- A message that could be made, with whatever private key: it is read back as it was. -/
theorem senderkey_create_parses (hC : C.Lawful) {keyId iteration : Nat} (hk : keyId < 2 ^ 32)
    (hi : iteration < 2 ^ 32) {ciphertext : Bytes} (hsz : ciphertext.length < 2 ^ 63)
    {signingKey : ECPriv} {rand : Bytes} {m : SenderKeyMessage}
    (h : SenderKeyMessage.create keyId iteration ciphertext signingKey rand = .ok m) :
    SenderKeyMessage.parse m.serialized = .ok m ∧
      (rand.length = 64 → C.Generated signingKey → m.verifySignature (C.genPub signingKey) = .ok ()) ∧
      m.keyId = keyId ∧ m.iteration = iteration ∧ m.ciphertext = ciphertext := by
  unfold SenderKeyMessage.create at h
  rw [chkU32_ok hk, chkU32_ok hi] at h
  simp only [ok_bind] at h
  generalize hb : serializeWith SenderKeyMessageP.toFields _ = body at h
  obtain ⟨sig, hs1, h⟩ := bind_eq_ok.1 h
  have hs1 : C.calcSig rand signingKey
      (intsToByteHighAndLow CiphertextMessage.CURRENT_VERSION CiphertextMessage.CURRENT_VERSION :: body) = some sig := by
    unfold Curve.calculateSignature at hs1
    split at hs1
    · rename_i x hx
      rw [hx, Except.ok.inj hs1]
    · cases hs1
  have hs2 := (hC.sig_size _ _ _ _ hs1).2
  have h := (Except.ok.inj h).symm
  subst h
  refine ⟨?_, ?_, rfl, rfl, rfl⟩
  · unfold SenderKeyMessage.parse
    rw [if_neg (by simp)]
    unfold SenderKeyMessage.parseBody
    have hsp := split3_msg
      (intsToByteHighAndLow CiphertextMessage.CURRENT_VERSION CiphertextMessage.CURRENT_VERSION) body sig
      SenderKeyMessage.SIGNATURE_LENGTH hs2
    have hvh : highBitsToInt
        (intsToByteHighAndLow CiphertextMessage.CURRENT_VERSION CiphertextMessage.CURRENT_VERSION) = 3 := by
      decide
    simp only [hsp, hvh]
    rw [if_neg (by decide), if_neg (by decide)]
    have hps : parseWith SenderKeyMessageP.ofFields body = .ok
        { id := some keyId, iteration := some iteration, ciphertext := some ciphertext } := by
      rw [← hb]
      apply SenderKeyMessageP.parse_serialize
      · exact ⟨OptLt.some hk, OptLt.some hi⟩
      · unfold serializeWith SenderKeyMessageP.toFields
        simp only [encFields_append, List.length_append]
        have h1 := putVarint_size_le 1 (some keyId)
        have h2 := putVarint_size_le 2 (some iteration)
        have h3 := putBytes_size_le 3 ciphertext
        omega
    rw [hps]
    rfl
  · intro hr hsk
    obtain ⟨sig', hs1', _, hs3⟩ := hC.sig_ok rand signingKey
      (intsToByteHighAndLow CiphertextMessage.CURRENT_VERSION CiphertextMessage.CURRENT_VERSION :: body) hr hsk
    have := Option.some.inj (hs1.symm.trans hs1')
    subst this
    unfold SenderKeyMessage.verifySignature
    have hsp := split2_tail
      (intsToByteHighAndLow CiphertextMessage.CURRENT_VERSION CiphertextMessage.CURRENT_VERSION :: body) sig
      SenderKeyMessage.SIGNATURE_LENGTH hs2
    simp only [List.cons_append] at hsp
    simp only [hsp]
    unfold Curve.verifySignature
    rw [hs3]
    rfl

theorem C05_senderkey_roundtrip (hC : C.Lawful) (keyId iteration : Nat) (hk : keyId < 2 ^ 32)
    (hi : iteration < 2 ^ 32) (ciphertext : Bytes) (hsz : ciphertext.length < 2 ^ 63)
    (signingKey : ECPriv) (hsk : C.Generated signingKey) (rand : Bytes) (hr : rand.length = 64) :
    ∃ m, SenderKeyMessage.create keyId iteration ciphertext signingKey rand = .ok m ∧
      SenderKeyMessage.parse m.serialized = .ok m ∧
      m.verifySignature (C.genPub signingKey) = .ok () ∧
      m.keyId = keyId ∧ m.iteration = iteration ∧ m.ciphertext = ciphertext := by
  obtain ⟨m, h⟩ : ∃ m, SenderKeyMessage.create keyId iteration ciphertext signingKey rand = .ok m := by
    unfold SenderKeyMessage.create
    rw [chkU32_ok hk, chkU32_ok hi]
    simp only [ok_bind]
    generalize serializeWith SenderKeyMessageP.toFields _ = body
    obtain ⟨sig, hs1, _⟩ := hC.sig_ok rand signingKey
      (intsToByteHighAndLow CiphertextMessage.CURRENT_VERSION CiphertextMessage.CURRENT_VERSION :: body) hr hsk
    rw [show Curve.calculateSignature rand signingKey _ = .ok sig by
      unfold Curve.calculateSignature; rw [hs1]]
    exact ⟨_, rfl⟩
  obtain ⟨h1, h2, h3⟩ := senderkey_create_parses hC hk hi hsz h
  exact ⟨m, h, h1, h2 hr hsk, h3⟩

example := C05_senderkey_roundtrip (C := toy) toy_lawful 5 6 (by omega) (by omega) [1, 2, 3] (by simp)
  (List.replicate 32 1) (toy_generated _ (by simp)) (List.replicate 64 1) (by simp)

end

theorem C05_distribution_roundtrip (id iteration : Nat) (hk : id < 2 ^ 32) (hi : iteration < 2 ^ 32)
    (chainKey : Bytes) (hsz : chainKey.length < 2 ^ 63) (signingKey : ECPub)
    (hsk : signingKey.length = 32) :
    ∃ m, SenderKeyDistributionMessage.create id iteration chainKey signingKey = .ok m ∧
      SenderKeyDistributionMessage.parse m.serialized = .ok m ∧
      m.id = id ∧ m.iteration = iteration ∧ m.chainKey = chainKey ∧ m.signatureKey = signingKey := by
  unfold SenderKeyDistributionMessage.create
  rw [chkU32_ok hk, chkU32_ok hi]
  simp only [ok_bind]
  refine ⟨_, rfl, ?_, rfl, rfl, rfl, rfl⟩
  simp only
  generalize hb : serializeWith SenderKeyDistributionMessageP.toFields _ = body
  unfold SenderKeyDistributionMessage.parse
  rw [if_neg (by simp)]
  unfold SenderKeyDistributionMessage.parseBody
  have hsp := split2_head
    (intsToByteHighAndLow CiphertextMessage.CURRENT_VERSION CiphertextMessage.CURRENT_VERSION) body
  have hvh : highBitsToInt
      (intsToByteHighAndLow CiphertextMessage.CURRENT_VERSION CiphertextMessage.CURRENT_VERSION) = 3 := by
    decide
  simp only [hsp, hvh]
  rw [if_neg (by decide), if_neg (by decide)]
  have hps : parseWith SenderKeyDistributionMessageP.ofFields body = .ok
      { id := some id, iteration := some iteration, chainKey := some chainKey,
        signingKey := some (Curve.serializePoint signingKey) } := by
    rw [← hb]
    apply SenderKeyDistributionMessageP.parse_serialize
    · exact ⟨OptLt.some hk, OptLt.some hi⟩
    · unfold serializeWith SenderKeyDistributionMessageP.toFields
      simp only [encFields_append, List.length_append]
      have h1 := putVarint_size_le 1 (some id)
      have h2 := putVarint_size_le 2 (some iteration)
      have h3 := putBytes_size_le 3 chainKey
      have h4 := putBytes_size_le 4 (Curve.serializePoint signingKey)
      rw [serializePoint_length] at h4
      omega
  rw [hps]
  simp only [ok_bind, Option.getD_some]
  rw [decodePoint_serializePoint (by omega)]
  rfl

example := C05_distribution_roundtrip 5 6 (by omega) (by omega) [1, 2, 3] (by simp)
  (List.replicate 32 1) (by simp)

/-! ## C08: what the parsers may raise -/

/-- The protocol's own exceptions. -/
def Spec.isProtocolError : Err → Prop
  | .invalidMessage | .invalidKey | .invalidVersion | .legacyMessage => True
  | _ => False

/-- Session messages: besides protocol exceptions only protobuf's `DecodeError` escapes. -/
theorem C08_whisper_errors_partial (bs : Bytes) (hne : bs ≠ []) (e : Err)
    (h : WhisperMessage.parse bs = .error e) :
    e = .invalidMessage ∨ e = .legacyMessage ∨ e = .decodeError := by
  unfold WhisperMessage.parse at h
  rw [if_neg hne] at h
  cases bs with
  | nil => exact absurd rfl hne
  | cons b rest =>
    unfold WhisperMessage.parseBody at h
    simp only [split3_fst] at h
    split at h
    · simp only [WhisperMessage.wrapInvalidKey] at h
      injection h with h; simp [← h]
    · split at h
      · simp only [WhisperMessage.wrapInvalidKey] at h
        injection h with h; simp [← h]
      · cases hp : parseWith WhisperMessageP.ofFields
            (split3 (b :: rest) 1 (((b :: rest).length : Int) - 1 - WhisperMessage.MAC_LENGTH)
              WhisperMessage.MAC_LENGTH).2.1 with
        | error e' =>
          rw [hp] at h
          have := parseWith_error hp
          subst this
          simp only [error_bind, WhisperMessage.wrapInvalidKey] at h
          injection h with h; simp [← h]
        | ok m =>
          rw [hp] at h
          simp only [ok_bind] at h
          split at h
          · simp only [WhisperMessage.wrapInvalidKey] at h
            injection h with h; simp [← h]
          · rename_i hn
            cases hd : Curve.decodePoint (m.ratchetKey.getD []) with
            | error e' =>
              have := decodePoint_error (by intro h0; exact hn (Or.inr h0)) hd
              subst this
              rw [hd] at h
              simp only [error_bind, WhisperMessage.wrapInvalidKey] at h
              injection h with h; simp [← h]
            | ok k =>
              rw [hd] at h
              simp only [ok_bind, WhisperMessage.wrapInvalidKey] at h
              cases h

/-- Prekey messages: every non-empty string is parsed or refused with a protocol exception. -/
theorem C08_prekey_errors (bs : Bytes) (hne : bs ≠ []) (e : Err)
    (h : PreKeyWhisperMessage.parse bs = .error e) : e = .invalidMessage ∨ e = .invalidVersion := by
  unfold PreKeyWhisperMessage.parse at h
  rw [if_neg hne] at h
  cases bs with
  | nil => exact absurd rfl hne
  | cons b rest =>
    unfold PreKeyWhisperMessage.parseBody at h
    simp only at h
    split at h
    · simp only [PreKeyWhisperMessage.wrap] at h
      injection h with h; simp [← h]
    · split at h
      · simp only [PreKeyWhisperMessage.wrap] at h
        injection h with h; simp [← h]
      · cases hp : parseWith PreKeyWhisperMessageP.ofFields rest with
        | error e' =>
          rw [hp] at h
          have := parseWith_error hp
          subst this
          simp only [error_bind, PreKeyWhisperMessage.wrap] at h
          injection h with h; simp [← h]
        | ok m =>
          rw [hp] at h
          simp only [ok_bind] at h
          split at h
          · simp only [PreKeyWhisperMessage.wrap] at h
            injection h with h; simp [← h]
          · rename_i hn
            simp only [not_or] at hn
            cases hd : Curve.decodePoint (m.baseKey.getD []) with
            | error e' =>
              have := decodePoint_error hn.1 hd
              subst this
              rw [hd] at h
              simp only [error_bind, PreKeyWhisperMessage.wrap] at h
              injection h with h; simp [← h]
            | ok k =>
              rw [hd] at h
              simp only [ok_bind] at h
              cases hd2 : Curve.decodePoint (m.identityKey.getD []) with
              | error e' =>
                have := decodePoint_error hn.2.1 hd2
                subst this
                rw [hd2] at h
                simp only [error_bind, PreKeyWhisperMessage.wrap] at h
                injection h with h; simp [← h]
              | ok k2 =>
                rw [hd2] at h
                simp only [ok_bind] at h
                cases hw : WhisperMessage.parse (m.message.getD []) with
                | error e' =>
                  rw [hw] at h
                  rcases C08_whisper_errors_partial _ hn.2.2 _ hw with h' | h' | h' <;> subst h' <;>
                    simp only [error_bind, PreKeyWhisperMessage.wrap] at h <;>
                    injection h with h <;> simp [← h]
                | ok w =>
                  rw [hw] at h
                  simp only [ok_bind, PreKeyWhisperMessage.wrap] at h
                  cases h

/-- Group messages: every non-empty string is parsed or refused with `InvalidMessage`. -/
theorem C08_senderkey_errors (bs : Bytes) (hne : bs ≠ []) (e : Err)
    (h : SenderKeyMessage.parse bs = .error e) : e = .invalidMessage := by
  unfold SenderKeyMessage.parse at h
  rw [if_neg hne] at h
  unfold SenderKeyMessage.wrapAll at h
  split at h
  · injection h with h; exact h.symm
  · rename_i hx; exact absurd h (by intro h'; exact hx _ h')

/-- Key distribution messages: likewise. -/
theorem C08_distribution_errors (bs : Bytes) (hne : bs ≠ []) (e : Err)
    (h : SenderKeyDistributionMessage.parse bs = .error e) : e = .invalidMessage := by
  unfold SenderKeyDistributionMessage.parse at h
  rw [if_neg hne] at h
  unfold SenderKeyMessage.wrapAll at h
  split at h
  · injection h with h; exact h.symm
  · rename_i hx; exact absurd h (by intro h'; exact hx _ h')

/-- Key-exchange messages: besides protocol exceptions `DecodeError` and `IndexError` escape. -/
theorem C08_keyexchange_errors_partial (bs : Bytes) (hne : bs ≠ []) (e : Err)
    (h : KeyExchangeMessage.parse bs = .error e) :
    e = .invalidMessage ∨ e = .legacyMessage ∨ e = .invalidVersion ∨ e = .decodeError ∨
      e = .indexError := by
  unfold KeyExchangeMessage.parse at h
  rw [if_neg hne] at h
  cases bs with
  | nil => exact absurd rfl hne
  | cons b rest =>
    unfold KeyExchangeMessage.parseBody at h
    simp only [split2_fst] at h
    split at h
    · simp only [WhisperMessage.wrapInvalidKey] at h
      injection h with h; simp [← h]
    · split at h
      · simp only [WhisperMessage.wrapInvalidKey] at h
        injection h with h; simp [← h]
      · cases hp : parseWith KeyExchangeMessageP.ofFields
            (split2 (b :: rest) 1 (((b :: rest).length : Int) - 1)).2 with
        | error e' =>
          rw [hp] at h
          have := parseWith_error hp
          subst this
          simp only [error_bind, WhisperMessage.wrapInvalidKey] at h
          injection h with h; simp [← h]
        | ok m =>
          rw [hp] at h
          simp only [ok_bind] at h
          split at h
          · rename_i id bk rk ik sig _ _ _ _ _
            have key : ∀ e', WhisperMessage.wrapInvalidKey (α := KeyExchangeMessage) (.error e') = .error e →
                (e' = .invalidKey ∨ e' = .indexError) → e = .invalidMessage ∨ e = .indexError := by
              intro e' h1 h2
              rcases h2 with h2 | h2 <;> subst h2 <;> simp only [WhisperMessage.wrapInvalidKey] at h1 <;>
                injection h1 with h1 <;> simp [← h1]
            have fin : e = .invalidMessage ∨ e = .indexError := by
              cases hd : Curve.decodePoint bk with
              | error e' => rw [hd] at h; exact key e' h (decodePoint_error_cases hd)
              | ok k =>
                rw [hd] at h
                simp only [ok_bind] at h
                cases hd2 : Curve.decodePoint rk with
                | error e' => rw [hd2] at h; exact key e' h (decodePoint_error_cases hd2)
                | ok k2 =>
                  rw [hd2] at h
                  simp only [ok_bind] at h
                  cases hd3 : Curve.decodePoint ik with
                  | error e' => rw [hd3] at h; exact key e' h (decodePoint_error_cases hd3)
                  | ok k3 =>
                    rw [hd3] at h
                    simp only [ok_bind, WhisperMessage.wrapInvalidKey] at h
                    cases h
            rcases fin with h' | h' <;> simp [h']
          · simp only [WhisperMessage.wrapInvalidKey] at h
            injection h with h; simp [← h]

/-- The full statement is false for session messages: a truncated protobuf body raises `DecodeError`. -/
theorem C08_whisper_leaks : ¬ ∀ (bs : Bytes) (e : Err), WhisperMessage.parse bs = .error e →
    Spec.isProtocolError e := by
  intro h
  exact h (0x33 :: List.replicate 9 0xff) .decodeError (by decide +kernel)

/-- The full statement is false for key-exchange messages: an empty base key raises `IndexError`, a
truncated body `DecodeError`. -/
theorem C08_keyexchange_leaks :
    KeyExchangeMessage.parse [0x33, 0x08, 0, 0x12, 0, 0x1a, 0, 0x22, 0, 0x2a, 0] = .error .indexError ∧
    KeyExchangeMessage.parse [0x33, 0x12, 0x05] = .error .decodeError := by decide +kernel

/-- The full statement is false for the empty string, on every message type. -/
theorem C08_empty_leaks :
    WhisperMessage.parse [] = .error .typeError ∧
    PreKeyWhisperMessage.parse [] = .error .typeError ∧
    KeyExchangeMessage.parse [] = .error .typeError ∧
    SenderKeyMessage.parse [] = .error .assertionError ∧
    SenderKeyDistributionMessage.parse [] = .error .assertionError := by decide

/-- The hypotheses of the C08 theorems are met by real rejections. -/
example : WhisperMessage.parse (0x13 :: List.replicate 9 1) = .error .legacyMessage ∧
    PreKeyWhisperMessage.parse [0x43] = .error .invalidVersion ∧
    SenderKeyMessage.parse [0x13] = .error .invalidMessage := by decide +kernel

/-! ## C09: versions -/

/-- The version nibble of a message: the upper four bits of its first byte. -/
def Spec.versionNibble : Bytes → Option Nat
  | [] => none
  | b :: _ => some (b.toNat / 16)

theorem highBits_eq (b : UInt8) : highBitsToInt b = b.toNat / 16 := by
  unfold highBitsToInt
  have h : (0xFF : Nat) = 2 ^ 8 - 1 := rfl
  have := b.toNat_lt
  rw [h, Nat.and_two_pow_sub_one_eq_mod, Nat.shiftRight_eq_div_pow, Nat.mod_eq_of_lt (by omega)]

theorem lowBits_eq (b : UInt8) : lowBitsToInt b = b.toNat % 16 := by
  unfold lowBitsToInt
  have h : (0xF : Nat) = 2 ^ 4 - 1 := rfl
  rw [h, Nat.and_two_pow_sub_one_eq_mod]

theorem wrapInvalidKey_ok {α : Type} {r : Res α} {a : α} (h : WhisperMessage.wrapInvalidKey r = .ok a) :
    r = .ok a := by
  unfold WhisperMessage.wrapInvalidKey at h
  split at h
  · cases h
  · exact h

theorem prekeyWrap_ok {α : Type} {r : Res α} {a : α} (h : PreKeyWhisperMessage.wrap r = .ok a) :
    r = .ok a := by
  unfold PreKeyWhisperMessage.wrap at h
  split at h <;> first | exact h | cases h

theorem wrapAll_ok {α : Type} {r : Res α} {a : α} (h : SenderKeyMessage.wrapAll r = .ok a) :
    r = .ok a := by
  unfold SenderKeyMessage.wrapAll at h
  split at h
  · cases h
  · exact h

/-- Session messages: version 2 or 3, as on the wire, and the parsed object keeps the bytes. -/
theorem C09_whisper_version (bs : Bytes) (m : WhisperMessage) (h : WhisperMessage.parse bs = .ok m) :
    Spec.versionNibble bs = some m.messageVersion ∧ (m.messageVersion = 2 ∨ m.messageVersion = 3) ∧
      m.serialized = bs := by
  cases bs with
  | nil => simp [WhisperMessage.parse] at h
  | cons b rest =>
    unfold WhisperMessage.parse at h
    rw [if_neg (by simp)] at h
    have h := wrapInvalidKey_ok h
    unfold WhisperMessage.parseBody at h
    simp only [split3_fst] at h
    split at h
    · cases h
    · rename_i h1
      split at h
      · cases h
      · rename_i h2
        obtain ⟨p, _, h⟩ := bind_eq_ok.1 h
        split at h
        · cases h
        · obtain ⟨k, _, h⟩ := bind_eq_ok.1 h
          injection h with h
          subst h
          simp only [Spec.versionNibble, highBits_eq, CiphertextMessage.UNSUPPORTED_VERSION,
            CiphertextMessage.CURRENT_VERSION, and_true, true_and] at *
          omega

/-- Prekey messages: version 3, as on the wire; the inner message again has version 2 or 3. -/
theorem C09_prekey_version (bs : Bytes) (m : PreKeyWhisperMessage)
    (h : PreKeyWhisperMessage.parse bs = .ok m) :
    Spec.versionNibble bs = some m.version ∧ m.version = 3 ∧
      (m.message.messageVersion = 2 ∨ m.message.messageVersion = 3) := by
  cases bs with
  | nil => simp [PreKeyWhisperMessage.parse] at h
  | cons b rest =>
    unfold PreKeyWhisperMessage.parse at h
    rw [if_neg (by simp)] at h
    have h := prekeyWrap_ok h
    unfold PreKeyWhisperMessage.parseBody at h
    simp only at h
    split at h
    · cases h
    · rename_i h1
      split at h
      · cases h
      · rename_i h2
        obtain ⟨p, _, h⟩ := bind_eq_ok.1 h
        split at h
        · cases h
        · obtain ⟨k, _, h⟩ := bind_eq_ok.1 h
          obtain ⟨k2, _, h⟩ := bind_eq_ok.1 h
          obtain ⟨w, hw, h⟩ := bind_eq_ok.1 h
          injection h with h
          subst h
          have := (C09_whisper_version _ _ hw).2.1
          simp only [Spec.versionNibble, highBits_eq, CiphertextMessage.CURRENT_VERSION] at *
          refine ⟨trivial, by omega, this⟩

/-- Key-exchange messages: version 3, and the supported version is the lower nibble. -/
theorem C09_keyexchange_version (bs : Bytes) (m : KeyExchangeMessage)
    (h : KeyExchangeMessage.parse bs = .ok m) :
    Spec.versionNibble bs = some m.version ∧ m.version = 3 ∧
      ∃ b rest, bs = b :: rest ∧ m.supportedVersion = b.toNat % 16 := by
  cases bs with
  | nil => simp [KeyExchangeMessage.parse] at h
  | cons b rest =>
    unfold KeyExchangeMessage.parse at h
    rw [if_neg (by simp)] at h
    have h := wrapInvalidKey_ok h
    unfold KeyExchangeMessage.parseBody at h
    simp only [split2_fst] at h
    split at h
    · cases h
    · rename_i h1
      split at h
      · cases h
      · rename_i h2
        obtain ⟨p, _, h⟩ := bind_eq_ok.1 h
        split at h
        · obtain ⟨k, _, h⟩ := bind_eq_ok.1 h
          obtain ⟨k2, _, h⟩ := bind_eq_ok.1 h
          obtain ⟨k3, _, h⟩ := bind_eq_ok.1 h
          injection h with h
          subst h
          simp only [Spec.versionNibble, highBits_eq, CiphertextMessage.CURRENT_VERSION] at *
          exact ⟨trivial, by omega, b, rest, rfl, lowBits_eq b⟩
        · cases h

/-- Group messages: version 3. -/
theorem C09_senderkey_version (bs : Bytes) (m : SenderKeyMessage)
    (h : SenderKeyMessage.parse bs = .ok m) :
    Spec.versionNibble bs = some m.messageVersion ∧ m.messageVersion = 3 := by
  cases bs with
  | nil => simp [SenderKeyMessage.parse] at h
  | cons b rest =>
    unfold SenderKeyMessage.parse at h
    rw [if_neg (by simp)] at h
    have h := wrapAll_ok h
    unfold SenderKeyMessage.parseBody at h
    simp only [split3_fst] at h
    split at h
    · cases h
    · rename_i h1
      split at h
      · cases h
      · rename_i h2
        obtain ⟨p, _, h⟩ := bind_eq_ok.1 h
        injection h with h
        subst h
        simp only [Spec.versionNibble, highBits_eq, CiphertextMessage.CURRENT_VERSION] at *
        exact ⟨trivial, by omega⟩

/-- Key distribution messages: version 3. -/
theorem C09_distribution_version (bs : Bytes) (m : SenderKeyDistributionMessage)
    (h : SenderKeyDistributionMessage.parse bs = .ok m) : Spec.versionNibble bs = some 3 := by
  cases bs with
  | nil => simp [SenderKeyDistributionMessage.parse] at h
  | cons b rest =>
    unfold SenderKeyDistributionMessage.parse at h
    rw [if_neg (by simp)] at h
    have h := wrapAll_ok h
    unfold SenderKeyDistributionMessage.parseBody at h
    simp only [split2_fst] at h
    split at h
    · cases h
    · rename_i h1
      split at h
      · cases h
      · rename_i h2
        simp only [Spec.versionNibble, highBits_eq, CiphertextMessage.CURRENT_VERSION] at *
        congr 1
        omega

/-- The hypotheses are met: parsing a real message of each kind succeeds. -/
example : WhisperMessage.parse exampleInner.serialized = .ok exampleInner := by decide +kernel
example : SenderKeyMessage.parse [0x33] = .ok ⟨[0x33], 3, 0, 0, []⟩ := by decide +kernel

end Axolotl
