import Verif.Spec.GroupCalls
import Verif.Props.Grammar
import Verif.Props.GroupDelivery
import Verif.Props.Calls

/-! # C61: what every group call does in every case -/

namespace Axolotl
section
variable [C : Crypto]
open Spec ByteUtil Wire

/-! ## States and keys -/

omit C in
theorem firstState_get {r : SenderKeyRecord} {id : Nat} {x y : List SenderKeyStateS} {s : SenderKeyStateS}
    (h : FirstState r id x s y) : r.getStateById id = .ok (s, x.length) ∧
      ∀ s', r.replace x.length s' = { senderKeyStates := x ++ s' :: y } := by
  obtain ⟨h1, h2, h3⟩ := h
  constructor
  · unfold SenderKeyRecord.getStateById
    rw [h1]
    have key : ∀ (x : List SenderKeyStateS) (i : Nat), (∀ z ∈ x, z.senderKeyId.getD 0 ≠ id) →
        SenderKeyRecord.findState id (x ++ s :: y) i = .ok (s, i + x.length) := by
      intro x
      induction x with
      | nil => intro i _; simp [SenderKeyRecord.findState, SenderKeyState.getKeyId, h2]
      | cons a x ih =>
        intro i hx
        show (if SenderKeyState.getKeyId a = id then _ else _) = _
        rw [if_neg (show ¬ SenderKeyState.getKeyId a = id from hx a (List.mem_cons_self ..))]
        show SenderKeyRecord.findState id (x ++ s :: y) (i + 1) = _
        rw [ih _ (fun z hz => hx z (List.mem_cons_of_mem _ hz))]
        simp
        omega
    rw [key x 0 h3]
    simp
  · intro s'
    unfold SenderKeyRecord.replace
    rw [h1]
    simp

omit C in
theorem firstState_or (r : SenderKeyRecord) (id : Nat) :
    (∃ x s y, FirstState r id x s y) ∨ ∀ s ∈ r.senderKeyStates, s.senderKeyId.getD 0 ≠ id := by
  have key : ∀ l : List SenderKeyStateS, (∃ x s y, l = x ++ s :: y ∧ s.senderKeyId.getD 0 = id ∧
      ∀ z ∈ x, z.senderKeyId.getD 0 ≠ id) ∨ ∀ s ∈ l, s.senderKeyId.getD 0 ≠ id := by
    intro l
    induction l with
    | nil => exact .inr (fun s hs => by cases hs)
    | cons a l ih =>
      by_cases ha : a.senderKeyId.getD 0 = id
      · exact .inl ⟨[], a, l, rfl, ha, fun z hz => by cases hz⟩
      · rcases ih with ⟨x, s, y, rfl, h2, h3⟩ | h
        · refine .inl ⟨a :: x, s, y, rfl, h2, fun z hz => ?_⟩
          rcases List.mem_cons.1 hz with rfl | hz
          · exact ha
          · exact h3 z hz
        · refine .inr fun z hz => ?_
          rcases List.mem_cons.1 hz with rfl | hz
          · exact ha
          · exact h z hz
  rcases key r.senderKeyStates with ⟨x, s, y, h1, h2, h3⟩ | h
  · exact .inl ⟨x, s, y, h1, h2, h3⟩
  · exact .inr h

omit C in
theorem noState_get {r : SenderKeyRecord} {id : Nat} (h : ∀ s ∈ r.senderKeyStates, s.senderKeyId.getD 0 ≠ id) :
    r.getStateById id = .error .invalidKeyId := by
  refine SenderKeyRecord.getStateById_none ?_
  unfold stateFor
  rw [List.find?_eq_none]
  intro s hs
  simpa using h s hs

omit C in
theorem seed_split {i : Nat} {k : SenderSeedS} {b : List SenderSeedS} (hk : k.iteration.getD 0 = i) :
    ∀ a : List SenderSeedS, (∀ j ∈ a, j.iteration.getD 0 ≠ i) → SenderKeyState.takeKey i (a ++ k :: b) = some (k, a ++ b) := by
  intro a
  induction a with
  | nil => intro _; simp [SenderKeyState.takeKey, hk]
  | cons x a ih =>
    intro ha
    show (if x.iteration.getD 0 = i then _ else _) = _
    rw [if_neg (ha x (List.mem_cons_self ..))]
    show (SenderKeyState.takeKey i (a ++ k :: b)).map _ = _
    rw [ih (fun z hz => ha z (List.mem_cons_of_mem _ hz))]
    rfl

omit C in
theorem seed_absent {i : Nat} : ∀ a : List SenderSeedS, (∀ j ∈ a, j.iteration.getD 0 ≠ i) →
    SenderKeyState.takeKey i a = none := by
  intro a
  induction a with
  | nil => intro _; rfl
  | cons x a ih =>
    intro ha
    show (if x.iteration.getD 0 = i then _ else _) = _
    rw [if_neg (ha x (List.mem_cons_self ..)), ih (fun z hz => ha z (List.mem_cons_of_mem _ hz))]
    rfl

theorem groupKey_get {s s' : SenderKeyStateS} {i : Nat} {seed : Bytes} (h : GroupKey s i seed s') :
    GroupCipher.getSenderKey s i = .ok (SenderMessageKey.mk' i seed, s') := by
  cases h with
  | kept hi hs hk ha =>
    rw [GroupCipher.getSenderKey_old hi, hs, seed_split hk _ ha]
  | ahead hi hb =>
    rw [GroupCipher.getSenderKey_new hi hb]
    unfold GroupCipher.moved skippedSeeds groupSeed
    rw [position_eq, chainKeyOf_eq]

theorem groupKey_cases (s : SenderKeyStateS) (i : Nat) :
    (∃ seed s', GroupKey s i seed s') ∨ (i < iterationOf s ∧ ∀ j ∈ s.senderMessageKeys, j.iteration.getD 0 ≠ i) ∨
      (iterationOf s ≤ i ∧ 2 ^ 32 ≤ i + 1) := by
  by_cases hi : i < iterationOf s
  · have key : ∀ l : List SenderSeedS, (∃ a k b, l = a ++ k :: b ∧ k.iteration.getD 0 = i ∧
        ∀ z ∈ a, z.iteration.getD 0 ≠ i) ∨ ∀ s ∈ l, s.iteration.getD 0 ≠ i := by
      intro l
      induction l with
      | nil => exact .inr (fun s hs => by cases hs)
      | cons a l ih =>
        by_cases ha : a.iteration.getD 0 = i
        · exact .inl ⟨[], a, l, rfl, ha, fun z hz => by cases hz⟩
        · rcases ih with ⟨x, s, y, rfl, h2, h3⟩ | h
          · refine .inl ⟨a :: x, s, y, rfl, h2, fun z hz => ?_⟩
            rcases List.mem_cons.1 hz with rfl | hz
            · exact ha
            · exact h3 z hz
          · refine .inr fun z hz => ?_
            rcases List.mem_cons.1 hz with rfl | hz
            · exact ha
            · exact h z hz
    rcases key s.senderMessageKeys with ⟨a, k, b, h1, h2, h3⟩ | h
    · exact .inl ⟨_, _, .kept hi h1 h2 h3⟩
    · exact .inr (.inl ⟨hi, h⟩)
  · by_cases hb : i + 1 < 2 ^ 32
    · exact .inl ⟨_, _, .ahead (Nat.not_lt.1 hi) hb⟩
    · exact .inr (.inr ⟨Nat.not_lt.1 hi, Nat.not_lt.1 hb⟩)

/-- The signature check on a message that carries 64 bytes at the end. -/
theorem verify_signed {m : SenderKeyMessage} {k : ECPub} {body sig : Bytes} (hm : m.serialized = body ++ sig)
    (hl : sig.length = 64) : m.verifySignature k = match C.verifySig k body sig with
      | none => .error .valueError
      | some false => .error .invalidMessage
      | some true => .ok () := by
  unfold SenderKeyMessage.verifySignature
  have := split2_tail body sig 64 hl
  rw [show ((64 : Nat) : Int) = ((SenderKeyMessage.SIGNATURE_LENGTH : Nat) : Int) from rfl] at this
  simp only [hm, this]
  unfold Curve.verifySignature
  cases C.verifySig k body sig with
  | none => rfl
  | some b => cases b <;> rfl

theorem verify_short (hC : C.Lawful) {m : SenderKeyMessage} {k : ECPub} (hl : m.serialized.length < 64) :
    m.verifySignature k = .error .valueError := by
  unfold SenderKeyMessage.verifySignature Curve.verifySignature
  simp only
  split
  · rename_i b hb
    have h := hC.verify_len _ _ _ _ hb
    unfold split2 pySlice at h
    simp only [List.length_drop, List.length_take] at h
    omega
  · rfl

/-! ## `decrypt` -/

/-- The result of `decryptWithRecord`, as `decrypt` reports it. -/
theorem decrypt_raises {g : GroupStore} {n : SenderKeyName} {bs : Bytes} {e : Err}
    (h : GroupCipher.decryptWithRecord (g n) bs = .error e) :
    GroupCall.run g (.decrypt n bs) = ⟨none, GroupCipher.wrapInvalid (.error e)⟩ := by
  show GroupCall.mapG GroupReply.bytes (GroupCipher.decrypt g n bs) = _
  unfold GroupCipher.decrypt
  rw [h]
  unfold GroupCall.mapG
  refine congrArg (GOutcome.mk _) ?_
  cases e <;> rfl

/-- `decryptWithRecord` once the message is read and a state found. -/
theorem decrypt_state {r : SenderKeyRecord} {bs : Bytes} {m : SenderKeyMessage} {x y : List SenderKeyStateS}
    {s : SenderKeyStateS} (hm : ReadsGroup bs (.ok m)) (hs : FirstState r m.keyId x s y) :
    GroupCipher.decryptWithRecord r bs = (do
      let pub ← SenderKeyState.getSigningKeyPublic s
      m.verifySignature pub
      let k ← GroupCipher.getSenderKey s m.iteration
      let pt ← GroupCipher.getPlainText k.1.iv k.1.cipherKey m.ciphertext
      .ok (pt, { senderKeyStates := x ++ k.2 :: y })) := by
  unfold GroupCipher.decryptWithRecord
  have hne : ¬ r.isEmpty = true := by
    rw [isEmpty_iff, hs.split]
    simp
  rw [if_neg hne, (C60_group bs _).1 hm, ok_bind, (firstState_get hs).1, ok_bind]
  simp only [(firstState_get hs).2]

omit C in
theorem read_serialized {bs : Bytes} {m : SenderKeyMessage} (h : ReadsGroup bs (.ok m)) : m.serialized = bs :=
  senderkey_parse_serialized ((C60_group bs _).1 h)

theorem decrypt_of (hC : C.Lawful) {g : GroupStore} (hg : ∀ n, ∀ s ∈ (g n).senderKeyStates, ∃ k, KeyOf (s.senderSigningKey.getD {}).pub k)
    {n : SenderKeyName} {bs : Bytes} {o : GOutcome GroupReply} (h : GroupDoes g (.decrypt n bs) o) :
    GroupCall.run g (.decrypt n bs) = o := by
  generalize hc : GroupCall.decrypt n bs = c at h
  have key : ∀ {bs : Bytes} {m : SenderKeyMessage} {x y : List SenderKeyStateS} {s : SenderKeyStateS} {k : ECPub},
      ReadsGroup bs (.ok m) → FirstState (g n) m.keyId x s y → KeyOf (s.senderSigningKey.getD {}).pub k →
      GroupCipher.decryptWithRecord (g n) bs = (do
        m.verifySignature k
        let k ← GroupCipher.getSenderKey s m.iteration
        let pt ← GroupCipher.getPlainText k.1.iv k.1.cipherKey m.ciphertext
        .ok (pt, { senderKeyStates := x ++ k.2 :: y })) := by
    intro bs m x y s k hm hs hk
    rw [decrypt_state hm hs, show SenderKeyState.getSigningKeyPublic s = .ok k from KeyOf_iff.1 hk, ok_bind]
  cases h with
  | sendNothing | sendUnsigned | sendLast | sent | processed | processBad | createKnown | created | createBad => cases hc
  | readNothing h =>
    cases hc
    refine decrypt_raises (e := .noSession) ?_
    unfold GroupCipher.decryptWithRecord
    rw [if_pos ((isEmpty_iff _).2 h)]
  | readOther h hm =>
    cases hc
    rw [decrypt_raises (e := _) (by
      unfold GroupCipher.decryptWithRecord
      rw [if_neg (fun q => h ((isEmpty_iff _).1 q)), (C60_group _ _).1 hm]
      rfl)]
    cases hm <;> rfl
  | readUnknown h hm hu =>
    cases hc
    refine decrypt_raises (e := .invalidKeyId) ?_
    unfold GroupCipher.decryptWithRecord
    rw [if_neg (fun q => h ((isEmpty_iff _).1 q)), (C60_group _ _).1 hm, ok_bind, noState_get hu]
    rfl
  | @readShort _ _ _ _ _ s hm hs hl =>
    cases hc
    refine decrypt_raises (e := .valueError) ?_
    obtain ⟨k, hk⟩ := hg n s (by rw [hs.split]; simp)
    rw [key hm hs hk, verify_short hC (by rw [read_serialized hm]; exact hl)]
    rfl
  | readNoSignature hm hl hs hk hv =>
    cases hc
    refine decrypt_raises (e := .valueError) ?_
    rw [key hm hs hk, verify_signed (read_serialized hm) hl, hv]
    rfl
  | readForged hm hl hs hk hv =>
    cases hc
    refine decrypt_raises (e := .invalidMessage) ?_
    rw [key hm hs hk, verify_signed (read_serialized hm) hl, hv]
    rfl
  | readAgain hm hl hs hk hv hi ha =>
    cases hc
    refine decrypt_raises (e := .duplicateMessage) ?_
    rw [key hm hs hk, verify_signed (read_serialized hm) hl, hv]
    simp only [ok_bind]
    rw [GroupCipher.getSenderKey_old hi, seed_absent _ ha]
    rfl
  | readLast hm hl hs hk hv hi hb =>
    cases hc
    refine decrypt_raises (e := .valueError) ?_
    rw [key hm hs hk, verify_signed (read_serialized hm) hl, hv]
    simp only [ok_bind]
    rw [GroupCipher.getSenderKey_last hi hb]
    rfl
  | readGarbage hm hl hs hk hv hkey hpt =>
    cases hc
    refine decrypt_raises (e := .invalidMessage) ?_
    rw [key hm hs hk, verify_signed (read_serialized hm) hl, hv]
    simp only [ok_bind]
    rw [groupKey_get hkey]
    simp only [ok_bind, senderMessageKey_eq hC.hmac_len]
    unfold GroupCipher.getPlainText
    rcases decrypt_cases (groupCipherKey _) (groupIv _) _ with ⟨pt, hd⟩ | hd
    · exact absurd (aes_cbc_dec hC hd) (hpt pt)
    · rw [hd]; rfl
  | read hm hl hs hk hv hkey hpt =>
    cases hc
    show GroupCall.mapG GroupReply.bytes (GroupCipher.decrypt g n _) = _
    unfold GroupCipher.decrypt
    rw [key hm hs hk, verify_signed (read_serialized hm) hl, hv]
    simp only [ok_bind]
    rw [groupKey_get hkey]
    simp only [ok_bind, senderMessageKey_eq hC.hmac_len]
    unfold GroupCipher.getPlainText
    rw [decrypt_of_cbc hC ⟨.inr (.inr (groupCipherKey_length hC.hmac_len _)), groupIv_length hC.hmac_len _⟩ hpt]
    rfl

theorem decrypt_exists {g : GroupStore} (hg : ∀ n, ∀ s ∈ (g n).senderKeyStates, ∃ k, KeyOf (s.senderSigningKey.getD {}).pub k)
    (n : SenderKeyName) (bs : Bytes) : ∃ o, GroupDoes g (.decrypt n bs) o := by
  by_cases hne : (g n).senderKeyStates = []
  · exact ⟨_, .readNothing hne⟩
  obtain ⟨r, hr⟩ := group_total bs
  cases r with
  | error e => exact ⟨_, .readOther hne hr⟩
  | ok m =>
    rcases firstState_or (g n) m.keyId with ⟨x, s, y, hs⟩ | hu
    · by_cases hl : bs.length < 64
      · exact ⟨_, .readShort hr hs hl⟩
      · obtain ⟨k, hk⟩ := hg n s (by rw [hs.split]; simp)
        have e := List.take_append_drop (bs.length - 64) bs
        have hl2 : (bs.drop (bs.length - 64)).length = 64 := by rw [List.length_drop]; omega
        generalize bs.take (bs.length - 64) = body at e
        generalize bs.drop (bs.length - 64) = sig at e hl2
        subst e
        cases hv : C.verifySig k body sig with
        | none => exact ⟨_, .readNoSignature hr hl2 hs hk hv⟩
        | some b =>
          cases b with
          | false => exact ⟨_, .readForged hr hl2 hs hk hv⟩
          | true =>
            rcases groupKey_cases s m.iteration with ⟨seed, s', hkey⟩ | ⟨h1, h2⟩ | ⟨h1, h2⟩
            · by_cases hpt : ∃ pt, CbcDecryption (groupCipherKey seed) (groupIv seed) m.ciphertext pt
              · obtain ⟨pt, hpt⟩ := hpt
                exact ⟨_, .read hr hl2 hs hk hv hkey hpt⟩
              · exact ⟨_, .readGarbage hr hl2 hs hk hv hkey (fun pt h => hpt ⟨pt, h⟩)⟩
            · exact ⟨_, .readAgain hr hl2 hs hk hv h1 h2⟩
            · exact ⟨_, .readLast hr hl2 hs hk hv h1 h2⟩
    · exact ⟨_, .readUnknown hne hr hu⟩

/-! ## Invariant -/

omit C in
/-- The numbers of a state fit its storage format and its signing key can be read. -/
structure GroupSane (s : SenderKeyStateS) : Prop where
  id : s.senderKeyId.getD 0 < 2 ^ 32
  iteration : iterationOf s < 2 ^ 32
  key : ∃ k, KeyOf (s.senderSigningKey.getD {}).pub k
  chain : (chainKeyOf s).length < 2 ^ 62

omit C in
/-- All stored states are such. -/
def GroupReached (g : GroupStore) : Prop := ∀ n, ∀ s ∈ (g n).senderKeyStates, GroupSane s

/-! ## `encrypt` -/

theorem senderkey_create {id it : Nat} {ct : Bytes} {priv rand : Bytes} (h1 : id < 2 ^ 32) (h2 : it < 2 ^ 32)
    (hct : ct.length < 2 ^ 64) : SenderKeyMessage.create id it ct priv rand =
      match C.calcSig rand priv (groupMessage id it ct) with
      | none => .error .valueError
      | some sig => .ok { serialized := groupMessage id it ct ++ sig, messageVersion := 3, keyId := id, iteration := it
                          ciphertext := ct } := by
  have hb : (intsToByteHighAndLow CiphertextMessage.CURRENT_VERSION CiphertextMessage.CURRENT_VERSION ::
      serializeWith SenderKeyMessageP.toFields
        { id := some id, iteration := some it, ciphertext := some ct }) = groupMessage id it ct := by
    have hv : intsToByteHighAndLow CiphertextMessage.CURRENT_VERSION CiphertextMessage.CURRENT_VERSION = 0x33 := by
      decide
    rw [hv]
    unfold serializeWith SenderKeyMessageP.toFields groupMessage
    simp only [encFields_append]
    rw [encFields_num (by decide) (by omega), encFields_num (by decide) (by omega), encFields_bytes (by decide) hct]
    rfl
  unfold SenderKeyMessage.create
  simp only
  rw [chkU32_ok h1, ok_bind, chkU32_ok h2, ok_bind, hb, calculateSignature_eq]
  cases C.calcSig rand priv (groupMessage id it ct) with
  | none => rfl
  | some sig => rw [ok_bind, ← List.cons_append, hb]; rfl

theorem encrypt_raises {g : GroupStore} {n : SenderKeyName} {pt rand : Bytes} {e : Err}
    (h : GroupCipher.encryptWithRecord (g n) pt rand = .error e) :
    GroupCall.run g (.encrypt n pt rand) = ⟨none, GroupCipher.wrapNoSession (.error e)⟩ := by
  show GroupCall.mapG GroupReply.bytes (GroupCipher.encrypt g n pt rand) = _
  unfold GroupCipher.encrypt
  rw [h]
  unfold GroupCall.mapG
  refine congrArg (GOutcome.mk _) ?_
  cases e <;> rfl

/-- `encryptWithRecord` with a sender key. -/
theorem encrypt_state (hC : C.Lawful) {r : SenderKeyRecord} {s : SenderKeyStateS} {rest : List SenderKeyStateS} {pt rand ct : Bytes}
    (hr : r.senderKeyStates = s :: rest) (hs : GroupSane s) (hpt : pt.length < 2 ^ 62)
    (hct : CbcEncryption (groupCipherKey (groupSeed (chainKeyOf s))) (groupIv (groupSeed (chainKeyOf s))) pt ct) :
    GroupCipher.encryptWithRecord r pt rand =
      match C.calcSig rand ((s.senderSigningKey.getD {}).priv.getD [])
        (groupMessage (s.senderKeyId.getD 0) (iterationOf s) ct) with
      | none => .error .valueError
      | some sig => (do
        let st ← SenderKeyState.setSenderChainKey s (SenderKeyState.getSenderChainKey s).getNext
        .ok ({ serialized := groupMessage (s.senderKeyId.getD 0) (iterationOf s) ct ++ sig, messageVersion := 3
               keyId := s.senderKeyId.getD 0, iteration := iterationOf s, ciphertext := ct },
             { senderKeyStates := st :: rest })) := by
  unfold GroupCipher.encryptWithRecord
  have hf : r.getFirstState = .ok s := by
    unfold SenderKeyRecord.getFirstState
    rw [hr]
  rw [hf, ok_bind]
  simp only
  unfold SenderChainKey.getSenderMessageKey
  rw [position_eq, chainKeyOf_eq]
  simp only [senderMessageKey_eq hC.hmac_len]
  have hlen : ct.length < 2 ^ 64 := by
    have := padded_length pt
    rw [hct.length]
    omega
  rw [show C.hmac (chainKeyOf s) SenderChainKey.MESSAGE_KEY_SEED = groupSeed (chainKeyOf s) from rfl,
    encrypt_of_cbc hC (groupCipherKey_length hC.hmac_len _) (groupIv_length hC.hmac_len _) hct, ok_bind,
    show SenderKeyState.getKeyId s = s.senderKeyId.getD 0 from rfl,
    show SenderKeyState.getSigningKeyPrivate s = (s.senderSigningKey.getD {}).priv.getD [] from rfl,
    senderkey_create hs.id hs.iteration hlen]
  cases C.calcSig rand ((s.senderSigningKey.getD {}).priv.getD [])
      (groupMessage (s.senderKeyId.getD 0) (iterationOf s) ct) with
  | none => rfl
  | some sig =>
    rw [ok_bind]
    unfold SenderKeyRecord.replace
    rw [hr]
    rfl

omit C in
theorem next_chain_ok [Crypto] {s : SenderKeyStateS} (h : iterationOf s + 1 < 2 ^ 32) :
    SenderKeyState.setSenderChainKey s (SenderKeyState.getSenderChainKey s).getNext = .ok (sentState s) := by
  unfold SenderKeyState.setSenderChainKey SenderChainKey.getNext
  simp only [position_eq, chainKeyOf_eq]
  rw [chkU32_ok h]
  rfl

omit C in
theorem next_chain_last [Crypto] {s : SenderKeyStateS} (h : 2 ^ 32 ≤ iterationOf s + 1) :
    SenderKeyState.setSenderChainKey s (SenderKeyState.getSenderChainKey s).getNext = .error .valueError := by
  unfold SenderKeyState.setSenderChainKey SenderChainKey.getNext
  simp only [position_eq, chainKeyOf_eq]
  rw [chkU32_large h]
  rfl

theorem encrypt_of (hC : C.Lawful) {g : GroupStore} (hg : GroupReached g) {n : SenderKeyName} {pt rand : Bytes}
    (hpt : pt.length < 2 ^ 62) {o : GOutcome GroupReply} (h : GroupDoes g (.encrypt n pt rand) o) :
    GroupCall.run g (.encrypt n pt rand) = o := by
  cases h with
  | sendNothing h =>
    refine encrypt_raises (e := .invalidKeyId) ?_
    unfold GroupCipher.encryptWithRecord SenderKeyRecord.getFirstState
    rw [h]
    rfl
  | @sendUnsigned _ _ _ s _ _ hs hct hsig =>
    refine encrypt_raises (e := .valueError) ?_
    rw [encrypt_state hC hs (hg n s (by rw [hs]; simp)) hpt hct, hsig]
  | @sendLast _ _ _ s _ hs hl =>
    refine encrypt_raises (e := .valueError) ?_
    obtain ⟨ct, hct⟩ := cbc_exists hC (key := groupCipherKey (groupSeed (chainKeyOf s)))
      (iv := groupIv (groupSeed (chainKeyOf s))) pt (groupCipherKey_length hC.hmac_len _) (groupIv_length hC.hmac_len _)
    rw [encrypt_state hC hs (hg n s (by rw [hs]; simp)) hpt hct, next_chain_last hl]
    cases C.calcSig rand ((s.senderSigningKey.getD {}).priv.getD [])
      (groupMessage (s.senderKeyId.getD 0) (iterationOf s) ct) <;> rfl
  | @sent _ _ _ s _ _ _ hs hl hct hsig =>
    show GroupCall.mapG GroupReply.bytes (GroupCipher.encrypt g n pt rand) = _
    unfold GroupCipher.encrypt
    rw [encrypt_state hC hs (hg n s (by rw [hs]; simp)) hpt hct, hsig, next_chain_ok hl]
    rfl

theorem encrypt_exists (hC : C.Lawful) (g : GroupStore) (n : SenderKeyName) (pt rand : Bytes) :
    ∃ o, GroupDoes g (.encrypt n pt rand) o := by
  cases hs : (g n).senderKeyStates with
  | nil => exact ⟨_, .sendNothing hs⟩
  | cons s rest =>
    obtain ⟨ct, hct⟩ := cbc_exists hC (key := groupCipherKey (groupSeed (chainKeyOf s)))
      (iv := groupIv (groupSeed (chainKeyOf s))) pt (groupCipherKey_length hC.hmac_len _) (groupIv_length hC.hmac_len _)
    cases hsig : C.calcSig rand ((s.senderSigningKey.getD {}).priv.getD [])
      (groupMessage (s.senderKeyId.getD 0) (iterationOf s) ct) with
    | none => exact ⟨_, .sendUnsigned hs hct hsig⟩
    | some sig =>
      by_cases hl : iterationOf s + 1 < 2 ^ 32
      · exact ⟨_, .sent hs hl hct hsig⟩
      · exact ⟨_, .sendLast hs (Nat.not_lt.1 hl)⟩

/-! ## `process` and `create` -/

omit C in
theorem distribution_create {id it : Nat} {ck : Bytes} {pub : ECPub} (h1 : id < 2 ^ 32) (h2 : it < 2 ^ 32)
    (hp : pub.length ≤ 32) (hl : ck.length < 2 ^ 62) : SenderKeyDistributionMessage.create id it ck pub =
      .ok { serialized := distributionMessage id it ck pub, id := id, iteration := it, chainKey := ck, signatureKey := pub } := by
  have hd : ∃ m, SenderKeyDistributionMessage.create id it ck pub = .ok m ∧ m.id = id ∧ m.iteration = it ∧
      m.chainKey = ck ∧ m.signatureKey = pub := by
    unfold SenderKeyDistributionMessage.create
    simp only
    rw [chkU32_ok h1, ok_bind, chkU32_ok h2, ok_bind]
    exact ⟨_, rfl, rfl, rfl, rfl, rfl⟩
  obtain ⟨m, hm, e1, e2, e3, e4⟩ := hd
  have hb := distribution_bytes hm hp (by omega)
  rw [hm, ← hb]
  obtain ⟨a, b, c, d, e⟩ := m
  simp only at e1 e2 e3 e4
  subst e1 e2 e3 e4
  rfl

omit C in
theorem distributionOf_state {r : SenderKeyRecord} {s : SenderKeyStateS} {rest : List SenderKeyStateS} {k : ECPub}
    (hr : r.senderKeyStates = s :: rest) (hs : GroupSane s) (hk : KeyOf (s.senderSigningKey.getD {}).pub k) :
    GroupSessionBuilder.distributionOf r = .ok (announcement s k) := by
  unfold GroupSessionBuilder.distributionOf
  have hf : r.getFirstState = .ok s := by
    unfold SenderKeyRecord.getFirstState
    rw [hr]
  rw [hf, ok_bind, show SenderKeyState.getSigningKeyPublic s = .ok k from KeyOf_iff.1 hk, ok_bind, position_eq, chainKeyOf_eq]
  exact distribution_create hs.id hs.iteration hk.length_le hs.chain

theorem createdState_sane (hC : C.Lawful) {rnd : GroupSessionBuilder.CreateRand} (h1 : rnd.keyId < 2 ^ 32)
    (h2 : rnd.senderKey.length < 2 ^ 62) (h3 : rnd.signSeed.length = 32) :
    GroupSane (createdState rnd) ∧
      KeyOf ((createdState rnd).senderSigningKey.getD {}).pub (C.genPub (C.genPriv rnd.signSeed)) := by
  have hl : (C.genPub (C.genPriv rnd.signSeed)).length = 32 := hC.genPub_len _ (hC.genPriv_len _ h3)
  have hk : KeyOf ((createdState rnd).senderSigningKey.getD {}).pub (C.genPub (C.genPriv rnd.signSeed)) :=
    ⟨_, rfl, (List.take_of_length_le (by omega)).symm⟩
  exact ⟨⟨h1, Nat.two_pow_pos 32, ⟨_, hk⟩, h2⟩, hk⟩

theorem create_of (hC : C.Lawful) {g : GroupStore} (hg : GroupReached g) {n : SenderKeyName}
    {rnd : GroupSessionBuilder.CreateRand} (h2 : rnd.senderKey.length < 2 ^ 62) (h3 : rnd.signSeed.length = 32)
    {o : GOutcome GroupReply} (h : GroupDoes g (.create n rnd) o) : GroupCall.run g (.create n rnd) = o := by
  show GroupCall.mapG GroupReply.distribution (GroupSessionBuilder.create g n rnd) = o
  cases h with
  | @createKnown _ _ s _ _ hs hk =>
    rw [create_again (by rw [hs]; simp), distributionOf_state hs (hg n s (by rw [hs]; simp)) hk]
    rfl
  | created hs h1 he =>
    subst he
    rw [create_new hs h1, distributionOf_state rfl (createdState_sane hC h1 h2 h3).1 (createdState_sane hC h1 h2 h3).2]
    rfl
  | createBad hs h1 =>
    rw [create_bad hs (by omega)]
    rfl

theorem create_exists {g : GroupStore} (hg : GroupReached g) (n : SenderKeyName) (rnd : GroupSessionBuilder.CreateRand) :
    ∃ o, GroupDoes g (.create n rnd) o := by
  cases hs : (g n).senderKeyStates with
  | nil =>
    by_cases h1 : rnd.keyId < 2 ^ 32
    · exact ⟨_, .created hs h1 rfl⟩
    · exact ⟨_, .createBad hs (Nat.not_lt.1 h1)⟩
  | cons s rest =>
    obtain ⟨k, hk⟩ := (hg n s (by rw [hs]; simp)).key
    exact ⟨_, .createKnown hs hk⟩

theorem process_of {g : GroupStore} {n : SenderKeyName} {m : SenderKeyDistributionMessage} {o : GOutcome GroupReply}
    (h : GroupDoes g (.process n m) o) : GroupCall.run g (.process n m) = o := by
  show GroupCall.mapG (fun _ => GroupReply.done) (GroupSessionBuilder.process g n m) = o
  cases h with
  | processed h1 h2 =>
    rw [process_good h1 h2]
    rfl
  | processBad h =>
    rw [process_bad (by omega)]
    rfl

/-! ## All calls -/

theorem groupDoes_run (hC : C.Lawful) {g : GroupStore} (hg : GroupReached g) {c : GroupCall} (hc : GroupSized c)
    {o : GOutcome GroupReply} (h : GroupDoes g c o) : c.run g = o := by
  cases c with
  | encrypt n pt rand => exact encrypt_of hC hg hc h
  | decrypt n bs => exact decrypt_of hC (fun n s hs => (hg n s hs).key) h
  | process n m => exact process_of h
  | create n rnd => exact create_of hC hg hc.1 hc.2 h

theorem groupDoes_exists (hC : C.Lawful) {g : GroupStore} (hg : GroupReached g) (c : GroupCall) : ∃ o, GroupDoes g c o := by
  cases c with
  | encrypt n pt rand => exact encrypt_exists hC g n pt rand
  | decrypt n bs => exact decrypt_exists (fun n s hs => (hg n s hs).key) n bs
  | process n m =>
    by_cases h : m.id < 2 ^ 32 ∧ m.iteration < 2 ^ 32
    · exact ⟨_, .processed h.1 h.2⟩
    · exact ⟨_, .processBad (by omega)⟩
  | create n rnd => exact create_exists hg n rnd

theorem chainAt_length (hlen : ∀ k m, (C.hmac k m).length = 32) {k : Bytes} (hk : k.length < 2 ^ 62) (n : Nat) :
    (chainAt k n).length < 2 ^ 62 := by
  cases n with
  | zero => exact hk
  | succ n =>
    show (C.hmac _ _).length < _
    rw [hlen]
    omega

theorem groupKey_sane (hlen : ∀ k m, (C.hmac k m).length = 32) {s s' : SenderKeyStateS} {i : Nat} {seed : Bytes}
    (h : GroupKey s i seed s') (hs : GroupSane s) : GroupSane s' := by
  cases h with
  | kept => exact ⟨hs.id, hs.iteration, hs.key, hs.chain⟩
  | ahead hi hb => exact ⟨hs.id, hb, hs.key, chainAt_length hlen hs.chain _⟩

/-- Every call leaves such states. -/
theorem groupDoes_sane (hC : C.Lawful) {g : GroupStore} (hg : GroupReached g) {c : GroupCall} (hc : GroupSized c)
    {o : GOutcome GroupReply} (h : GroupDoes g c o) : GroupReached (groupStored g c.name o) := by
  intro n s hs
  unfold groupStored at hs
  split at hs
  · rename_i hn
    subst hn
    cases h with
    | sendNothing | sendUnsigned | sendLast | readNothing | readOther | readUnknown | readShort | readNoSignature
    | readForged | readAgain | readLast | readGarbage | processBad | createKnown | createBad => exact hg _ s hs
    | @sent n' _ _ t rest _ _ ht hl _ _ =>
      have hold := hg n' t (by rw [ht]; simp)
      rcases List.mem_cons.1 hs with rfl | hs
      · exact ⟨hold.id, hl, hold.key, by show (C.hmac _ _).length < _; rw [hC.hmac_len]; omega⟩
      · exact hg n' s (by rw [ht]; exact List.mem_cons_of_mem _ hs)
    | @read n' _ _ _ x y t t' _ _ _ hm hl hst hk hv hkey hpt =>
      have hmem : ∀ z ∈ x ++ t :: y, GroupSane z := fun z hz => hg n' z (by rw [hst.split]; exact hz)
      have hs : s ∈ x ++ t' :: y := hs
      rcases List.mem_append.1 hs with hs | hs
      · exact hmem s (List.mem_append_left _ hs)
      · rcases List.mem_cons.1 hs with rfl | hs
        · exact groupKey_sane hC.hmac_len hkey (hmem t (by simp))
        · exact hmem s (by simp [hs])
    | @processed n' m h1 h2 =>
      have hs : s ∈ (g n').senderKeyStates ++ [addedState m] := hs
      rcases List.mem_append.1 hs with hs | hs
      · exact hg n' s hs
      · rw [List.mem_singleton.1 hs]
        exact ⟨h1, h2, ⟨_, _, rfl, rfl⟩, hc⟩
    | @created n' rnd t h0 h1 ht =>
      have hs : s ∈ [t] := hs
      rw [List.mem_singleton.1 hs, ht]
      exact (createdState_sane hC h1 hc.1 hc.2).1
  · exact hg n s hs

theorem next_stored (g : GroupStore) (c : GroupCall) : c.next g = groupStored g c.name (c.run g) := by
  unfold GroupCall.next GOutcome.final groupStored
  funext x
  cases (c.run g).stored with
  | none =>
    simp only [Option.getD_none]
    split
    · rename_i h; rw [h]
    · rfl
  | some r => rfl

theorem groupReached (hC : C.Lawful) (cs : List GroupCall) (hcs : ∀ c ∈ cs, GroupSized c) :
    GroupReached (GroupCall.after GroupStore.empty cs) := by
  have key : ∀ (cs : List GroupCall) (g : GroupStore), GroupReached g → (∀ c ∈ cs, GroupSized c) →
      GroupReached (GroupCall.after g cs) := by
    intro cs
    induction cs with
    | nil => intro g hg _; exact hg
    | cons c cs ih =>
      intro g hg hcs
      refine ih (c.next g) ?_ (fun d hd => hcs d (List.mem_cons_of_mem _ hd))
      obtain ⟨o, ho⟩ := groupDoes_exists hC hg c
      have hc := hcs c (List.mem_cons_self ..)
      rw [next_stored, groupDoes_run hC hg hc ho]
      exact groupDoes_sane hC hg hc ho
  exact key cs _ (fun n s hs => by cases hs) hcs

/-- **C61.** After any history of group calls, a group call does exactly what the list of cases says. -/
theorem C61_exact (hC : C.Lawful) (cs : List GroupCall) (hcs : ∀ c ∈ cs, GroupSized c) (c : GroupCall) (hc : GroupSized c)
    (o : GOutcome GroupReply) :
    GroupDoes (GroupCall.after GroupStore.empty cs) c o ↔ c.run (GroupCall.after GroupStore.empty cs) = o := by
  have hg := groupReached hC cs hcs
  constructor
  · exact groupDoes_run hC hg hc
  · rintro rfl
    obtain ⟨o, ho⟩ := groupDoes_exists hC hg c
    rwa [groupDoes_run hC hg hc ho]

/-- **C61.** The cases leave nothing out and exclude each other. -/
theorem C61_one_outcome (hC : C.Lawful) (cs : List GroupCall) (hcs : ∀ c ∈ cs, GroupSized c) (c : GroupCall)
    (hc : GroupSized c) :
    ∃ o, GroupDoes (GroupCall.after GroupStore.empty cs) c o ∧
      ∀ o', GroupDoes (GroupCall.after GroupStore.empty cs) c o' → o' = o := by
  refine ⟨_, (C61_exact hC cs hcs c hc _).2 rfl, fun o' h => ?_⟩
  exact ((C61_exact hC cs hcs c hc o').1 h).symm

/-- The outcomes of a history. -/
def groupOutcomes : GroupStore → List GroupCall → List (GOutcome GroupReply)
  | _, [] => []
  | g, c :: cs => c.run g :: groupOutcomes (c.next g) cs

/-- **C61.** A history runs exactly as the list of cases says. -/
theorem C61_history (hC : C.Lawful) (cs : List GroupCall) (hcs : ∀ c ∈ cs, GroupSized c) (os : List (GOutcome GroupReply))
    (g : GroupStore) :
    GroupRuns GroupStore.empty cs os g ↔
      os = groupOutcomes GroupStore.empty cs ∧ g = GroupCall.after GroupStore.empty cs := by
  have key : ∀ (cs : List GroupCall) (g0 : GroupStore), GroupReached g0 → (∀ c ∈ cs, GroupSized c) →
      ∀ os g, GroupRuns g0 cs os g ↔ os = groupOutcomes g0 cs ∧ g = GroupCall.after g0 cs := by
    intro cs
    induction cs with
    | nil =>
      intro g0 _ _ os g
      constructor
      · intro h; cases h; exact ⟨rfl, rfl⟩
      · rintro ⟨rfl, rfl⟩; exact .nil
    | cons c cs ih =>
      intro g0 hg hcs os g
      have hc := hcs c (List.mem_cons_self ..)
      have hcs' : ∀ d ∈ cs, GroupSized d := fun d hd => hcs d (List.mem_cons_of_mem _ hd)
      obtain ⟨o, ho⟩ := groupDoes_exists hC hg c
      have hr := groupDoes_run hC hg hc ho
      have hs := groupDoes_sane hC hg hc ho
      have hn : c.next g0 = groupStored g0 c.name o := by rw [next_stored, hr]
      constructor
      · intro h
        cases h with
        | cons h1 h2 =>
          have e := groupDoes_run hC hg hc h1
          rw [hr] at e
          subst e
          obtain ⟨e1, e2⟩ := (ih _ hs hcs' _ _).1 h2
          subst e1 e2
          rw [← hn, ← hr]
          exact ⟨rfl, rfl⟩
      · rintro ⟨rfl, rfl⟩
        show GroupRuns g0 (c :: cs) (c.run g0 :: groupOutcomes (c.next g0) cs) (GroupCall.after (c.next g0) cs)
        rw [hr, hn]
        exact .cons ho ((ih _ hs hcs' _ _).2 ⟨rfl, rfl⟩)
  exact key cs _ (fun n s hs => by cases hs) hcs os g

end

/-! ## Concrete cases -/

section
attribute [local instance] toy
open Example Spec

/-- A name under which the same device follows the sender key it made. -/
def Example.grpCopy : SenderKeyName := { grp with groupId := "copy" }

/-- A sender key is made, used and followed under another name; the message is read, read again and altered. -/
def Example.grpHistory : List GroupCall :=
  let sent := match ((GroupCall.encrypt grp [104, 105] (List.replicate 64 3)).run
      (GroupCall.after GroupStore.empty [.create grp grpRand])).result with
    | .ok (.bytes b) => b
    | _ => []
  [.encrypt grp [1] (List.replicate 64 3), .create grp grpRand, .encrypt grp [104, 105] (List.replicate 64 3),
   .process grpCopy grpDist, .decrypt grpCopy sent, .decrypt grpCopy sent, .decrypt grpCopy (sent.dropLast ++ [77]),
   .decrypt grpCopy ([0x33, 8, 0xcd, 0, 16, 0, 26, 2, 1, 1] ++ List.replicate 27 0), .decrypt grpCopy [0x33], .encrypt grpCopy [1] (List.replicate 64 3)]

/-- `C61_history`: its hypotheses hold for that history, and the specification says what it does. -/
example : ∃ os g, GroupRuns GroupStore.empty grpHistory os g :=
  ⟨_, _, (C61_history toy_lawful grpHistory
    (by
      intro c hc
      simp only [grpHistory, List.mem_cons, List.not_mem_nil, or_false] at hc
      rcases hc with rfl | rfl | rfl | rfl | rfl | rfl | rfl | rfl | rfl | rfl
      · exact (by decide : 1 < 2 ^ 62)
      · exact ⟨by decide +kernel, by decide +kernel⟩
      · exact (by decide : 2 < 2 ^ 62)
      · exact (by decide +kernel : grpDist.chainKey.length < 2 ^ 62)
      · trivial
      · trivial
      · trivial
      · trivial
      · trivial
      · exact (by decide : 1 < 2 ^ 62)) _ _).2 ⟨rfl, rfl⟩⟩


/-- The errors in that history. -/
example : ((groupOutcomes GroupStore.empty grpHistory).map fun o => match o.result with
    | .ok _ => none | .error e => some e) =
    [some .noSession, none, none, none, none, some .duplicateMessage, some .invalidMessage, some .valueError,
     some .invalidMessage, some .valueError] := by decide +kernel

end
end Axolotl
