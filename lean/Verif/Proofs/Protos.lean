import Verif.Proofs.Wire

/-! Every protobuf structure reads back what it wrote, provided its integers are in range
(`X.Ok`, the range checks protobuf itself makes on assignment). -/

namespace Axolotl
open Wire

macro "wire_simp" : tactic => `(tactic|
  simp [allVarint_append, allLen_append, allI64_append, allVarint_putVarint, allVarint_putBool,
    allVarint_putI32, allVarint_putBytes, allVarint_putFixed64, allVarint_putMsg, allVarint_putRep,
    allLen_putVarint, allLen_putBool, allLen_putI32, allLen_putFixed64, allLen_putBytes,
    allLen_putMsg, allLen_putRep, allI64_putVarint, allI64_putBytes, allI64_putFixed64])

theorem parseWith_serializeWith {α : Type} (t : α → List Field) (o : List Field → Option α) (a : α)
    (hok : AllOk (t a)) (hs : (encFields (t a)).length < 2 ^ 64) (h : o (t a) = some a) :
    parseWith o (serializeWith t a) = .ok a := by
  unfold parseWith serializeWith
  rw [decFields_encFields _ hok hs]
  simp only [h]

/-- integer fields of `WhisperMessageP` are in range -/
structure WhisperMessageP.Ok (m : WhisperMessageP) : Prop where
  counter : OptLt m.counter (2 ^ 32)
  previousCounter : OptLt m.previousCounter (2 ^ 32)

theorem WhisperMessageP.allOk (m : WhisperMessageP) (h : m.Ok) : AllOk m.toFields :=
  (AllOk.append (AllOk.append (AllOk.append (AllOk.putBytes 1 _ (by omega) (by omega))
    (AllOk.putVarint 2 _ (by omega) (by omega) h.counter))
    (AllOk.putVarint 3 _ (by omega) (by omega) h.previousCounter))
    (AllOk.putBytes 4 _ (by omega) (by omega)))

theorem WhisperMessageP.ofFields_toFields (m : WhisperMessageP) (h : m.Ok) :
    WhisperMessageP.ofFields m.toFields = some m := by
  have e1 : getBytes 1 m.toFields = m.ratchetKey := getBytes_of _ _ _ (by unfold WhisperMessageP.toFields; wire_simp)
  have e2 : getU32 2 m.toFields = m.counter := getU32_of _ _ _ (by unfold WhisperMessageP.toFields; wire_simp) h.counter
  have e3 : getU32 3 m.toFields = m.previousCounter := getU32_of _ _ _ (by unfold WhisperMessageP.toFields; wire_simp) h.previousCounter
  have e4 : getBytes 4 m.toFields = m.ciphertext := getBytes_of _ _ _ (by unfold WhisperMessageP.toFields; wire_simp)
  unfold WhisperMessageP.ofFields
  rw [e1, e2, e3, e4]

theorem WhisperMessageP.parse_serialize (m : WhisperMessageP) (h : m.Ok)
    (hs : (serializeWith WhisperMessageP.toFields m).length < 2 ^ 64) :
    parseWith WhisperMessageP.ofFields (serializeWith WhisperMessageP.toFields m) = .ok m :=
  parseWith_serializeWith _ _ m (m.allOk h) hs (m.ofFields_toFields h)

/-- integer fields of `PreKeyWhisperMessageP` are in range -/
structure PreKeyWhisperMessageP.Ok (m : PreKeyWhisperMessageP) : Prop where
  preKeyId : OptLt m.preKeyId (2 ^ 32)
  registrationId : OptLt m.registrationId (2 ^ 32)
  signedPreKeyId : OptLt m.signedPreKeyId (2 ^ 32)

theorem PreKeyWhisperMessageP.allOk (m : PreKeyWhisperMessageP) (h : m.Ok) : AllOk m.toFields :=
  (AllOk.append (AllOk.append (AllOk.append (AllOk.append (AllOk.append (AllOk.putVarint 1 _ (by omega) (by omega) h.preKeyId)
    (AllOk.putBytes 2 _ (by omega) (by omega)))
    (AllOk.putBytes 3 _ (by omega) (by omega)))
    (AllOk.putBytes 4 _ (by omega) (by omega)))
    (AllOk.putVarint 5 _ (by omega) (by omega) h.registrationId))
    (AllOk.putVarint 6 _ (by omega) (by omega) h.signedPreKeyId))

theorem PreKeyWhisperMessageP.ofFields_toFields (m : PreKeyWhisperMessageP) (h : m.Ok) :
    PreKeyWhisperMessageP.ofFields m.toFields = some m := by
  have e1 : getU32 1 m.toFields = m.preKeyId := getU32_of _ _ _ (by unfold PreKeyWhisperMessageP.toFields; wire_simp) h.preKeyId
  have e2 : getBytes 2 m.toFields = m.baseKey := getBytes_of _ _ _ (by unfold PreKeyWhisperMessageP.toFields; wire_simp)
  have e3 : getBytes 3 m.toFields = m.identityKey := getBytes_of _ _ _ (by unfold PreKeyWhisperMessageP.toFields; wire_simp)
  have e4 : getBytes 4 m.toFields = m.message := getBytes_of _ _ _ (by unfold PreKeyWhisperMessageP.toFields; wire_simp)
  have e5 : getU32 5 m.toFields = m.registrationId := getU32_of _ _ _ (by unfold PreKeyWhisperMessageP.toFields; wire_simp) h.registrationId
  have e6 : getU32 6 m.toFields = m.signedPreKeyId := getU32_of _ _ _ (by unfold PreKeyWhisperMessageP.toFields; wire_simp) h.signedPreKeyId
  unfold PreKeyWhisperMessageP.ofFields
  rw [e1, e2, e3, e4, e5, e6]

theorem PreKeyWhisperMessageP.parse_serialize (m : PreKeyWhisperMessageP) (h : m.Ok)
    (hs : (serializeWith PreKeyWhisperMessageP.toFields m).length < 2 ^ 64) :
    parseWith PreKeyWhisperMessageP.ofFields (serializeWith PreKeyWhisperMessageP.toFields m) = .ok m :=
  parseWith_serializeWith _ _ m (m.allOk h) hs (m.ofFields_toFields h)

/-- integer fields of `KeyExchangeMessageP` are in range -/
structure KeyExchangeMessageP.Ok (m : KeyExchangeMessageP) : Prop where
  id : OptLt m.id (2 ^ 32)

theorem KeyExchangeMessageP.allOk (m : KeyExchangeMessageP) (h : m.Ok) : AllOk m.toFields :=
  (AllOk.append (AllOk.append (AllOk.append (AllOk.append (AllOk.putVarint 1 _ (by omega) (by omega) h.id)
    (AllOk.putBytes 2 _ (by omega) (by omega)))
    (AllOk.putBytes 3 _ (by omega) (by omega)))
    (AllOk.putBytes 4 _ (by omega) (by omega)))
    (AllOk.putBytes 5 _ (by omega) (by omega)))

theorem KeyExchangeMessageP.ofFields_toFields (m : KeyExchangeMessageP) (h : m.Ok) :
    KeyExchangeMessageP.ofFields m.toFields = some m := by
  have e1 : getU32 1 m.toFields = m.id := getU32_of _ _ _ (by unfold KeyExchangeMessageP.toFields; wire_simp) h.id
  have e2 : getBytes 2 m.toFields = m.baseKey := getBytes_of _ _ _ (by unfold KeyExchangeMessageP.toFields; wire_simp)
  have e3 : getBytes 3 m.toFields = m.ratchetKey := getBytes_of _ _ _ (by unfold KeyExchangeMessageP.toFields; wire_simp)
  have e4 : getBytes 4 m.toFields = m.identityKey := getBytes_of _ _ _ (by unfold KeyExchangeMessageP.toFields; wire_simp)
  have e5 : getBytes 5 m.toFields = m.baseKeySignature := getBytes_of _ _ _ (by unfold KeyExchangeMessageP.toFields; wire_simp)
  unfold KeyExchangeMessageP.ofFields
  rw [e1, e2, e3, e4, e5]

theorem KeyExchangeMessageP.parse_serialize (m : KeyExchangeMessageP) (h : m.Ok)
    (hs : (serializeWith KeyExchangeMessageP.toFields m).length < 2 ^ 64) :
    parseWith KeyExchangeMessageP.ofFields (serializeWith KeyExchangeMessageP.toFields m) = .ok m :=
  parseWith_serializeWith _ _ m (m.allOk h) hs (m.ofFields_toFields h)

/-- integer fields of `SenderKeyMessageP` are in range -/
structure SenderKeyMessageP.Ok (m : SenderKeyMessageP) : Prop where
  id : OptLt m.id (2 ^ 32)
  iteration : OptLt m.iteration (2 ^ 32)

theorem SenderKeyMessageP.allOk (m : SenderKeyMessageP) (h : m.Ok) : AllOk m.toFields :=
  (AllOk.append (AllOk.append (AllOk.putVarint 1 _ (by omega) (by omega) h.id)
    (AllOk.putVarint 2 _ (by omega) (by omega) h.iteration))
    (AllOk.putBytes 3 _ (by omega) (by omega)))

theorem SenderKeyMessageP.ofFields_toFields (m : SenderKeyMessageP) (h : m.Ok) :
    SenderKeyMessageP.ofFields m.toFields = some m := by
  have e1 : getU32 1 m.toFields = m.id := getU32_of _ _ _ (by unfold SenderKeyMessageP.toFields; wire_simp) h.id
  have e2 : getU32 2 m.toFields = m.iteration := getU32_of _ _ _ (by unfold SenderKeyMessageP.toFields; wire_simp) h.iteration
  have e3 : getBytes 3 m.toFields = m.ciphertext := getBytes_of _ _ _ (by unfold SenderKeyMessageP.toFields; wire_simp)
  unfold SenderKeyMessageP.ofFields
  rw [e1, e2, e3]

theorem SenderKeyMessageP.parse_serialize (m : SenderKeyMessageP) (h : m.Ok)
    (hs : (serializeWith SenderKeyMessageP.toFields m).length < 2 ^ 64) :
    parseWith SenderKeyMessageP.ofFields (serializeWith SenderKeyMessageP.toFields m) = .ok m :=
  parseWith_serializeWith _ _ m (m.allOk h) hs (m.ofFields_toFields h)

/-- integer fields of `SenderKeyDistributionMessageP` are in range -/
structure SenderKeyDistributionMessageP.Ok (m : SenderKeyDistributionMessageP) : Prop where
  id : OptLt m.id (2 ^ 32)
  iteration : OptLt m.iteration (2 ^ 32)

theorem SenderKeyDistributionMessageP.allOk (m : SenderKeyDistributionMessageP) (h : m.Ok) : AllOk m.toFields :=
  (AllOk.append (AllOk.append (AllOk.append (AllOk.putVarint 1 _ (by omega) (by omega) h.id)
    (AllOk.putVarint 2 _ (by omega) (by omega) h.iteration))
    (AllOk.putBytes 3 _ (by omega) (by omega)))
    (AllOk.putBytes 4 _ (by omega) (by omega)))

theorem SenderKeyDistributionMessageP.ofFields_toFields (m : SenderKeyDistributionMessageP) (h : m.Ok) :
    SenderKeyDistributionMessageP.ofFields m.toFields = some m := by
  have e1 : getU32 1 m.toFields = m.id := getU32_of _ _ _ (by unfold SenderKeyDistributionMessageP.toFields; wire_simp) h.id
  have e2 : getU32 2 m.toFields = m.iteration := getU32_of _ _ _ (by unfold SenderKeyDistributionMessageP.toFields; wire_simp) h.iteration
  have e3 : getBytes 3 m.toFields = m.chainKey := getBytes_of _ _ _ (by unfold SenderKeyDistributionMessageP.toFields; wire_simp)
  have e4 : getBytes 4 m.toFields = m.signingKey := getBytes_of _ _ _ (by unfold SenderKeyDistributionMessageP.toFields; wire_simp)
  unfold SenderKeyDistributionMessageP.ofFields
  rw [e1, e2, e3, e4]

theorem SenderKeyDistributionMessageP.parse_serialize (m : SenderKeyDistributionMessageP) (h : m.Ok)
    (hs : (serializeWith SenderKeyDistributionMessageP.toFields m).length < 2 ^ 64) :
    parseWith SenderKeyDistributionMessageP.ofFields (serializeWith SenderKeyDistributionMessageP.toFields m) = .ok m :=
  parseWith_serializeWith _ _ m (m.allOk h) hs (m.ofFields_toFields h)

/-- integer fields of `ChainKeyS` are in range -/
structure ChainKeyS.Ok (m : ChainKeyS) : Prop where
  index : OptLt m.index (2 ^ 32)

theorem ChainKeyS.allOk (m : ChainKeyS) (h : m.Ok) : AllOk m.toFields :=
  (AllOk.append (AllOk.putVarint 1 _ (by omega) (by omega) h.index)
    (AllOk.putBytes 2 _ (by omega) (by omega)))

theorem ChainKeyS.ofFields_toFields (m : ChainKeyS) (h : m.Ok) :
    ChainKeyS.ofFields m.toFields = some m := by
  have e1 : getU32 1 m.toFields = m.index := getU32_of _ _ _ (by unfold ChainKeyS.toFields; wire_simp) h.index
  have e2 : getBytes 2 m.toFields = m.key := getBytes_of _ _ _ (by unfold ChainKeyS.toFields; wire_simp)
  unfold ChainKeyS.ofFields
  rw [e1, e2]

theorem ChainKeyS.parse_serialize (m : ChainKeyS) (h : m.Ok)
    (hs : (serializeWith ChainKeyS.toFields m).length < 2 ^ 64) :
    parseWith ChainKeyS.ofFields (serializeWith ChainKeyS.toFields m) = .ok m :=
  parseWith_serializeWith _ _ m (m.allOk h) hs (m.ofFields_toFields h)

/-- integer fields of `MessageKeyS` are in range -/
structure MessageKeyS.Ok (m : MessageKeyS) : Prop where
  index : OptLt m.index (2 ^ 32)

theorem MessageKeyS.allOk (m : MessageKeyS) (h : m.Ok) : AllOk m.toFields :=
  (AllOk.append (AllOk.append (AllOk.append (AllOk.putVarint 1 _ (by omega) (by omega) h.index)
    (AllOk.putBytes 2 _ (by omega) (by omega)))
    (AllOk.putBytes 3 _ (by omega) (by omega)))
    (AllOk.putBytes 4 _ (by omega) (by omega)))

theorem MessageKeyS.ofFields_toFields (m : MessageKeyS) (h : m.Ok) :
    MessageKeyS.ofFields m.toFields = some m := by
  have e1 : getU32 1 m.toFields = m.index := getU32_of _ _ _ (by unfold MessageKeyS.toFields; wire_simp) h.index
  have e2 : getBytes 2 m.toFields = m.cipherKey := getBytes_of _ _ _ (by unfold MessageKeyS.toFields; wire_simp)
  have e3 : getBytes 3 m.toFields = m.macKey := getBytes_of _ _ _ (by unfold MessageKeyS.toFields; wire_simp)
  have e4 : getBytes 4 m.toFields = m.iv := getBytes_of _ _ _ (by unfold MessageKeyS.toFields; wire_simp)
  unfold MessageKeyS.ofFields
  rw [e1, e2, e3, e4]

theorem MessageKeyS.parse_serialize (m : MessageKeyS) (h : m.Ok)
    (hs : (serializeWith MessageKeyS.toFields m).length < 2 ^ 64) :
    parseWith MessageKeyS.ofFields (serializeWith MessageKeyS.toFields m) = .ok m :=
  parseWith_serializeWith _ _ m (m.allOk h) hs (m.ofFields_toFields h)

/-- integer fields of `ChainS` are in range -/
structure ChainS.Ok (m : ChainS) : Prop where
  chainKey : ∀ a, m.chainKey = some a → a.Ok
  messageKeys : ∀ a ∈ m.messageKeys, a.Ok

theorem ChainS.allOk (m : ChainS) (_h : m.Ok) : AllOk m.toFields :=
  (AllOk.append (AllOk.append (AllOk.append (AllOk.putBytes 1 _ (by omega) (by omega))
    (AllOk.putBytes 2 _ (by omega) (by omega)))
    (AllOk.putMsg 3 _ _ (by omega) (by omega)))
    (AllOk.putRep 4 _ _ (by omega) (by omega)))

theorem ChainS.ofFields_toFields (m : ChainS) (h : m.Ok) (hs : (encFields m.toFields).length < 2 ^ 64) :
    ChainS.ofFields m.toFields = some m := by
  have e1 : getBytes 1 m.toFields = m.senderRatchetKey := getBytes_of _ _ _ (by unfold ChainS.toFields; wire_simp)
  have e2 : getBytes 2 m.toFields = m.senderRatchetKeyPrivate := getBytes_of _ _ _ (by unfold ChainS.toFields; wire_simp)
  have e3 : getMsg 3 ChainKeyS.ofFields m.toFields = some m.chainKey := by
    refine getMsg_of _ _ ChainKeyS.toFields _ _ (by unfold ChainS.toFields; wire_simp) ?_
    intro a ha
    have hl := putMsg_len_le 3 ChainKeyS.toFields _ a ha
    have hl2 : (encFields a.toFields).length < 2 ^ 64 := by
      unfold ChainS.toFields at hs
      simp only [encFields_append, List.length_append] at hs
      omega
    exact ⟨a.allOk (h.chainKey a ha), hl2, a.ofFields_toFields (h.chainKey a ha)⟩
  have e4 : getRep 4 MessageKeyS.ofFields m.toFields = some m.messageKeys := by
    refine getRep_of _ _ MessageKeyS.toFields _ _ (by unfold ChainS.toFields; wire_simp) ?_
    intro a ha
    have hl := putRep_len_le 4 MessageKeyS.toFields _ a ha
    have hl2 : (encFields a.toFields).length < 2 ^ 64 := by
      unfold ChainS.toFields at hs
      simp only [encFields_append, List.length_append] at hs
      omega
    exact ⟨a.allOk (h.messageKeys a ha), hl2, a.ofFields_toFields (h.messageKeys a ha)⟩
  unfold ChainS.ofFields
  simp only [e1, e2, e3, e4]
  rfl

theorem ChainS.parse_serialize (m : ChainS) (h : m.Ok)
    (hs : (serializeWith ChainS.toFields m).length < 2 ^ 64) :
    parseWith ChainS.ofFields (serializeWith ChainS.toFields m) = .ok m :=
  parseWith_serializeWith _ _ m (m.allOk h) hs (m.ofFields_toFields h hs)

/-- integer fields of `PendingKeyExchangeS` are in range -/
structure PendingKeyExchangeS.Ok (m : PendingKeyExchangeS) : Prop where
  sequence : OptLt m.sequence (2 ^ 32)

theorem PendingKeyExchangeS.allOk (m : PendingKeyExchangeS) (h : m.Ok) : AllOk m.toFields :=
  (AllOk.append (AllOk.append (AllOk.append (AllOk.append (AllOk.append (AllOk.append (AllOk.putVarint 1 _ (by omega) (by omega) h.sequence)
    (AllOk.putBytes 2 _ (by omega) (by omega)))
    (AllOk.putBytes 3 _ (by omega) (by omega)))
    (AllOk.putBytes 4 _ (by omega) (by omega)))
    (AllOk.putBytes 5 _ (by omega) (by omega)))
    (AllOk.putBytes 7 _ (by omega) (by omega)))
    (AllOk.putBytes 8 _ (by omega) (by omega)))

theorem PendingKeyExchangeS.ofFields_toFields (m : PendingKeyExchangeS) (h : m.Ok) :
    PendingKeyExchangeS.ofFields m.toFields = some m := by
  have e1 : getU32 1 m.toFields = m.sequence := getU32_of _ _ _ (by unfold PendingKeyExchangeS.toFields; wire_simp) h.sequence
  have e2 : getBytes 2 m.toFields = m.localBaseKey := getBytes_of _ _ _ (by unfold PendingKeyExchangeS.toFields; wire_simp)
  have e3 : getBytes 3 m.toFields = m.localBaseKeyPrivate := getBytes_of _ _ _ (by unfold PendingKeyExchangeS.toFields; wire_simp)
  have e4 : getBytes 4 m.toFields = m.localRatchetKey := getBytes_of _ _ _ (by unfold PendingKeyExchangeS.toFields; wire_simp)
  have e5 : getBytes 5 m.toFields = m.localRatchetKeyPrivate := getBytes_of _ _ _ (by unfold PendingKeyExchangeS.toFields; wire_simp)
  have e7 : getBytes 7 m.toFields = m.localIdentityKey := getBytes_of _ _ _ (by unfold PendingKeyExchangeS.toFields; wire_simp)
  have e8 : getBytes 8 m.toFields = m.localIdentityKeyPrivate := getBytes_of _ _ _ (by unfold PendingKeyExchangeS.toFields; wire_simp)
  unfold PendingKeyExchangeS.ofFields
  rw [e1, e2, e3, e4, e5, e7, e8]

theorem PendingKeyExchangeS.parse_serialize (m : PendingKeyExchangeS) (h : m.Ok)
    (hs : (serializeWith PendingKeyExchangeS.toFields m).length < 2 ^ 64) :
    parseWith PendingKeyExchangeS.ofFields (serializeWith PendingKeyExchangeS.toFields m) = .ok m :=
  parseWith_serializeWith _ _ m (m.allOk h) hs (m.ofFields_toFields h)

/-- integer fields of `PendingPreKeyS` are in range -/
structure PendingPreKeyS.Ok (m : PendingPreKeyS) : Prop where
  preKeyId : OptLt m.preKeyId (2 ^ 32)
  signedPreKeyId : ∀ i, m.signedPreKeyId = some i → -(2 ^ 31) ≤ i ∧ i < 2 ^ 31

theorem PendingPreKeyS.allOk (m : PendingPreKeyS) (h : m.Ok) : AllOk m.toFields :=
  (AllOk.append (AllOk.append (AllOk.putVarint 1 _ (by omega) (by omega) h.preKeyId)
    (AllOk.putBytes 2 _ (by omega) (by omega)))
    (AllOk.putI32 3 _ (by omega) (by omega)))

theorem PendingPreKeyS.ofFields_toFields (m : PendingPreKeyS) (h : m.Ok) :
    PendingPreKeyS.ofFields m.toFields = some m := by
  have e1 : getU32 1 m.toFields = m.preKeyId := getU32_of _ _ _ (by unfold PendingPreKeyS.toFields; wire_simp) h.preKeyId
  have e2 : getBytes 2 m.toFields = m.baseKey := getBytes_of _ _ _ (by unfold PendingPreKeyS.toFields; wire_simp)
  have e3 : getI32 3 m.toFields = m.signedPreKeyId := getI32_of _ _ _ (by unfold PendingPreKeyS.toFields; wire_simp) h.signedPreKeyId
  unfold PendingPreKeyS.ofFields
  rw [e1, e2, e3]

theorem PendingPreKeyS.parse_serialize (m : PendingPreKeyS) (h : m.Ok)
    (hs : (serializeWith PendingPreKeyS.toFields m).length < 2 ^ 64) :
    parseWith PendingPreKeyS.ofFields (serializeWith PendingPreKeyS.toFields m) = .ok m :=
  parseWith_serializeWith _ _ m (m.allOk h) hs (m.ofFields_toFields h)

/-- integer fields of `SessionS` are in range -/
structure SessionS.Ok (m : SessionS) : Prop where
  sessionVersion : OptLt m.sessionVersion (2 ^ 32)
  previousCounter : OptLt m.previousCounter (2 ^ 32)
  senderChain : ∀ a, m.senderChain = some a → a.Ok
  receiverChains : ∀ a ∈ m.receiverChains, a.Ok
  pendingKeyExchange : ∀ a, m.pendingKeyExchange = some a → a.Ok
  pendingPreKey : ∀ a, m.pendingPreKey = some a → a.Ok
  remoteRegistrationId : OptLt m.remoteRegistrationId (2 ^ 32)
  localRegistrationId : OptLt m.localRegistrationId (2 ^ 32)

theorem SessionS.allOk (m : SessionS) (h : m.Ok) : AllOk m.toFields :=
  (AllOk.append (AllOk.append (AllOk.append (AllOk.append (AllOk.append (AllOk.append (AllOk.append (AllOk.append (AllOk.append (AllOk.append (AllOk.append (AllOk.append (AllOk.putVarint 1 _ (by omega) (by omega) h.sessionVersion)
    (AllOk.putBytes 2 _ (by omega) (by omega)))
    (AllOk.putBytes 3 _ (by omega) (by omega)))
    (AllOk.putBytes 4 _ (by omega) (by omega)))
    (AllOk.putVarint 5 _ (by omega) (by omega) h.previousCounter))
    (AllOk.putMsg 6 _ _ (by omega) (by omega)))
    (AllOk.putRep 7 _ _ (by omega) (by omega)))
    (AllOk.putMsg 8 _ _ (by omega) (by omega)))
    (AllOk.putMsg 9 _ _ (by omega) (by omega)))
    (AllOk.putVarint 10 _ (by omega) (by omega) h.remoteRegistrationId))
    (AllOk.putVarint 11 _ (by omega) (by omega) h.localRegistrationId))
    (AllOk.putBool 12 _ (by omega) (by omega)))
    (AllOk.putBytes 13 _ (by omega) (by omega)))

theorem SessionS.ofFields_toFields (m : SessionS) (h : m.Ok) (hs : (encFields m.toFields).length < 2 ^ 64) :
    SessionS.ofFields m.toFields = some m := by
  have e1 : getU32 1 m.toFields = m.sessionVersion := getU32_of _ _ _ (by unfold SessionS.toFields; wire_simp) h.sessionVersion
  have e2 : getBytes 2 m.toFields = m.localIdentityPublic := getBytes_of _ _ _ (by unfold SessionS.toFields; wire_simp)
  have e3 : getBytes 3 m.toFields = m.remoteIdentityPublic := getBytes_of _ _ _ (by unfold SessionS.toFields; wire_simp)
  have e4 : getBytes 4 m.toFields = m.rootKey := getBytes_of _ _ _ (by unfold SessionS.toFields; wire_simp)
  have e5 : getU32 5 m.toFields = m.previousCounter := getU32_of _ _ _ (by unfold SessionS.toFields; wire_simp) h.previousCounter
  have e6 : getMsg 6 ChainS.ofFields m.toFields = some m.senderChain := by
    refine getMsg_of _ _ ChainS.toFields _ _ (by unfold SessionS.toFields; wire_simp) ?_
    intro a ha
    have hl := putMsg_len_le 6 ChainS.toFields _ a ha
    have hl2 : (encFields a.toFields).length < 2 ^ 64 := by
      unfold SessionS.toFields at hs
      simp only [encFields_append, List.length_append] at hs
      omega
    exact ⟨a.allOk (h.senderChain a ha), hl2, a.ofFields_toFields (h.senderChain a ha) hl2⟩
  have e7 : getRep 7 ChainS.ofFields m.toFields = some m.receiverChains := by
    refine getRep_of _ _ ChainS.toFields _ _ (by unfold SessionS.toFields; wire_simp) ?_
    intro a ha
    have hl := putRep_len_le 7 ChainS.toFields _ a ha
    have hl2 : (encFields a.toFields).length < 2 ^ 64 := by
      unfold SessionS.toFields at hs
      simp only [encFields_append, List.length_append] at hs
      omega
    exact ⟨a.allOk (h.receiverChains a ha), hl2, a.ofFields_toFields (h.receiverChains a ha) hl2⟩
  have e8 : getMsg 8 PendingKeyExchangeS.ofFields m.toFields = some m.pendingKeyExchange := by
    refine getMsg_of _ _ PendingKeyExchangeS.toFields _ _ (by unfold SessionS.toFields; wire_simp) ?_
    intro a ha
    have hl := putMsg_len_le 8 PendingKeyExchangeS.toFields _ a ha
    have hl2 : (encFields a.toFields).length < 2 ^ 64 := by
      unfold SessionS.toFields at hs
      simp only [encFields_append, List.length_append] at hs
      omega
    exact ⟨a.allOk (h.pendingKeyExchange a ha), hl2, a.ofFields_toFields (h.pendingKeyExchange a ha)⟩
  have e9 : getMsg 9 PendingPreKeyS.ofFields m.toFields = some m.pendingPreKey := by
    refine getMsg_of _ _ PendingPreKeyS.toFields _ _ (by unfold SessionS.toFields; wire_simp) ?_
    intro a ha
    have hl := putMsg_len_le 9 PendingPreKeyS.toFields _ a ha
    have hl2 : (encFields a.toFields).length < 2 ^ 64 := by
      unfold SessionS.toFields at hs
      simp only [encFields_append, List.length_append] at hs
      omega
    exact ⟨a.allOk (h.pendingPreKey a ha), hl2, a.ofFields_toFields (h.pendingPreKey a ha)⟩
  have e10 : getU32 10 m.toFields = m.remoteRegistrationId := getU32_of _ _ _ (by unfold SessionS.toFields; wire_simp) h.remoteRegistrationId
  have e11 : getU32 11 m.toFields = m.localRegistrationId := getU32_of _ _ _ (by unfold SessionS.toFields; wire_simp) h.localRegistrationId
  have e12 : getBool 12 m.toFields = m.needsRefresh := getBool_of _ _ _ (by unfold SessionS.toFields; wire_simp)
  have e13 : getBytes 13 m.toFields = m.aliceBaseKey := getBytes_of _ _ _ (by unfold SessionS.toFields; wire_simp)
  unfold SessionS.ofFields
  simp only [e1, e2, e3, e4, e5, e6, e7, e8, e9, e10, e11, e12, e13]
  rfl

theorem SessionS.parse_serialize (m : SessionS) (h : m.Ok)
    (hs : (serializeWith SessionS.toFields m).length < 2 ^ 64) :
    parseWith SessionS.ofFields (serializeWith SessionS.toFields m) = .ok m :=
  parseWith_serializeWith _ _ m (m.allOk h) hs (m.ofFields_toFields h hs)

/-- integer fields of `RecordS` are in range -/
structure RecordS.Ok (m : RecordS) : Prop where
  currentSession : ∀ a, m.currentSession = some a → a.Ok
  previousSessions : ∀ a ∈ m.previousSessions, a.Ok

theorem RecordS.allOk (m : RecordS) (_h : m.Ok) : AllOk m.toFields :=
  (AllOk.append (AllOk.putMsg 1 _ _ (by omega) (by omega))
    (AllOk.putRep 2 _ _ (by omega) (by omega)))

theorem RecordS.ofFields_toFields (m : RecordS) (h : m.Ok) (hs : (encFields m.toFields).length < 2 ^ 64) :
    RecordS.ofFields m.toFields = some m := by
  have e1 : getMsg 1 SessionS.ofFields m.toFields = some m.currentSession := by
    refine getMsg_of _ _ SessionS.toFields _ _ (by unfold RecordS.toFields; wire_simp) ?_
    intro a ha
    have hl := putMsg_len_le 1 SessionS.toFields _ a ha
    have hl2 : (encFields a.toFields).length < 2 ^ 64 := by
      unfold RecordS.toFields at hs
      simp only [encFields_append, List.length_append] at hs
      omega
    exact ⟨a.allOk (h.currentSession a ha), hl2, a.ofFields_toFields (h.currentSession a ha) hl2⟩
  have e2 : getRep 2 SessionS.ofFields m.toFields = some m.previousSessions := by
    refine getRep_of _ _ SessionS.toFields _ _ (by unfold RecordS.toFields; wire_simp) ?_
    intro a ha
    have hl := putRep_len_le 2 SessionS.toFields _ a ha
    have hl2 : (encFields a.toFields).length < 2 ^ 64 := by
      unfold RecordS.toFields at hs
      simp only [encFields_append, List.length_append] at hs
      omega
    exact ⟨a.allOk (h.previousSessions a ha), hl2, a.ofFields_toFields (h.previousSessions a ha) hl2⟩
  unfold RecordS.ofFields
  simp only [e1, e2]
  rfl

theorem RecordS.parse_serialize (m : RecordS) (h : m.Ok)
    (hs : (serializeWith RecordS.toFields m).length < 2 ^ 64) :
    parseWith RecordS.ofFields (serializeWith RecordS.toFields m) = .ok m :=
  parseWith_serializeWith _ _ m (m.allOk h) hs (m.ofFields_toFields h hs)

/-- integer fields of `PreKeyRecordS` are in range -/
structure PreKeyRecordS.Ok (m : PreKeyRecordS) : Prop where
  id : OptLt m.id (2 ^ 32)

theorem PreKeyRecordS.allOk (m : PreKeyRecordS) (h : m.Ok) : AllOk m.toFields :=
  (AllOk.append (AllOk.append (AllOk.putVarint 1 _ (by omega) (by omega) h.id)
    (AllOk.putBytes 2 _ (by omega) (by omega)))
    (AllOk.putBytes 3 _ (by omega) (by omega)))

theorem PreKeyRecordS.ofFields_toFields (m : PreKeyRecordS) (h : m.Ok) :
    PreKeyRecordS.ofFields m.toFields = some m := by
  have e1 : getU32 1 m.toFields = m.id := getU32_of _ _ _ (by unfold PreKeyRecordS.toFields; wire_simp) h.id
  have e2 : getBytes 2 m.toFields = m.publicKey := getBytes_of _ _ _ (by unfold PreKeyRecordS.toFields; wire_simp)
  have e3 : getBytes 3 m.toFields = m.privateKey := getBytes_of _ _ _ (by unfold PreKeyRecordS.toFields; wire_simp)
  unfold PreKeyRecordS.ofFields
  rw [e1, e2, e3]

theorem PreKeyRecordS.parse_serialize (m : PreKeyRecordS) (h : m.Ok)
    (hs : (serializeWith PreKeyRecordS.toFields m).length < 2 ^ 64) :
    parseWith PreKeyRecordS.ofFields (serializeWith PreKeyRecordS.toFields m) = .ok m :=
  parseWith_serializeWith _ _ m (m.allOk h) hs (m.ofFields_toFields h)

/-- integer fields of `SignedPreKeyRecordS` are in range -/
structure SignedPreKeyRecordS.Ok (m : SignedPreKeyRecordS) : Prop where
  id : OptLt m.id (2 ^ 32)
  timestamp : OptLt m.timestamp (2 ^ 64)

theorem SignedPreKeyRecordS.allOk (m : SignedPreKeyRecordS) (h : m.Ok) : AllOk m.toFields :=
  (AllOk.append (AllOk.append (AllOk.append (AllOk.append (AllOk.putVarint 1 _ (by omega) (by omega) h.id)
    (AllOk.putBytes 2 _ (by omega) (by omega)))
    (AllOk.putBytes 3 _ (by omega) (by omega)))
    (AllOk.putBytes 4 _ (by omega) (by omega)))
    (AllOk.putFixed64 5 _ (by omega) (by omega)))

theorem SignedPreKeyRecordS.ofFields_toFields (m : SignedPreKeyRecordS) (h : m.Ok) :
    SignedPreKeyRecordS.ofFields m.toFields = some m := by
  have e1 : getU32 1 m.toFields = m.id := getU32_of _ _ _ (by unfold SignedPreKeyRecordS.toFields; wire_simp) h.id
  have e2 : getBytes 2 m.toFields = m.publicKey := getBytes_of _ _ _ (by unfold SignedPreKeyRecordS.toFields; wire_simp)
  have e3 : getBytes 3 m.toFields = m.privateKey := getBytes_of _ _ _ (by unfold SignedPreKeyRecordS.toFields; wire_simp)
  have e4 : getBytes 4 m.toFields = m.signature := getBytes_of _ _ _ (by unfold SignedPreKeyRecordS.toFields; wire_simp)
  have e5 : getFixed64 5 m.toFields = m.timestamp := getFixed64_of _ _ _ (by unfold SignedPreKeyRecordS.toFields; wire_simp) h.timestamp
  unfold SignedPreKeyRecordS.ofFields
  rw [e1, e2, e3, e4, e5]

theorem SignedPreKeyRecordS.parse_serialize (m : SignedPreKeyRecordS) (h : m.Ok)
    (hs : (serializeWith SignedPreKeyRecordS.toFields m).length < 2 ^ 64) :
    parseWith SignedPreKeyRecordS.ofFields (serializeWith SignedPreKeyRecordS.toFields m) = .ok m :=
  parseWith_serializeWith _ _ m (m.allOk h) hs (m.ofFields_toFields h)

/-- integer fields of `IdentityKeyPairS` are in range -/
structure IdentityKeyPairS.Ok (_m : IdentityKeyPairS) : Prop where

theorem IdentityKeyPairS.allOk (m : IdentityKeyPairS) (_h : m.Ok) : AllOk m.toFields :=
  (AllOk.append (AllOk.putBytes 1 _ (by omega) (by omega))
    (AllOk.putBytes 2 _ (by omega) (by omega)))

theorem IdentityKeyPairS.ofFields_toFields (m : IdentityKeyPairS) (_h : m.Ok) :
    IdentityKeyPairS.ofFields m.toFields = some m := by
  have e1 : getBytes 1 m.toFields = m.publicKey := getBytes_of _ _ _ (by unfold IdentityKeyPairS.toFields; wire_simp)
  have e2 : getBytes 2 m.toFields = m.privateKey := getBytes_of _ _ _ (by unfold IdentityKeyPairS.toFields; wire_simp)
  unfold IdentityKeyPairS.ofFields
  rw [e1, e2]

theorem IdentityKeyPairS.parse_serialize (m : IdentityKeyPairS) (h : m.Ok)
    (hs : (serializeWith IdentityKeyPairS.toFields m).length < 2 ^ 64) :
    parseWith IdentityKeyPairS.ofFields (serializeWith IdentityKeyPairS.toFields m) = .ok m :=
  parseWith_serializeWith _ _ m (m.allOk h) hs (m.ofFields_toFields h)

/-- integer fields of `SenderSeedS` are in range -/
structure SenderSeedS.Ok (m : SenderSeedS) : Prop where
  iteration : OptLt m.iteration (2 ^ 32)

theorem SenderSeedS.allOk (m : SenderSeedS) (h : m.Ok) : AllOk m.toFields :=
  (AllOk.append (AllOk.putVarint 1 _ (by omega) (by omega) h.iteration)
    (AllOk.putBytes 2 _ (by omega) (by omega)))

theorem SenderSeedS.ofFields_toFields (m : SenderSeedS) (h : m.Ok) :
    SenderSeedS.ofFields m.toFields = some m := by
  have e1 : getU32 1 m.toFields = m.iteration := getU32_of _ _ _ (by unfold SenderSeedS.toFields; wire_simp) h.iteration
  have e2 : getBytes 2 m.toFields = m.seed := getBytes_of _ _ _ (by unfold SenderSeedS.toFields; wire_simp)
  unfold SenderSeedS.ofFields
  rw [e1, e2]

theorem SenderSeedS.parse_serialize (m : SenderSeedS) (h : m.Ok)
    (hs : (serializeWith SenderSeedS.toFields m).length < 2 ^ 64) :
    parseWith SenderSeedS.ofFields (serializeWith SenderSeedS.toFields m) = .ok m :=
  parseWith_serializeWith _ _ m (m.allOk h) hs (m.ofFields_toFields h)

/-- integer fields of `SenderSigningKeyS` are in range -/
structure SenderSigningKeyS.Ok (_m : SenderSigningKeyS) : Prop where

theorem SenderSigningKeyS.allOk (m : SenderSigningKeyS) (_h : m.Ok) : AllOk m.toFields :=
  (AllOk.append (AllOk.putBytes 1 _ (by omega) (by omega))
    (AllOk.putBytes 2 _ (by omega) (by omega)))

theorem SenderSigningKeyS.ofFields_toFields (m : SenderSigningKeyS) (_h : m.Ok) :
    SenderSigningKeyS.ofFields m.toFields = some m := by
  have e1 : getBytes 1 m.toFields = m.pub := getBytes_of _ _ _ (by unfold SenderSigningKeyS.toFields; wire_simp)
  have e2 : getBytes 2 m.toFields = m.priv := getBytes_of _ _ _ (by unfold SenderSigningKeyS.toFields; wire_simp)
  unfold SenderSigningKeyS.ofFields
  rw [e1, e2]

theorem SenderSigningKeyS.parse_serialize (m : SenderSigningKeyS) (h : m.Ok)
    (hs : (serializeWith SenderSigningKeyS.toFields m).length < 2 ^ 64) :
    parseWith SenderSigningKeyS.ofFields (serializeWith SenderSigningKeyS.toFields m) = .ok m :=
  parseWith_serializeWith _ _ m (m.allOk h) hs (m.ofFields_toFields h)

/-- integer fields of `SenderKeyStateS` are in range -/
structure SenderKeyStateS.Ok (m : SenderKeyStateS) : Prop where
  senderKeyId : OptLt m.senderKeyId (2 ^ 32)
  senderChainKey : ∀ a, m.senderChainKey = some a → a.Ok
  senderSigningKey : ∀ a, m.senderSigningKey = some a → a.Ok
  senderMessageKeys : ∀ a ∈ m.senderMessageKeys, a.Ok

theorem SenderKeyStateS.allOk (m : SenderKeyStateS) (h : m.Ok) : AllOk m.toFields :=
  (AllOk.append (AllOk.append (AllOk.append (AllOk.putVarint 1 _ (by omega) (by omega) h.senderKeyId)
    (AllOk.putMsg 2 _ _ (by omega) (by omega)))
    (AllOk.putMsg 3 _ _ (by omega) (by omega)))
    (AllOk.putRep 4 _ _ (by omega) (by omega)))

theorem SenderKeyStateS.ofFields_toFields (m : SenderKeyStateS) (h : m.Ok) (hs : (encFields m.toFields).length < 2 ^ 64) :
    SenderKeyStateS.ofFields m.toFields = some m := by
  have e1 : getU32 1 m.toFields = m.senderKeyId := getU32_of _ _ _ (by unfold SenderKeyStateS.toFields; wire_simp) h.senderKeyId
  have e2 : getMsg 2 SenderSeedS.ofFields m.toFields = some m.senderChainKey := by
    refine getMsg_of _ _ SenderSeedS.toFields _ _ (by unfold SenderKeyStateS.toFields; wire_simp) ?_
    intro a ha
    have hl := putMsg_len_le 2 SenderSeedS.toFields _ a ha
    have hl2 : (encFields a.toFields).length < 2 ^ 64 := by
      unfold SenderKeyStateS.toFields at hs
      simp only [encFields_append, List.length_append] at hs
      omega
    exact ⟨a.allOk (h.senderChainKey a ha), hl2, a.ofFields_toFields (h.senderChainKey a ha)⟩
  have e3 : getMsg 3 SenderSigningKeyS.ofFields m.toFields = some m.senderSigningKey := by
    refine getMsg_of _ _ SenderSigningKeyS.toFields _ _ (by unfold SenderKeyStateS.toFields; wire_simp) ?_
    intro a ha
    have hl := putMsg_len_le 3 SenderSigningKeyS.toFields _ a ha
    have hl2 : (encFields a.toFields).length < 2 ^ 64 := by
      unfold SenderKeyStateS.toFields at hs
      simp only [encFields_append, List.length_append] at hs
      omega
    exact ⟨a.allOk (h.senderSigningKey a ha), hl2, a.ofFields_toFields (h.senderSigningKey a ha)⟩
  have e4 : getRep 4 SenderSeedS.ofFields m.toFields = some m.senderMessageKeys := by
    refine getRep_of _ _ SenderSeedS.toFields _ _ (by unfold SenderKeyStateS.toFields; wire_simp) ?_
    intro a ha
    have hl := putRep_len_le 4 SenderSeedS.toFields _ a ha
    have hl2 : (encFields a.toFields).length < 2 ^ 64 := by
      unfold SenderKeyStateS.toFields at hs
      simp only [encFields_append, List.length_append] at hs
      omega
    exact ⟨a.allOk (h.senderMessageKeys a ha), hl2, a.ofFields_toFields (h.senderMessageKeys a ha)⟩
  unfold SenderKeyStateS.ofFields
  simp only [e1, e2, e3, e4]
  rfl

theorem SenderKeyStateS.parse_serialize (m : SenderKeyStateS) (h : m.Ok)
    (hs : (serializeWith SenderKeyStateS.toFields m).length < 2 ^ 64) :
    parseWith SenderKeyStateS.ofFields (serializeWith SenderKeyStateS.toFields m) = .ok m :=
  parseWith_serializeWith _ _ m (m.allOk h) hs (m.ofFields_toFields h hs)

/-- integer fields of `SenderKeyRecordS` are in range -/
structure SenderKeyRecordS.Ok (m : SenderKeyRecordS) : Prop where
  senderKeyStates : ∀ a ∈ m.senderKeyStates, a.Ok

theorem SenderKeyRecordS.allOk (m : SenderKeyRecordS) (_h : m.Ok) : AllOk m.toFields :=
  (AllOk.putRep 1 _ _ (by omega) (by omega))

theorem SenderKeyRecordS.ofFields_toFields (m : SenderKeyRecordS) (h : m.Ok) (hs : (encFields m.toFields).length < 2 ^ 64) :
    SenderKeyRecordS.ofFields m.toFields = some m := by
  have e1 : getRep 1 SenderKeyStateS.ofFields m.toFields = some m.senderKeyStates := by
    refine getRep_of _ _ SenderKeyStateS.toFields _ _ (by unfold SenderKeyRecordS.toFields; wire_simp) ?_
    intro a ha
    have hl := putRep_len_le 1 SenderKeyStateS.toFields _ a ha
    have hl2 : (encFields a.toFields).length < 2 ^ 64 := by
      unfold SenderKeyRecordS.toFields at hs
      omega
    exact ⟨a.allOk (h.senderKeyStates a ha), hl2, a.ofFields_toFields (h.senderKeyStates a ha) hl2⟩
  unfold SenderKeyRecordS.ofFields
  simp only [e1]
  rfl

theorem SenderKeyRecordS.parse_serialize (m : SenderKeyRecordS) (h : m.Ok)
    (hs : (serializeWith SenderKeyRecordS.toFields m).length < 2 ^ 64) :
    parseWith SenderKeyRecordS.ofFields (serializeWith SenderKeyRecordS.toFields m) = .ok m :=
  parseWith_serializeWith _ _ m (m.allOk h) hs (m.ofFields_toFields h hs)

end Axolotl
