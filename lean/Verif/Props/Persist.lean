import Verif.Model.SessionRecord
import Verif.Model.Group
import Verif.Proofs.Messages

/-! # C06, C07: what is stored reloads unchanged -/

namespace Axolotl
open Wire ByteUtil

/-- All integer fields of all states of the record are in the range of their protobuf type. -/
def SessionRecord.Ok (r : SessionRecord) : Prop :=
  r.sessionState.Ok ∧ ∀ s ∈ r.previousStates, SessionS.Ok s

theorem SessionRecord.serialize_ne_nil (r : SessionRecord) : r.serialize ≠ [] := by
  unfold SessionRecord.serialize serializeWith RecordS.toFields
  rw [encFields_append]
  intro h
  have h1 := (List.append_eq_nil_iff.1 h).1
  simp only [putMsg] at h1
  exact encField_ne_nil _ (List.append_eq_nil_iff.1 h1).1

/-- **C06.** A stored record reloads as the same record: same current state, same archived states in the
same order, marked not fresh. -/
theorem C06_session_record_roundtrip (r : SessionRecord) (h : r.Ok) (hs : r.serialize.length < 2 ^ 64) :
    SessionRecord.ofSerialized r.serialize = .ok { r with fresh := false } := by
  unfold SessionRecord.ofSerialized
  rw [if_neg r.serialize_ne_nil]
  unfold SessionRecord.serialize at *
  rw [RecordS.parse_serialize _ ⟨by intro a ha; injection ha with ha; exact ha ▸ h.1, h.2⟩ hs]
  rfl

/-- A single session state reloads unchanged. -/
theorem C06_session_state_roundtrip (s : SessionState) (h : SessionS.Ok s)
    (hs : (SessionState.serialize s).length < 2 ^ 64) :
    parseWith SessionS.ofFields (SessionState.serialize s) = .ok s :=
  SessionS.parse_serialize s h hs

/-- A record with a current state, an archived state, chains and stored keys meets the hypotheses. -/
example : let chain : ChainS := { senderRatchetKey := some [5, 1], chainKey := some ⟨some 7, some [1]⟩,
                                  messageKeys := [⟨some 3, some [1], some [2], some [3]⟩] }
    let s : SessionState := { sessionVersion := some 3, senderChain := some chain,
                              receiverChains := [chain, chain], previousCounter := some 9 }
    let r : SessionRecord := { fresh := true, sessionState := s, previousStates := [s, {}] }
    r.Ok ∧ r.serialize.length < 2 ^ 64 := by
  intro chain s r
  have hc : chain.Ok := by
    refine ⟨?_, ?_⟩
    · intro a ha; injection ha with ha; subst ha; exact ⟨OptLt.some (by omega)⟩
    · intro a ha; simp only [chain, List.mem_singleton] at ha; subst ha; exact ⟨OptLt.some (by omega)⟩
  have hs : SessionS.Ok s := by
    refine ⟨OptLt.some (by omega), OptLt.some (by omega), ?_, ?_, ?_, ?_, OptLt.none, OptLt.none⟩
    · intro a ha; injection ha with ha; exact ha ▸ hc
    · intro a ha; simp only [s, List.mem_cons, List.not_mem_nil, or_false, or_self] at ha; exact ha ▸ hc
    · intro a ha; cases ha
    · intro a ha; cases ha
  refine ⟨⟨hs, ?_⟩, by decide +kernel⟩
  intro a ha
  simp only [r, List.mem_cons, List.not_mem_nil, or_false] at ha
  rcases ha with ha | ha
  · exact ha ▸ hs
  · subst ha
    refine ⟨OptLt.none, OptLt.none, ?_, ?_, ?_, ?_, OptLt.none, OptLt.none⟩ <;> intro a ha <;> cases ha

/-! ## C07 -/

theorem append_ne_nil_of_left {α : Type} {a b : List α} (h : a ≠ []) : a ++ b ≠ [] := by
  intro hc; exact h (List.append_eq_nil_iff.1 hc).1

theorem encFields_putVarint_ne_nil (n m : Nat) : encFields (putVarint n (some m)) ≠ [] := by
  simp only [putVarint]
  exact append_ne_nil_of_left (encField_ne_nil _)

theorem encFields_putBytes_ne_nil (n : Nat) (b : Bytes) : encFields (putBytes n (some b)) ≠ [] := by
  simp only [putBytes]
  exact append_ne_nil_of_left (encField_ne_nil _)

/-- A one-time prekey reloads with its id and key pair. -/
theorem C07_prekey_roundtrip (id : Nat) (hid : id < 2 ^ 32) (k : KeyPair) (hk : k.pub.length = 32)
    (hp : k.priv.length < 2 ^ 63) :
    ∃ r, PreKeyRecord.mk' id k = .ok r ∧ PreKeyRecord.ofSerialized (PreKeyRecord.serialize r) = .ok r ∧
      PreKeyRecord.getId r = id ∧ PreKeyRecord.getKeyPair r = .ok k := by
  unfold PreKeyRecord.mk'
  rw [chkU32_ok hid]
  simp only [ok_bind]
  refine ⟨_, rfl, ?_, rfl, ?_⟩
  · unfold PreKeyRecord.ofSerialized PreKeyRecord.serialize
    rw [if_neg]
    · apply PreKeyRecordS.parse_serialize
      · exact ⟨OptLt.some hid⟩
      · unfold serializeWith PreKeyRecordS.toFields
        simp only [encFields_append, List.length_append]
        have h1 := putVarint_size_le 1 (some id)
        have h2 := putBytes_size_le 2 (Curve.serializePoint k.pub)
        have h3 := putBytes_size_le 3 k.priv
        rw [serializePoint_length] at h2
        omega
    · unfold serializeWith PreKeyRecordS.toFields
      rw [encFields_append, encFields_append]
      exact append_ne_nil_of_left (append_ne_nil_of_left (encFields_putVarint_ne_nil _ _))
  · unfold PreKeyRecord.getKeyPair
    simp only [Option.getD_some]
    rw [decodePoint_serializePoint (by omega)]
    rfl

example := C07_prekey_roundtrip 0xFFFFFF (by omega) ⟨List.replicate 32 7, [1, 2]⟩ (by simp) (by simp)

/-- A signed prekey reloads with its id, timestamp, signature and key pair. -/
theorem C07_signed_prekey_roundtrip (id : Nat) (hid : id < 2 ^ 32) (ts : Nat) (ht : ts < 2 ^ 64)
    (k : KeyPair) (hk : k.pub.length = 32) (hp : k.priv.length < 2 ^ 62) (sig : Bytes)
    (hsig : sig.length < 2 ^ 62) :
    ∃ r, SignedPreKeyRecord.mk' id ts k sig = .ok r ∧
      SignedPreKeyRecord.ofSerialized (SignedPreKeyRecord.serialize r) = .ok r ∧
      SignedPreKeyRecord.getId r = id ∧ SignedPreKeyRecord.getTimestamp r = ts ∧
      SignedPreKeyRecord.getSignature r = sig ∧ SignedPreKeyRecord.getKeyPair r = .ok k := by
  unfold SignedPreKeyRecord.mk'
  rw [chkU32_ok hid]
  simp only [ok_bind]
  rw [if_pos ht]
  refine ⟨_, rfl, ?_, rfl, rfl, rfl, ?_⟩
  · unfold SignedPreKeyRecord.ofSerialized SignedPreKeyRecord.serialize
    rw [if_neg]
    · apply SignedPreKeyRecordS.parse_serialize
      · exact ⟨OptLt.some hid, OptLt.some ht⟩
      · unfold serializeWith SignedPreKeyRecordS.toFields
        simp only [encFields_append, List.length_append]
        have h1 := putVarint_size_le 1 (some id)
        have h2 := putBytes_size_le 2 (Curve.serializePoint k.pub)
        have h3 := putBytes_size_le 3 k.priv
        have h4 := putBytes_size_le 4 sig
        have h5 : (encFields (putFixed64 5 (some ts))).length ≤ 20 := by
          have := encVarint_length_le 41
          simp [putFixed64, encFields, encField, leBytes_length]
          omega
        rw [serializePoint_length] at h2
        omega
    · unfold serializeWith SignedPreKeyRecordS.toFields
      simp only [encFields_append]
      exact append_ne_nil_of_left (append_ne_nil_of_left (append_ne_nil_of_left
        (append_ne_nil_of_left (encFields_putVarint_ne_nil _ _))))
  · unfold SignedPreKeyRecord.getKeyPair
    simp only [Option.getD_some]
    rw [decodePoint_serializePoint (by omega)]
    rfl

example := C07_signed_prekey_roundtrip 22 (by omega) (2 ^ 63 + 5) (by omega) ⟨List.replicate 32 7, [1, 2]⟩
  (by simp) (by simp) [1, 2, 3] (by simp)

/-- An identity key pair reloads unchanged. -/
theorem C07_identity_roundtrip (k : KeyPair) (hk : k.pub.length = 32) (hp : k.priv.length < 2 ^ 63) :
    IdentityKeyPair.ofSerialized (IdentityKeyPair.serialize k) = .ok k := by
  unfold IdentityKeyPair.ofSerialized IdentityKeyPair.serialize
  rw [if_neg]
  · rw [IdentityKeyPairS.parse_serialize]
    · simp only [ok_bind, Option.getD_some]
      rw [decodePoint_serializePoint (by omega)]
      rfl
    · constructor
    · unfold serializeWith IdentityKeyPairS.toFields
      simp only [encFields_append, List.length_append]
      have h2 := putBytes_size_le 1 (Curve.serializePoint k.pub)
      have h3 := putBytes_size_le 2 k.priv
      rw [serializePoint_length] at h2
      omega
  · unfold serializeWith IdentityKeyPairS.toFields
    simp only [encFields_append]
    exact append_ne_nil_of_left (encFields_putBytes_ne_nil _ _)

example := C07_identity_roundtrip ⟨List.replicate 32 7, [1, 2]⟩ (by simp) (by simp)

/-- A sender-key record reloads unchanged (the empty record too). -/
theorem C07_sender_key_record_roundtrip (r : SenderKeyRecord) (h : ∀ s ∈ r.senderKeyStates, SenderKeyStateS.Ok s)
    (hs : r.serialize.length < 2 ^ 64) : SenderKeyRecord.ofSerialized r.serialize = .ok r := by
  unfold SenderKeyRecord.ofSerialized
  by_cases he : r.senderKeyStates = []
  · have : r.serialize = [] := by
      simp [SenderKeyRecord.serialize, serializeWith, SenderKeyRecordS.toFields, he, putRep, encFields]
    rw [if_pos this]
    cases r
    simp only at he
    rw [he]
  · rw [if_neg]
    · unfold SenderKeyRecord.serialize at *
      rw [SenderKeyRecordS.parse_serialize _ ⟨h⟩ hs]
      rfl
    · obtain ⟨s, rest, hr⟩ := List.exists_cons_of_ne_nil he
      simp only [SenderKeyRecord.serialize, serializeWith, SenderKeyRecordS.toFields, hr, putRep,
        List.map_cons, encFields_cons]
      exact append_ne_nil_of_left (encField_ne_nil _)

example : let s : SenderKeyState := { senderKeyId := some 5, senderChainKey := some ⟨some 9, some [1]⟩,
                                      senderMessageKeys := [⟨some 3, some [2]⟩, ⟨some 4, some [3]⟩] }
    (∀ x ∈ [s, s], SenderKeyStateS.Ok x) ∧
      (SenderKeyRecord.serialize ⟨[s, s]⟩).length < 2 ^ 64 := by
  intro s
  have hs : SenderKeyStateS.Ok s := by
    refine ⟨OptLt.some (by omega), ?_, ?_, ?_⟩
    · intro a ha; injection ha with ha; subst ha; exact ⟨OptLt.some (by omega)⟩
    · intro a ha; cases ha
    · intro a ha
      simp only [s, List.mem_cons, List.not_mem_nil, or_false] at ha
      rcases ha with ha | ha <;> subst ha <;> exact ⟨OptLt.some (by omega)⟩
  refine ⟨?_, by decide +kernel⟩
  intro x hx
  simp only [List.mem_cons, List.not_mem_nil, or_false, or_self] at hx
  exact hx ▸ hs

end Axolotl
