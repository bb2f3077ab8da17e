import Verif.Proofs.Group

/-! # What each group call does to the stored record -/

namespace Axolotl
section
variable [C : Crypto]
open Spec ByteUtil

theorem senderMessageKey_eq (hlen : ∀ k m, (C.hmac k m).length = 32) (i : Nat) (seed : Bytes) :
    SenderMessageKey.mk' i seed = ⟨i, seed, groupIv seed, groupCipherKey seed⟩ := by
  unfold SenderMessageKey.mk'
  have hl : (Kdf.v3.deriveSecrets seed SenderMessageKey.GROUP_INFO 48).length = 48 := C11_length hlen _ _ _ _ _
  have hs : ∀ x : Bytes, x.length = 48 → split2 x 16 32 = (x.take 16, x.drop 16) := by
    intro x h
    have := split2_append (x.take 16) (x.drop 16)
    rw [List.take_append_drop] at this
    have l1 : (x.take 16).length = 16 := by rw [List.length_take]; omega
    have l2 : (x.drop 16).length = 32 := by rw [List.length_drop]; omega
    rw [l1, l2] at this
    exact this
  have hi : SenderMessageKey.GROUP_INFO = groupInfo := by decide
  simp only
  rw [hs _ hl, (C11_library_sizes hlen _ _ _).2.2, hi]
  rfl

theorem groupIv_length (hlen : ∀ k m, (C.hmac k m).length = 32) (seed : Bytes) : (groupIv seed).length = 16 := by
  have := C11_length hlen Kdf.v3 seed groupInfo 48 []
  rw [(C11_library_sizes hlen _ _ _).2.2] at this
  unfold groupIv groupOkm
  rw [List.length_take]; omega

theorem groupCipherKey_length (hlen : ∀ k m, (C.hmac k m).length = 32) (seed : Bytes) :
    (groupCipherKey seed).length = 32 := by
  have := C11_length hlen Kdf.v3 seed groupInfo 48 []
  rw [(C11_library_sizes hlen _ _ _).2.2] at this
  unfold groupCipherKey groupOkm
  rw [List.length_drop]; omega

/-- A state after one message has been sent. -/
def sentOn (s : SenderKeyState) : SenderKeyState :=
  { s with senderChainKey := some { iteration := some (iterationOf s + 1), seed := some (C.hmac (chainKeyOf s) [0x02]) } }

namespace GroupCipher

theorem encrypt_ok {g : GroupStore} {n : SenderKeyName} {pt rand b : Bytes}
    (h : (encrypt g n pt rand).result = .ok b) :
    ∃ s ct m, sendingState (g n) = some s ∧
      AES.encrypt (SenderMessageKey.mk' (iterationOf s) (groupSeed (chainKeyOf s))).cipherKey
        (SenderMessageKey.mk' (iterationOf s) (groupSeed (chainKeyOf s))).iv pt = .ok ct ∧
      SenderKeyMessage.create (SenderKeyState.getKeyId s) (iterationOf s) ct (SenderKeyState.getSigningKeyPrivate s) rand
        = .ok m ∧
      b = m.serialized ∧ iterationOf s + 1 < 2 ^ 32 ∧
      (encrypt g n pt rand).stored = some ((g n).replace 0 (sentOn s)) := by
  unfold encrypt at h ⊢
  cases he : encryptWithRecord (g n) pt rand with
  | error e =>
    rw [he] at h
    simp only [wrapNoSession] at h
    split at h <;> cases h
  | ok p =>
    obtain ⟨m, r⟩ := p
    rw [he] at h
    simp only at h ⊢
    unfold encryptWithRecord at he
    obtain ⟨s, h1, he⟩ := bind_eq_ok.1 he
    simp only at he
    obtain ⟨ct, h2, he⟩ := bind_eq_ok.1 he
    obtain ⟨m', h3, he⟩ := bind_eq_ok.1 he
    obtain ⟨s', h4, he⟩ := bind_eq_ok.1 he
    obtain ⟨rfl, rfl⟩ := Prod.mk.inj (Except.ok.inj he)
    unfold SenderKeyState.setSenderChainKey at h4
    obtain ⟨i, h5, h4⟩ := bind_eq_ok.1 h4
    have h4 := Except.ok.inj h4
    obtain ⟨h6, h7⟩ := chkU32_eq_ok.1 h5
    simp only [SenderChainKey.getNext, position_eq] at h6
    have h6 : i = iterationOf s + 1 := by omega
    unfold SenderChainKey.getSenderMessageKey at h2 h3
    rw [position_eq, chainKeyOf_eq] at h2 h3
    refine ⟨s, ct, m', SenderKeyRecord.getFirstState_ok.1 h1, h2, h3, (Except.ok.inj h).symm, by omega, ?_⟩
    rw [← h4, h6]
    simp only [SenderChainKey.getNext, chainKeyOf_eq]
    rfl

theorem encrypt_error {g : GroupStore} {n : SenderKeyName} {pt rand : Bytes} {e : Err}
    (h : (encrypt g n pt rand).result = .error e) : (encrypt g n pt rand).stored = none := by
  unfold encrypt at h ⊢
  cases he : encryptWithRecord (g n) pt rand with
  | error e => rfl
  | ok p => rw [he] at h; cases h

theorem decrypt_ok {g : GroupStore} {n : SenderKeyName} {b pt : Bytes} (h : (decrypt g n b).result = .ok pt) :
    ∃ m s j pub k s', SenderKeyMessage.parse b = .ok m ∧ (g n).getStateById m.keyId = .ok (s, j) ∧
      SenderKeyState.getSigningKeyPublic s = .ok pub ∧ m.verifySignature pub = .ok () ∧
      getSenderKey s m.iteration = .ok (k, s') ∧ AES.decrypt k.cipherKey k.iv m.ciphertext = .ok pt ∧
      (decrypt g n b).stored = some ((g n).replace j s') := by
  unfold decrypt at h ⊢
  cases he : decryptWithRecord (g n) b with
  | error e =>
    rw [he] at h
    simp only [wrapInvalid] at h
    split at h <;> cases h
  | ok p =>
    obtain ⟨m, r⟩ := p
    rw [he] at h
    simp only at h ⊢
    unfold decryptWithRecord at he
    split at he
    · cases he
    obtain ⟨m, h1, he⟩ := bind_eq_ok.1 he
    obtain ⟨⟨s, j⟩, h2, he⟩ := bind_eq_ok.1 he
    obtain ⟨pub, h3, he⟩ := bind_eq_ok.1 he
    obtain ⟨_, h4, he⟩ := bind_eq_ok.1 he
    obtain ⟨⟨k, s'⟩, h5, he⟩ := bind_eq_ok.1 he
    obtain ⟨pt', h6, he⟩ := bind_eq_ok.1 he
    obtain ⟨rfl, rfl⟩ := Prod.mk.inj (Except.ok.inj he)
    have h := Except.ok.inj h
    subst h
    refine ⟨m, s, j, pub, k, s', h1, h2, h3, h4, h5, ?_, rfl⟩
    unfold getPlainText SenderKeyMessage.wrapAll at h6
    split at h6
    · cases h6
    · rename_i hq; rw [← h6]

theorem decrypt_error {g : GroupStore} {n : SenderKeyName} {b : Bytes} {e : Err}
    (h : (decrypt g n b).result = .error e) : (decrypt g n b).stored = none := by
  unfold decrypt at h ⊢
  cases he : decryptWithRecord (g n) b with
  | error e => rfl
  | ok p => rw [he] at h; cases h

end GroupCipher

/-- One change of a sender-key state. -/
inductive StateStep (s : SenderKeyState) : SenderKeyState → Prop
  | send : iterationOf s + 1 < 2 ^ 32 → StateStep s (sentOn s)
  | old {i : Nat} {k : SenderSeedS} {rest : List SenderSeedS} : i < iterationOf s →
      SenderKeyState.takeKey i s.senderMessageKeys = some (k, rest) → StateStep s { s with senderMessageKeys := rest }
  | new {i : Nat} : iterationOf s ≤ i → i + 1 < 2 ^ 32 → StateStep s (GroupCipher.moved s i)

/-- A state as a distribution message or `create` makes it. -/
def FreshState (s : SenderKeyState) : Prop :=
  s.senderMessageKeys = [] ∧ (s.senderKeyId.getD 0) < 2 ^ 32 ∧ iterationOf s < 2 ^ 32 ∧
  ((SenderKeyState.getSigningKeyPrivate s = [] ∧ ∃ pub, SenderKeyState.getSigningKeyPublic s = .ok pub) ∨
    ∃ seed, SenderKeyState.getSigningKeyPrivate s = C.genPriv seed ∧
      (s.senderSigningKey.getD {}).pub = some (5 :: C.genPub (C.genPriv seed)))

/-- What a call may do to the record of its name. -/
inductive RecordStep (r : SenderKeyRecord) : SenderKeyRecord → Prop
  | same : RecordStep r r
  | add {s : SenderKeyState} : FreshState s → SenderKeyState.getSigningKeyPrivate s = [] →
      RecordStep r { senderKeyStates := r.senderKeyStates ++ [s] }
  | first {s : SenderKeyState} : r.senderKeyStates = [] → FreshState s → RecordStep r { senderKeyStates := [s] }
  | change {id j : Nat} {s s' : SenderKeyState} : r.getStateById id = .ok (s, j) → StateStep s s' →
      RecordStep r (r.replace j s')

theorem getSenderKey_step {s s' : SenderKeyState} {i : Nat} {k : SenderMessageKey}
    (h : GroupCipher.getSenderKey s i = .ok (k, s')) :
    StateStep s s' ∧ ((i < iterationOf s ∧ ∃ x rest, SenderKeyState.takeKey i s.senderMessageKeys = some (x, rest) ∧
        k = SenderMessageKey.mk' i (x.seed.getD []) ∧ s' = { s with senderMessageKeys := rest }) ∨
      (iterationOf s ≤ i ∧ i + 1 < 2 ^ 32 ∧
        k = SenderMessageKey.mk' i (C.hmac (chainAt (chainKeyOf s) (i - iterationOf s)) [0x01]) ∧
        s' = GroupCipher.moved s i)) := by
  by_cases hp : i < iterationOf s
  · rw [GroupCipher.getSenderKey_old hp] at h
    cases ht : SenderKeyState.takeKey i s.senderMessageKeys with
    | none => rw [ht] at h; cases h
    | some p =>
      obtain ⟨x, rest⟩ := p
      rw [ht] at h
      obtain ⟨rfl, rfl⟩ := Prod.mk.inj (Except.ok.inj h)
      exact ⟨.old hp ht, .inl ⟨hp, x, rest, rfl, rfl, rfl⟩⟩
  · by_cases hi : i + 1 < 2 ^ 32
    · rw [GroupCipher.getSenderKey_new (by omega) hi] at h
      obtain ⟨rfl, rfl⟩ := Prod.mk.inj (Except.ok.inj h)
      exact ⟨.new (by omega) hi, .inr ⟨by omega, hi, rfl, rfl⟩⟩
    · rw [GroupCipher.getSenderKey_last (by omega) (by omega)] at h
      cases h

omit C in
theorem mk'_ok {id it : Nat} {ck : Bytes} {pub : ECPub} {priv : Option ECPriv} {s : SenderKeyState}
    (h : SenderKeyState.mk' id it ck pub priv = .ok s) :
    id < 2 ^ 32 ∧ it < 2 ^ 32 ∧
    s = { senderKeyId := some id, senderChainKey := some { iteration := some it, seed := some ck },
          senderSigningKey := some { pub := some (5 :: pub), priv := priv } } := by
  unfold SenderKeyState.mk' at h
  obtain ⟨a, h1, h⟩ := bind_eq_ok.1 h
  obtain ⟨b, h2, h⟩ := bind_eq_ok.1 h
  obtain ⟨h3, h4⟩ := chkU32_eq_ok.1 h1
  obtain ⟨h5, h6⟩ := chkU32_eq_ok.1 h2
  have h3 : it = a := by omega
  have h5 : id = b := by omega
  subst h3 h5
  exact ⟨h6, h4, (Except.ok.inj h).symm⟩

omit C in
theorem mk'_error {id it : Nat} {ck : Bytes} {pub : ECPub} {priv : Option ECPriv} {e : Err}
    (h : SenderKeyState.mk' id it ck pub priv = .error e) : e = .valueError ∧ (2 ^ 32 ≤ id ∨ 2 ^ 32 ≤ it) := by
  unfold SenderKeyState.mk' at h
  rcases bind_eq_error.1 h with h | ⟨a, h1, h⟩
  · refine ⟨chkU32_error h, .inr ?_⟩
    unfold chkU32 at h
    split at h
    · cases h
    · omega
  · rcases bind_eq_error.1 h with h | ⟨b, h2, h⟩
    · refine ⟨chkU32_error h, .inl ?_⟩
      unfold chkU32 at h
      split at h
      · cases h
      · omega
    · cases h

omit C in
theorem mk'_of {id it : Nat} {ck : Bytes} {pub : ECPub} {priv : Option ECPriv} (h1 : id < 2 ^ 32) (h2 : it < 2 ^ 32) :
    SenderKeyState.mk' id it ck pub priv = .ok
      { senderKeyId := some id, senderChainKey := some { iteration := some it, seed := some ck },
        senderSigningKey := some { pub := some (5 :: pub), priv := priv } } := by
  unfold SenderKeyState.mk'
  rw [chkU32_ok h1, chkU32_ok h2]
  rfl

omit C in
/-- The state `process` adds. -/
def addedState (m : SenderKeyDistributionMessage) : SenderKeyState :=
  { senderKeyId := some m.id, senderChainKey := some { iteration := some m.iteration, seed := some m.chainKey },
    senderSigningKey := some { pub := some (5 :: m.signatureKey), priv := none } }

/-- The state `create` makes. -/
def createdState (rnd : GroupSessionBuilder.CreateRand) : SenderKeyState :=
  { senderKeyId := some rnd.keyId,
    senderChainKey := some { iteration := some 0, seed := some rnd.senderKey },
    senderSigningKey := some { pub := some (5 :: C.genPub (C.genPriv rnd.signSeed)),
                               priv := some (C.genPriv rnd.signSeed) } }

theorem addedState_fresh {m : SenderKeyDistributionMessage} (h1 : m.id < 2 ^ 32) (h2 : m.iteration < 2 ^ 32) :
    FreshState (addedState m) := by
  have e1 : (addedState m).senderKeyId.getD 0 = m.id := rfl
  have e2 : iterationOf (addedState m) = m.iteration := rfl
  refine ⟨rfl, ?_, ?_, .inl ⟨rfl, m.signatureKey.take 32, rfl⟩⟩
  · rw [e1]; exact h1
  · rw [e2]; exact h2

theorem createdState_fresh {rnd : GroupSessionBuilder.CreateRand} (h1 : rnd.keyId < 2 ^ 32) :
    FreshState (createdState rnd) := by
  have e1 : (createdState rnd).senderKeyId.getD 0 = rnd.keyId := rfl
  have e2 : iterationOf (createdState rnd) = 0 := rfl
  refine ⟨rfl, ?_, ?_, .inr ⟨rnd.signSeed, rfl, rfl⟩⟩
  · rw [e1]; exact h1
  · rw [e2]; exact Nat.two_pow_pos 32

theorem process_good {g : GroupStore} {n : SenderKeyName} {m : SenderKeyDistributionMessage} (h1 : m.id < 2 ^ 32)
    (h2 : m.iteration < 2 ^ 32) : GroupSessionBuilder.process g n m =
      ⟨some { senderKeyStates := (g n).senderKeyStates ++ [addedState m] }, .ok ()⟩ := by
  unfold GroupSessionBuilder.process SenderKeyRecord.addSenderKeyState
  rw [mk'_of h1 h2]
  rfl

theorem process_bad {g : GroupStore} {n : SenderKeyName} {m : SenderKeyDistributionMessage}
    (h : ¬ (m.id < 2 ^ 32 ∧ m.iteration < 2 ^ 32)) :
    GroupSessionBuilder.process g n m = ⟨none, .error .valueError⟩ := by
  unfold GroupSessionBuilder.process SenderKeyRecord.addSenderKeyState
  cases hm : SenderKeyState.mk' m.id m.iteration m.chainKey m.signatureKey none with
  | ok s => exact absurd ⟨(mk'_ok hm).1, (mk'_ok hm).2.1⟩ h
  | error e => rw [(mk'_error hm).1]; rfl

omit C in
theorem isEmpty_iff (r : SenderKeyRecord) : r.isEmpty = true ↔ r.senderKeyStates = [] := by
  unfold SenderKeyRecord.isEmpty
  simp

theorem create_new {g : GroupStore} {n : SenderKeyName} {rnd : GroupSessionBuilder.CreateRand}
    (h : (g n).senderKeyStates = []) (h1 : rnd.keyId < 2 ^ 32) :
    GroupSessionBuilder.create g n rnd = ⟨some { senderKeyStates := [createdState rnd] },
      GroupSessionBuilder.wrapAssert (GroupSessionBuilder.distributionOf { senderKeyStates := [createdState rnd] })⟩ := by
  unfold GroupSessionBuilder.create
  rw [if_pos ((isEmpty_iff _).2 h)]
  unfold SenderKeyRecord.setSenderKeyState
  rw [mk'_of h1 (Nat.two_pow_pos 32)]
  rfl

theorem create_bad {g : GroupStore} {n : SenderKeyName} {rnd : GroupSessionBuilder.CreateRand}
    (h : (g n).senderKeyStates = []) (h1 : ¬ rnd.keyId < 2 ^ 32) :
    GroupSessionBuilder.create g n rnd = ⟨none, .error .valueError⟩ := by
  unfold GroupSessionBuilder.create
  rw [if_pos ((isEmpty_iff _).2 h)]
  unfold SenderKeyRecord.setSenderKeyState
  cases hm : SenderKeyState.mk' rnd.keyId 0 rnd.senderKey (Curve.generateKeyPair rnd.signSeed).pub
      (some (Curve.generateKeyPair rnd.signSeed).priv) with
  | ok s => exact absurd (mk'_ok hm).1 h1
  | error e => rw [(mk'_error hm).1]; rfl

theorem create_again {g : GroupStore} {n : SenderKeyName} {rnd : GroupSessionBuilder.CreateRand}
    (h : (g n).senderKeyStates ≠ []) :
    GroupSessionBuilder.create g n rnd =
      ⟨none, GroupSessionBuilder.wrapAssert (GroupSessionBuilder.distributionOf (g n))⟩ := by
  unfold GroupSessionBuilder.create
  rw [if_neg (fun q => h ((isEmpty_iff _).1 q))]

theorem mapG_stored {α β : Type} (f : α → β) (o : GOutcome α) : (GroupCall.mapG f o).stored = o.stored := by
  cases o; rfl

theorem run_encrypt (g : GroupStore) (n : SenderKeyName) (pt rand : Bytes) :
    (GroupCall.encrypt n pt rand).run g = GroupCall.mapG .bytes (GroupCipher.encrypt g n pt rand) := by
  unfold GroupCall.run; rfl
theorem run_decrypt (g : GroupStore) (n : SenderKeyName) (b : Bytes) :
    (GroupCall.decrypt n b).run g = GroupCall.mapG .bytes (GroupCipher.decrypt g n b) := by
  unfold GroupCall.run; rfl
theorem run_process (g : GroupStore) (n : SenderKeyName) (m : SenderKeyDistributionMessage) :
    (GroupCall.process n m).run g = GroupCall.mapG (fun _ => .done) (GroupSessionBuilder.process g n m) := by
  unfold GroupCall.run; rfl
theorem run_create (g : GroupStore) (n : SenderKeyName) (rnd : GroupSessionBuilder.CreateRand) :
    (GroupCall.create n rnd).run g = GroupCall.mapG .distribution (GroupSessionBuilder.create g n rnd) := by
  unfold GroupCall.run; rfl

/-- Every call leaves other names alone and takes the record of its own name one step. -/
theorem next_record (g : GroupStore) (c : GroupCall) (n : SenderKeyName) : RecordStep (g n) (c.next g n) := by
  have hfin : ∀ {α : Type} (o : GOutcome α) (n' : SenderKeyName),
      (o.stored = none ∨ n ≠ n' ∨ ∃ r, o.stored = some r ∧ RecordStep (g n') r) → RecordStep (g n) (o.final g n' n) := by
    intro α o n' h
    unfold GOutcome.final
    rcases h with h | h | ⟨r, h, hr⟩
    · rw [h]; exact .same
    · cases o.stored with
      | none => exact .same
      | some r => simp only [GroupStore.store, if_neg h]; exact .same
    · rw [h]
      simp only [GroupStore.store]
      split
      · rename_i e; rw [e]; exact hr
      · exact .same
  unfold GroupCall.next
  cases c with
  | encrypt n' pt rand =>
    refine hfin _ n' ?_
    rw [run_encrypt, mapG_stored]
    cases hr : (GroupCipher.encrypt g n' pt rand).result with
    | error e => exact .inl (GroupCipher.encrypt_error hr)
    | ok b =>
      obtain ⟨s, ct, m, h1, _, _, _, h5, h6⟩ := GroupCipher.encrypt_ok hr
      exact .inr (.inr ⟨_, h6, .change (SenderKeyRecord.getStateById_first h1) (.send h5)⟩)
  | decrypt n' b =>
    refine hfin _ n' ?_
    rw [run_decrypt, mapG_stored]
    cases hr : (GroupCipher.decrypt g n' b).result with
    | error e => exact .inl (GroupCipher.decrypt_error hr)
    | ok b =>
      obtain ⟨m, s, j, pub, k, s', _, h2, _, _, h5, _, h7⟩ := GroupCipher.decrypt_ok hr
      exact .inr (.inr ⟨_, h7, .change h2 (getSenderKey_step h5).1⟩)
  | process n' m =>
    refine hfin _ n' ?_
    rw [run_process, mapG_stored]
    by_cases h : m.id < 2 ^ 32 ∧ m.iteration < 2 ^ 32
    · rw [process_good h.1 h.2]
      exact .inr (.inr ⟨_, rfl, .add (addedState_fresh h.1 h.2) rfl⟩)
    · rw [process_bad h]
      exact .inl rfl
  | create n' rnd =>
    refine hfin _ n' ?_
    rw [run_create, mapG_stored]
    by_cases h : (g n').senderKeyStates = []
    · by_cases hk : rnd.keyId < 2 ^ 32
      · rw [create_new h hk]
        exact .inr (.inr ⟨_, rfl, .first h (createdState_fresh hk)⟩)
      · rw [create_bad h hk]
        exact .inl rfl
    · rw [create_again h]
      exact .inl rfl

/-- The record of other names is untouched. -/
theorem next_other (g : GroupStore) (c : GroupCall) (n : SenderKeyName) (h : c.name ≠ n) : c.next g n = g n := by
  unfold GroupCall.next GOutcome.final
  cases (c.run g).stored with
  | none => rfl
  | some r => simp only [GroupStore.store, if_neg (fun q : n = c.name => h q.symm)]

/-! ## Following one state -/

theorem StateStep.id {s s' : SenderKeyState} (h : StateStep s s') : s'.senderKeyId = s.senderKeyId := by
  cases h <;> rfl

theorem StateStep.signing {s s' : SenderKeyState} (h : StateStep s s') : s'.senderSigningKey = s.senderSigningKey := by
  cases h <;> rfl

theorem StateStep.position_le {s s' : SenderKeyState} (h : StateStep s s') : iterationOf s ≤ iterationOf s' := by
  cases h with
  | send => show iterationOf s ≤ iterationOf s + 1; omega
  | old => exact Nat.le_refl _
  | new h => rename_i i _; show iterationOf s ≤ i + 1; omega

/-- A state found by its id stays found, unchanged or one step further. -/
theorem RecordStep.keeps {r r' : SenderKeyRecord} (h : RecordStep r r') {id : Nat} {s : SenderKeyState}
    (hs : stateFor r id = some s) : ∃ s', stateFor r' id = some s' ∧ (s' = s ∨ StateStep s s') := by
  cases h with
  | same => exact ⟨s, hs, .inl rfl⟩
  | add _ _ =>
    refine ⟨s, ?_, .inl rfl⟩
    unfold stateFor at hs ⊢
    rw [List.find?_append, hs]
    rfl
  | first h _ =>
    unfold stateFor at hs
    rw [h] at hs
    cases hs
  | @change id' j t t' h1 h2 =>
    obtain ⟨h3, _, h4⟩ := SenderKeyRecord.getStateById_ok h1
    have hid : SenderKeyState.getKeyId t' = id' := by
      unfold SenderKeyState.getKeyId
      rw [h2.id]
      exact stateFor_id h3
    have h4 := h4 t' hid id
    by_cases he : id = id'
    · subst he
      rw [if_pos rfl] at h4
      rw [h3] at hs
      injection hs with hs
      subst hs
      exact ⟨t', h4, .inr h2⟩
    · rw [if_neg he] at h4
      exact ⟨s, h4.trans hs, .inl rfl⟩

/-- A state found after a step was there before, or is new. -/
theorem RecordStep.comes {r r' : SenderKeyRecord} (h : RecordStep r r') {id : Nat} {s' : SenderKeyState}
    (hs : stateFor r' id = some s') :
    (∃ s, stateFor r id = some s ∧ (s' = s ∨ StateStep s s')) ∨ (stateFor r id = none ∧ FreshState s') := by
  cases hr : stateFor r id with
  | some s =>
    obtain ⟨s2, h1, h2⟩ := h.keeps hr
    rw [h1] at hs
    injection hs with hs
    subst hs
    exact .inl ⟨s, rfl, h2⟩
  | none =>
    right
    refine ⟨rfl, ?_⟩
    cases h with
    | same => rw [hr] at hs; cases hs
    | @add t hf _ =>
      unfold stateFor at hs hr
      rw [List.find?_append, hr] at hs
      simp only [Option.none_or] at hs
      rw [List.mem_singleton.1 (List.mem_of_find?_eq_some hs)]
      exact hf
    | @first t _ hf =>
      unfold stateFor at hs
      rw [List.mem_singleton.1 (List.mem_of_find?_eq_some hs)]
      exact hf
    | @change id' j t t' h1 h2 =>
      obtain ⟨h3, _, h4⟩ := SenderKeyRecord.getStateById_ok h1
      have hid : SenderKeyState.getKeyId t' = id' := by
        unfold SenderKeyState.getKeyId
        rw [h2.id]
        exact stateFor_id h3
      have h4 := h4 t' hid id
      by_cases he : id = id'
      · subst he; rw [h3] at hr; cases hr
      · rw [if_neg he, hr] at h4
        rw [h4] at hs; cases hs

/-- The sending state stays, unchanged or one step further. -/
theorem RecordStep.keeps_sending {r r' : SenderKeyRecord} (h : RecordStep r r') {s : SenderKeyState}
    (hs : sendingState r = some s) : ∃ s', sendingState r' = some s' ∧ (s' = s ∨ StateStep s s') := by
  cases h with
  | same => exact ⟨s, hs, .inl rfl⟩
  | add _ _ =>
    refine ⟨s, ?_, .inl rfl⟩
    unfold sendingState at hs ⊢
    rw [List.head?_append, hs]
    rfl
  | first h _ =>
    unfold sendingState at hs
    rw [h] at hs
    cases hs
  | @change id' j t t' h1 h2 =>
    rw [SenderKeyRecord.sendingState_replace h1, hs]
    split
    · rename_i he
      have he : s.senderKeyId.getD 0 = id' := by
        simp only [Option.map_some] at he
        exact Option.some.inj he
      have h3 := (SenderKeyRecord.getStateById_ok h1).1
      have h4 := SenderKeyRecord.sendingState_stateFor hs
      rw [he, h3] at h4
      injection h4 with h4
      subst h4
      exact ⟨t', rfl, .inr h2⟩
    · exact ⟨s, rfl, .inl rfl⟩

/-- The sending state after a step was the sending state before, or is new. -/
theorem RecordStep.comes_sending {r r' : SenderKeyRecord} (h : RecordStep r r') {s' : SenderKeyState}
    (hs : sendingState r' = some s') :
    (∃ s, sendingState r = some s ∧ (s' = s ∨ StateStep s s')) ∨ (sendingState r = none ∧ FreshState s') := by
  cases hr : sendingState r with
  | some s =>
    obtain ⟨s2, h1, h2⟩ := h.keeps_sending hr
    rw [h1] at hs
    injection hs with hs
    subst hs
    exact .inl ⟨s, rfl, h2⟩
  | none =>
    right
    refine ⟨rfl, ?_⟩
    have hnil : r.senderKeyStates = [] := by
      unfold sendingState at hr
      exact List.head?_eq_none_iff.1 hr
    cases h with
    | same => rw [hr] at hs; cases hs
    | @add t hf _ =>
      unfold sendingState at hs
      simp only [hnil, List.nil_append, List.head?_cons, Option.some.injEq] at hs
      rw [← hs]; exact hf
    | @first t _ hf =>
      unfold sendingState at hs
      simp only [List.head?_cons, Option.some.injEq] at hs
      rw [← hs]; exact hf
    | change h1 _ =>
      unfold SenderKeyRecord.getStateById at h1
      rw [hnil] at h1
      cases h1

/-- A property of a state that steps preserve survives any history. -/
theorem after_keeps (P : SenderKeyState → Prop) (hP : ∀ s s', StateStep s s' → P s → P s') {g : GroupStore}
    {n : SenderKeyName} {id : Nat} {s : SenderKeyState} (hs : stateFor (g n) id = some s) (hp : P s)
    (cs : List GroupCall) : ∃ s', stateFor (GroupCall.after g cs n) id = some s' ∧ P s' := by
  induction cs generalizing g s with
  | nil => exact ⟨s, hs, hp⟩
  | cons c cs ih =>
    obtain ⟨s', h1, h2⟩ := (next_record g c n).keeps hs
    refine ih (g := c.next g) h1 ?_
    rcases h2 with rfl | h2
    · exact hp
    · exact hP _ _ h2 hp

theorem after_keeps_sending (P : SenderKeyState → Prop) (hP : ∀ s s', StateStep s s' → P s → P s') {g : GroupStore}
    {n : SenderKeyName} {s : SenderKeyState} (hs : sendingState (g n) = some s) (hp : P s)
    (cs : List GroupCall) : ∃ s', sendingState (GroupCall.after g cs n) = some s' ∧ P s' := by
  induction cs generalizing g s with
  | nil => exact ⟨s, hs, hp⟩
  | cons c cs ih =>
    obtain ⟨s', h1, h2⟩ := (next_record g c n).keeps_sending hs
    refine ih (g := c.next g) h1 ?_
    rcases h2 with rfl | h2
    · exact hp
    · exact hP _ _ h2 hp

/-- A property of fresh states that steps preserve holds of all states of a store reached from the empty one. -/
theorem reached_all (P : SenderKeyState → Prop) (hP : ∀ s s', StateStep s s' → P s → P s')
    (hf : ∀ s, FreshState s → P s) (cs : List GroupCall) (n : SenderKeyName) (id : Nat) (s : SenderKeyState)
    (hs : stateFor (GroupCall.after GroupStore.empty cs n) id = some s) : P s := by
  have key : ∀ (cs : List GroupCall) (g : GroupStore), (∀ n id s, stateFor (g n) id = some s → P s) →
      ∀ n id s, stateFor (GroupCall.after g cs n) id = some s → P s := by
    intro cs
    induction cs with
    | nil => intro g hg; exact hg
    | cons c cs ih =>
      intro g hg
      refine ih (c.next g) ?_
      intro n id s hs
      rcases (next_record g c n).comes hs with ⟨t, h1, h2⟩ | ⟨_, h2⟩
      · rcases h2 with rfl | h2
        · exact hg n id _ h1
        · exact hP _ _ h2 (hg n id _ h1)
      · exact hf _ h2
  refine key cs GroupStore.empty ?_ n id s hs
  intro n id s hs
  cases hs

end
end Axolotl
