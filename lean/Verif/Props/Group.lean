import Verif.Proofs.GroupSteps
import Verif.Props.Messages
import Verif.Props.Cipher
import Verif.Example

/-! # C34 (groups), C38, C39, C40, C43, C44, C45: sender keys over histories of group calls -/

namespace Axolotl
section
variable [C : Crypto]
open Spec ByteUtil

/-! ## The store after one call -/

omit C in
theorem final_store {α : Type} {o : GOutcome α} {g : GroupStore} {n : SenderKeyName} {r : SenderKeyRecord}
    (h : o.stored = some r) : o.final g n n = r := by
  unfold GOutcome.final
  rw [h]
  simp [GroupStore.store]

omit C in
theorem final_none {α : Type} {o : GOutcome α} {g : GroupStore} {n : SenderKeyName}
    (h : o.stored = none) : o.final g n = g := by
  unfold GOutcome.final
  rw [h]

theorem next_process_good {g : GroupStore} {n : SenderKeyName} {d : SenderKeyDistributionMessage}
    (h : d.id < 2 ^ 32 ∧ d.iteration < 2 ^ 32) :
    (GroupCall.process n d).next g n = { senderKeyStates := (g n).senderKeyStates ++ [addedState d] } := by
  unfold GroupCall.next
  apply final_store
  rw [run_process, mapG_stored, process_good h.1 h.2]

theorem next_process_bad {g : GroupStore} {n : SenderKeyName} {d : SenderKeyDistributionMessage}
    (h : ¬ (d.id < 2 ^ 32 ∧ d.iteration < 2 ^ 32)) : (GroupCall.process n d).next g = g := by
  unfold GroupCall.next
  apply final_none
  rw [run_process, mapG_stored, process_bad h]

theorem next_create_again {g : GroupStore} {n : SenderKeyName} {rnd : GroupSessionBuilder.CreateRand}
    (h : (g n).senderKeyStates ≠ []) : (GroupCall.create n rnd).next g = g := by
  unfold GroupCall.next
  apply final_none
  rw [run_create, mapG_stored, create_again h]

theorem next_create_new {g : GroupStore} {n : SenderKeyName} {rnd : GroupSessionBuilder.CreateRand}
    (h : (g n).senderKeyStates = []) (h1 : rnd.keyId < 2 ^ 32) :
    (GroupCall.create n rnd).next g n = { senderKeyStates := [createdState rnd] } := by
  unfold GroupCall.next
  apply final_store
  rw [run_create, mapG_stored, create_new h h1]

theorem next_create_bad {g : GroupStore} {n : SenderKeyName} {rnd : GroupSessionBuilder.CreateRand}
    (h : (g n).senderKeyStates = []) (h1 : ¬ rnd.keyId < 2 ^ 32) : (GroupCall.create n rnd).next g = g := by
  unfold GroupCall.next
  apply final_none
  rw [run_create, mapG_stored, create_bad h h1]

theorem next_encrypt {g : GroupStore} {n : SenderKeyName} {pt rand : Bytes} {r : SenderKeyRecord}
    (h : (GroupCipher.encrypt g n pt rand).stored = some r) : (GroupCall.encrypt n pt rand).next g n = r := by
  unfold GroupCall.next
  apply final_store
  rw [run_encrypt, mapG_stored, h]

theorem next_encrypt_error {g : GroupStore} {n : SenderKeyName} {pt rand : Bytes}
    (h : (GroupCipher.encrypt g n pt rand).stored = none) : (GroupCall.encrypt n pt rand).next g = g := by
  unfold GroupCall.next
  apply final_none
  rw [run_encrypt, mapG_stored, h]

theorem next_decrypt {g : GroupStore} {n : SenderKeyName} {b : Bytes} {r : SenderKeyRecord}
    (h : (GroupCipher.decrypt g n b).stored = some r) : (GroupCall.decrypt n b).next g n = r := by
  unfold GroupCall.next
  apply final_store
  rw [run_decrypt, mapG_stored, h]

theorem next_decrypt_error {g : GroupStore} {n : SenderKeyName} {b : Bytes}
    (h : (GroupCipher.decrypt g n b).stored = none) : (GroupCall.decrypt n b).next g = g := by
  unfold GroupCall.next
  apply final_none
  rw [run_decrypt, mapG_stored, h]

theorem next_sent {g : GroupStore} {n : SenderKeyName} {pt rand : Bytes} {s : SenderKeyState}
    (h1 : sendingState (g n) = some s)
    (h : (GroupCipher.encrypt g n pt rand).stored = some ((g n).replace 0 (sentOn s))) :
    sendingState ((GroupCall.encrypt n pt rand).next g n) = some (sentOn s) := by
  rw [next_encrypt h, SenderKeyRecord.sendingState_replace (SenderKeyRecord.getStateById_first h1), h1]
  simp

/-! ## C34: authentication of group messages -/

omit C in
theorem decodePoint_ok {bs : Bytes} {k : ECPub} (h : Curve.decodePoint bs = .ok k) :
    ∃ r, bs = 5 :: r ∧ k = r.take 32 := by
  unfold Curve.decodePoint at h
  split at h
  · cases h
  · rename_i t r
    split at h
    · rename_i ht
      exact ⟨r, by rw [ht]; rfl, (Except.ok.inj h).symm⟩
    · cases h

theorem verifySignature_ok (hC : C.Lawful) {m : SenderKeyMessage} {pub : ECPub} (h : m.verifySignature pub = .ok ()) :
    ∃ body sig, m.serialized = body ++ sig ∧ sig.length = 64 ∧ C.verifySig pub body sig = some true := by
  unfold SenderKeyMessage.verifySignature at h
  simp only at h
  obtain ⟨ok, h1, h2⟩ := bind_eq_ok.1 h
  have hok : ok = true := by
    cases ok with
    | true => rfl
    | false => cases h2
  subst hok
  unfold Curve.verifySignature at h1
  split at h1
  · rename_i b hb
    have h1 := Except.ok.inj h1
    subst h1
    have hl := hC.verify_len _ _ _ _ hb
    have hle : 64 ≤ m.serialized.length := by
      unfold split2 pySlice at hl
      simp only [List.length_drop, List.length_take] at hl
      omega
    have hsp := split2_tail (m.serialized.take (m.serialized.length - 64)) (m.serialized.drop (m.serialized.length - 64))
      64 (by rw [List.length_drop]; omega)
    rw [List.take_append_drop] at hsp
    have e : ((SenderKeyMessage.SIGNATURE_LENGTH : Nat) : Int) = ((64 : Nat) : Int) := rfl
    rw [e, hsp] at hb
    exact ⟨_, _, (List.take_append_drop (m.serialized.length - 64) _).symm, by rw [List.length_drop]; omega, hb⟩
  · cases h1

omit C in
theorem senderkey_parse_serialized {b : Bytes} {m : SenderKeyMessage} (h : SenderKeyMessage.parse b = .ok m) :
    m.serialized = b := by
  unfold SenderKeyMessage.parse at h
  split at h
  · cases h
  · unfold SenderKeyMessage.wrapAll at h
    split at h
    · cases h
    · unfold SenderKeyMessage.parseBody at h
      simp only at h
      split at h
      · cases h
      · split at h
        · cases h
        · split at h
          · cases h
          · obtain ⟨x, _, h⟩ := bind_eq_ok.1 h
            rw [← Except.ok.inj h]

/-- **C34**, groups.  If group bytes are accepted, their last 64 bytes are a valid signature of all preceding
bytes under the signing key stored for the key id they name. -/
theorem C34_group_authenticated (hC : C.Lawful) (g : GroupStore) (n : SenderKeyName) (b pt : Bytes)
    (h : (GroupCipher.decrypt g n b).result = .ok pt) :
    ∃ m s body sig k, SenderKeyMessage.parse b = .ok m ∧ stateFor (g n) m.keyId = some s ∧
      (s.senderSigningKey.getD {}).pub = some (5 :: k) ∧ b = body ++ sig ∧ sig.length = 64 ∧
      C.verifySig (k.take 32) body sig = some true := by
  obtain ⟨m, s, j, pub, k, s', h1, h2, h3, h4, _⟩ := GroupCipher.decrypt_ok h
  obtain ⟨body, sig, h5, h6, h7⟩ := verifySignature_ok hC h4
  rw [senderkey_parse_serialized h1] at h5
  unfold SenderKeyState.getSigningKeyPublic at h3
  obtain ⟨r, h8, h9⟩ := decodePoint_ok h3
  refine ⟨m, s, body, sig, r, h1, (SenderKeyRecord.getStateById_ok h2).1, ?_, h5, h6, by rw [← h9]; exact h7⟩
  cases hp : (s.senderSigningKey.getD {}).pub with
  | none => rw [hp] at h8; cases h8
  | some x => rw [hp] at h8; rw [← h8]; rfl

/-! ## C38: no iteration is used twice -/

/-- A returned message names the sending state's key id and position. -/
theorem encrypt_parses (hC : C.Lawful) {g : GroupStore} {n : SenderKeyName} {pt rand b : Bytes}
    (hpt : pt.length < 2 ^ 62) (hrand : rand.length = 64) (h : (GroupCipher.encrypt g n pt rand).result = .ok b) :
    ∃ s m, sendingState (g n) = some s ∧ SenderKeyMessage.parse b = .ok m ∧ m.keyId = s.senderKeyId.getD 0 ∧
      m.iteration = iterationOf s ∧
      (C.Generated (SenderKeyState.getSigningKeyPrivate s) →
        m.verifySignature (C.genPub (SenderKeyState.getSigningKeyPrivate s)) = .ok ()) ∧
      (SenderKeyState.getSigningKeyPrivate s).length = 32 ∧
      AES.decrypt (groupCipherKey (groupSeed (chainKeyOf s))) (groupIv (groupSeed (chainKeyOf s))) m.ciphertext
        = .ok pt ∧
      iterationOf s + 1 < 2 ^ 32 ∧
      (GroupCipher.encrypt g n pt rand).stored = some ((g n).replace 0 (sentOn s)) := by
  obtain ⟨s, ct, m, h1, h2, h3, h4, h5, h6⟩ := GroupCipher.encrypt_ok h
  rw [senderMessageKey_eq hC.hmac_len] at h2
  obtain ⟨ct', c1, c2, _, _, c5⟩ := C01_cipher_roundtrip hC (groupCipherKey (groupSeed (chainKeyOf s)))
    (groupIv (groupSeed (chainKeyOf s))) pt (.inr (.inr (groupCipherKey_length hC.hmac_len _)))
    (groupIv_length hC.hmac_len _)
  have hct : ct = ct' := Except.ok.inj (h2.symm.trans c1)
  subst hct
  have hk : SenderKeyState.getKeyId s < 2 ^ 32 ∧ (SenderKeyState.getSigningKeyPrivate s).length = 32 := by
    unfold SenderKeyMessage.create at h3
    simp only at h3
    obtain ⟨a, q1, h3⟩ := bind_eq_ok.1 h3
    obtain ⟨b, q2, h3⟩ := bind_eq_ok.1 h3
    obtain ⟨sig, q3, h3⟩ := bind_eq_ok.1 h3
    obtain ⟨q4, q5⟩ := chkU32_eq_ok.1 q1
    refine ⟨by omega, ?_⟩
    unfold Curve.calculateSignature at q3
    split at q3
    · rename_i x hx
      exact (hC.sig_size _ _ _ _ hx).1
    · cases q3
  obtain ⟨r2, r3, r4, r5, r6⟩ := senderkey_create_parses hC hk.1 (by omega) (by omega) h3
  subst h4
  exact ⟨s, m, h1, r2, r4, r5, r3 hrand, hk.2, by rw [r6]; exact c2, h5, h6⟩

/-- What is sent under a name from some point on carries the key id and at least the position of the sending
state at that point. -/
theorem sent_from (hC : C.Lawful) (cs : List GroupCall) (hcs : ∀ c ∈ cs, GroupCallOk c) {g : GroupStore}
    {n : SenderKeyName} {s : SenderKeyState} (hs : sendingState (g n) = some s) :
    ∀ x ∈ groupSent g cs, x.name = n → ∀ m, SenderKeyMessage.parse x.bytes = .ok m →
      m.keyId = s.senderKeyId.getD 0 ∧ iterationOf s ≤ m.iteration := by
  induction cs generalizing g s with
  | nil => intro x hx; cases hx
  | cons c cs ih =>
    intro x hx hn m hm
    unfold groupSent at hx
    rcases List.mem_append.1 hx with hx | hx
    · cases c with
      | encrypt n' pt rand =>
        simp only at hx
        cases hr : (GroupCipher.encrypt g n' pt rand).result with
        | error e => rw [hr] at hx; cases hx
        | ok b =>
          rw [hr] at hx
          have hx := List.mem_singleton.1 hx
          subst hx
          simp only at hn hm
          subst hn
          obtain ⟨h1, h2⟩ := hcs _ (List.mem_cons_self ..)
          obtain ⟨s', m', q1, q2, q3, q4, _⟩ := encrypt_parses hC h1 h2 hr
          rw [hs] at q1
          injection q1 with q1
          subst q1
          have := Except.ok.inj (hm.symm.trans q2)
          subst this
          exact ⟨q3, by omega⟩
      | decrypt _ _ => cases hx
      | process _ _ => cases hx
      | create _ _ => cases hx
    · obtain ⟨s', h1, h2⟩ := (next_record g c n).keeps_sending hs
      obtain ⟨h3, h4⟩ := ih (fun c hc => hcs c (List.mem_cons_of_mem _ hc)) h1 x hx hn m hm
      rcases h2 with rfl | h2
      · exact ⟨h3, h4⟩
      · exact ⟨by rw [h3, h2.id], Nat.le_trans h2.position_le h4⟩

/-- **C38.** In any history of group calls, from any store, the messages sent under one name all carry the same key
id, and their iterations strictly increase. -/
theorem C38_no_reuse (hC : C.Lawful) (g : GroupStore) (cs : List GroupCall) (hcs : ∀ c ∈ cs, GroupCallOk c) :
    (groupSent g cs).Pairwise fun x y => x.name = y.name → ∀ m m', SenderKeyMessage.parse x.bytes = .ok m →
      SenderKeyMessage.parse y.bytes = .ok m' → m'.keyId = m.keyId ∧ m.iteration < m'.iteration := by
  induction cs generalizing g with
  | nil => exact List.Pairwise.nil
  | cons c cs ih =>
    have hrest := ih (c.next g) (fun c hc => hcs c (List.mem_cons_of_mem _ hc))
    unfold groupSent
    cases c with
    | encrypt n pt rand =>
      simp only
      cases hr : (GroupCipher.encrypt g n pt rand).result with
      | error e => exact hrest
      | ok b =>
        refine List.pairwise_cons.2 ⟨?_, hrest⟩
        intro y hy hn m m' hm hm'
        simp only at hn hm
        obtain ⟨h1, h2⟩ := hcs _ (List.mem_cons_self ..)
        obtain ⟨s, m1, q1, q2, q3, q4, _, _, _, q5, q6⟩ := encrypt_parses hC h1 h2 hr
        have := Except.ok.inj (hm.symm.trans q2)
        subst this
        have hnext := next_sent q1 q6
        obtain ⟨r1, r2⟩ := sent_from hC cs (fun c hc => hcs c (List.mem_cons_of_mem _ hc)) hnext y hy hn.symm m' hm'
        have e : iterationOf (sentOn s) = iterationOf s + 1 := rfl
        rw [e] at r2
        exact ⟨by rw [r1, q3]; rfl, by omega⟩
    | decrypt _ _ => exact hrest
    | process _ _ => exact hrest
    | create _ _ => exact hrest

/-- **C38**, consecutive messages.  Between two messages sent under a name, with no other message sent or received under
that name, the iteration goes up by exactly one. -/
theorem C38_consecutive (hC : C.Lawful) (g : GroupStore) (n : SenderKeyName) (pt rand pt' rand' b b' : Bytes)
    (cs : List GroupCall)
    (hcs : ∀ c ∈ cs, c.name = n → (∃ m, c = .process n m) ∨ ∃ rnd, c = .create n rnd)
    (h1 : pt.length < 2 ^ 62 ∧ rand.length = 64) (h2 : pt'.length < 2 ^ 62 ∧ rand'.length = 64)
    (hr : (GroupCipher.encrypt g n pt rand).result = .ok b)
    (hr' : (GroupCipher.encrypt (GroupCall.after ((GroupCall.encrypt n pt rand).next g) cs) n pt' rand').result = .ok b') :
    ∃ m m', SenderKeyMessage.parse b = .ok m ∧ SenderKeyMessage.parse b' = .ok m' ∧ m'.keyId = m.keyId ∧
      m'.iteration = m.iteration + 1 := by
  obtain ⟨s, m, q1, q2, q3, q4, _, _, _, q5, q6⟩ := encrypt_parses hC h1.1 h1.2 hr
  obtain ⟨s', m', r1, r2, r3, r4, _⟩ := encrypt_parses hC h2.1 h2.2 hr'
  refine ⟨m, m', q2, r2, ?_⟩
  have hnext := next_sent q1 q6
  have hkeep : ∀ (cs : List GroupCall) (g : GroupStore),
      (∀ c ∈ cs, c.name = n → (∃ m, c = .process n m) ∨ ∃ rnd, c = .create n rnd) →
      sendingState (g n) = some (sentOn s) → sendingState (GroupCall.after g cs n) = some (sentOn s) := by
    intro cs
    induction cs with
    | nil => intro g _ h; exact h
    | cons c cs ih =>
      intro g hc h
      refine ih (c.next g) (fun c h => hc c (List.mem_cons_of_mem _ h)) ?_
      by_cases hn : c.name = n
      · rcases hc c (List.mem_cons_self ..) hn with ⟨d, rfl⟩ | ⟨rnd, rfl⟩
        · by_cases hd : d.id < 2 ^ 32 ∧ d.iteration < 2 ^ 32
          · rw [next_process_good hd]
            unfold sendingState at h ⊢
            simp only [List.head?_append, h, Option.some_or]
          · rw [next_process_bad hd]; exact h
        · have hne : (g n).senderKeyStates ≠ [] := by
            intro he
            unfold sendingState at h
            rw [he] at h; cases h
          rw [next_create_again hne]
          exact h
      · rw [next_other g c n hn]; exact h
  rw [hkeep cs _ hcs hnext] at r1
  injection r1 with r1
  subst r1
  have e : iterationOf (sentOn s) = iterationOf s + 1 := rfl
  rw [r4, q4, e, r3, q3]
  exact ⟨rfl, rfl⟩

/-! ## C39: failures -/

/-- **C39.** A group `encrypt` or `decrypt` that raises leaves the store as it was. -/
theorem C39_unchanged (g : GroupStore) (n : SenderKeyName) (pt rand b : Bytes) (e : Err) :
    ((GroupCipher.encrypt g n pt rand).result = .error e → (GroupCipher.encrypt g n pt rand).final g n = g) ∧
    ((GroupCipher.decrypt g n b).result = .error e → (GroupCipher.decrypt g n b).final g n = g) := by
  constructor
  · intro h
    unfold GOutcome.final
    rw [GroupCipher.encrypt_error h]
  · intro h
    unfold GOutcome.final
    rw [GroupCipher.decrypt_error h]

theorem aes_encrypt_error {k iv d : Bytes} {e : Err} (h : AES.encrypt k iv d = .error e) : e = .valueError := by
  unfold AES.encrypt at h
  split at h
  · cases h
  · exact (Except.error.inj h).symm

/-- **C39**, exceptions of `encrypt`: `NoSession` exactly when there is no sender key, otherwise `ValueError`. -/
theorem C39_encrypt_exceptions (g : GroupStore) (n : SenderKeyName) (pt rand : Bytes) (e : Err)
    (h : (GroupCipher.encrypt g n pt rand).result = .error e) :
    (e = .noSession ∧ (g n).senderKeyStates = []) ∨ (e = .valueError ∧ (g n).senderKeyStates ≠ []) := by
  unfold GroupCipher.encrypt at h
  cases he : GroupCipher.encryptWithRecord (g n) pt rand with
  | ok p => rw [he] at h; cases h
  | error e' =>
    rw [he] at h
    simp only at h
    unfold GroupCipher.encryptWithRecord at he
    cases hl : (g n).senderKeyStates with
    | nil =>
      unfold SenderKeyRecord.getFirstState at he
      rw [hl] at he
      simp only [error_bind] at he
      have he := Except.error.inj he
      subst he
      unfold GroupCipher.wrapNoSession at h
      exact .inl ⟨(Except.error.inj h).symm, rfl⟩
    | cons s l =>
      unfold SenderKeyRecord.getFirstState at he
      rw [hl] at he
      simp only [ok_bind] at he
      right
      refine ⟨?_, by simp⟩
      have hv : e' = .valueError := by
        rcases bind_eq_error.1 he with he | ⟨ct, _, he⟩
        · exact aes_encrypt_error he
        · rcases bind_eq_error.1 he with he | ⟨m, _, he⟩
          · unfold SenderKeyMessage.create at he
            simp only at he
            rcases bind_eq_error.1 he with he | ⟨x, _, he⟩
            · exact chkU32_error he
            · rcases bind_eq_error.1 he with he | ⟨y, _, he⟩
              · exact chkU32_error he
              · rcases bind_eq_error.1 he with he | ⟨z, _, he⟩
                · unfold Curve.calculateSignature at he
                  split at he
                  · cases he
                  · exact (Except.error.inj he).symm
                · cases he
          · rcases bind_eq_error.1 he with he | ⟨z, _, he⟩
            · unfold SenderKeyState.setSenderChainKey at he
              rcases bind_eq_error.1 he with he | ⟨z, _, he⟩
              · exact chkU32_error he
              · cases he
            · cases he
      subst hv
      unfold GroupCipher.wrapNoSession at h
      exact (Except.error.inj h).symm

theorem getSenderKey_error {s : SenderKeyState} {i : Nat} {e : Err} (h : GroupCipher.getSenderKey s i = .error e) :
    (e = .duplicateMessage ∧ i < iterationOf s) ∨ (e = .valueError ∧ 2 ^ 32 ≤ i + 1) := by
  by_cases hp : i < iterationOf s
  · rw [GroupCipher.getSenderKey_old hp] at h
    cases ht : SenderKeyState.takeKey i s.senderMessageKeys with
    | none => rw [ht] at h; exact .inl ⟨(Except.error.inj h).symm, hp⟩
    | some p => rw [ht] at h; cases h
  · by_cases hi : i + 1 < 2 ^ 32
    · rw [GroupCipher.getSenderKey_new (by omega) hi] at h
      cases h
    · rw [GroupCipher.getSenderKey_last (by omega) (by omega)] at h
      exact .inr ⟨(Except.error.inj h).symm, Nat.not_lt.1 hi⟩

omit C in
theorem wrapAll_error {α : Type} {r : Res α} {e : Err} (h : SenderKeyMessage.wrapAll r = .error e) :
    e = .invalidMessage := by
  cases r with
  | error x => exact (Except.error.inj h).symm
  | ok a => cases h

/-- The exceptions of group `decrypt`, for any store content: those of C39, and two more in the cases named. -/
theorem decrypt_exceptions (g : GroupStore) (n : SenderKeyName) (b : Bytes) (e : Err)
    (h : (GroupCipher.decrypt g n b).result = .error e) :
    (e = .noSession ∧ (g n).senderKeyStates = []) ∨ e = .invalidMessage ∨ e = .duplicateMessage ∨ e = .valueError ∨
      (e = .assertionError ∧ b = []) ∨
      (e = .indexError ∧ ∃ id s, stateFor (g n) id = some s ∧ (s.senderSigningKey.getD {}).pub.getD [] = []) := by
  unfold GroupCipher.decrypt at h
  cases he : GroupCipher.decryptWithRecord (g n) b with
  | ok p => rw [he] at h; cases h
  | error e' =>
    rw [he] at h
    simp only at h
    have hw : ∀ x, x ≠ Err.invalidKey → x ≠ .invalidKeyId →
        GroupCipher.wrapInvalid (α := Bytes) (.error x) = .error x := by
      intro x h1 h2
      unfold GroupCipher.wrapInvalid
      split
      · rename_i hq; exact absurd (Except.error.inj hq) h1
      · rename_i hq; exact absurd (Except.error.inj hq) h2
      · rfl
    have hi : ∀ x, x = Err.invalidKey ∨ x = .invalidKeyId →
        GroupCipher.wrapInvalid (α := Bytes) (.error x) = .error .invalidMessage := by
      rintro x (rfl | rfl) <;> rfl
    unfold GroupCipher.decryptWithRecord at he
    split at he
    · rename_i hemp
      have he := Except.error.inj he
      subst he
      rw [hw _ (by simp) (by simp)] at h
      exact .inl ⟨(Except.error.inj h).symm, (isEmpty_iff _).1 hemp⟩
    · rcases bind_eq_error.1 he with he | ⟨m, _, he⟩
      · unfold SenderKeyMessage.parse at he
        split at he
        · rename_i hb
          have he := Except.error.inj he
          subst he
          rw [hw _ (by simp) (by simp)] at h
          exact .inr (.inr (.inr (.inr (.inl ⟨(Except.error.inj h).symm, hb⟩))))
        · have he := wrapAll_error he
          subst he
          rw [hw _ (by simp) (by simp)] at h
          exact .inr (.inl (Except.error.inj h).symm)
      · rcases bind_eq_error.1 he with he | ⟨⟨s, j⟩, hst, he⟩
        · have := (SenderKeyRecord.findState_error he).1
          rw [hi _ (.inr this)] at h
          exact .inr (.inl (Except.error.inj h).symm)
        · rcases bind_eq_error.1 he with he | ⟨pub, _, he⟩
          · unfold SenderKeyState.getSigningKeyPublic at he
            by_cases hn : (s.senderSigningKey.getD {}).pub.getD [] = []
            · simp only at he
              rw [hn] at he
              have he := Except.error.inj he
              subst he
              rw [hw _ (by simp) (by simp)] at h
              exact .inr (.inr (.inr (.inr (.inr ⟨(Except.error.inj h).symm, _, s,
                (SenderKeyRecord.getStateById_ok hst).1, hn⟩))))
            · rw [hi _ (.inl (decodePoint_error hn he))] at h
              exact .inr (.inl (Except.error.inj h).symm)
          · rcases bind_eq_error.1 he with he | ⟨_, _, he⟩
            · have hv : e' = .valueError ∨ e' = .invalidMessage := by
                unfold SenderKeyMessage.verifySignature at he
                simp only at he
                rcases bind_eq_error.1 he with he | ⟨x, _, he⟩
                · unfold Curve.verifySignature at he
                  split at he
                  · cases he
                  · exact .inl (Except.error.inj he).symm
                · split at he
                  · cases he
                  · exact .inr (Except.error.inj he).symm
              rcases hv with rfl | rfl
              · rw [hw _ (by simp) (by simp)] at h
                exact .inr (.inr (.inr (.inl (Except.error.inj h).symm)))
              · rw [hw _ (by simp) (by simp)] at h
                exact .inr (.inl (Except.error.inj h).symm)
            · rcases bind_eq_error.1 he with he | ⟨⟨k, s'⟩, _, he⟩
              · rcases getSenderKey_error he with ⟨rfl, _⟩ | ⟨rfl, _⟩
                · rw [hw _ (by simp) (by simp)] at h
                  exact .inr (.inr (.inl (Except.error.inj h).symm))
                · rw [hw _ (by simp) (by simp)] at h
                  exact .inr (.inr (.inr (.inl (Except.error.inj h).symm)))
              · rcases bind_eq_error.1 he with he | ⟨pt, _, he⟩
                · have hv : e' = .invalidMessage := by
                    unfold GroupCipher.getPlainText at he
                    exact wrapAll_error he
                  subst hv
                  rw [hw _ (by simp) (by simp)] at h
                  exact .inr (.inl (Except.error.inj h).symm)
                · cases he

/-- **C39**, exceptions of `decrypt`, in any store that group calls can produce and for any non-empty byte string. -/
theorem C39_decrypt_exceptions_partial (cs : List GroupCall) (n : SenderKeyName) (b : Bytes) (hb : b ≠ []) (e : Err)
    (h : (GroupCipher.decrypt (GroupCall.after GroupStore.empty cs) n b).result = .error e) :
    e = .noSession ∨ e = .invalidMessage ∨ e = .duplicateMessage ∨ e = .valueError := by
  rcases decrypt_exceptions _ n b e h with h | h | h | h | ⟨_, h⟩ | ⟨_, id, s, h1, h2⟩
  · exact .inl h.1
  · exact .inr (.inl h)
  · exact .inr (.inr (.inl h))
  · exact .inr (.inr (.inr h))
  · exact absurd h hb
  · exfalso
    have := reached_all (fun s => (s.senderSigningKey.getD {}).pub.getD [] ≠ [])
      (fun s s' hs hp => by rw [hs.signing]; exact hp)
      (fun s hs => by
        obtain ⟨_, _, _, ⟨_, pub, hp⟩ | ⟨seed, _, hp⟩⟩ := hs
        · intro hq
          unfold SenderKeyState.getSigningKeyPublic at hp
          rw [hq] at hp; cases hp
        · rw [hp]; simp) cs n id s h1
    exact this h2

/-! ## C40: replays -/

/-- Kept message keys are distinct and behind the chain. -/
def GoodSenderState (s : SenderKeyState) : Prop := (pending s).Nodup ∧ ∀ i ∈ pending s, i < iterationOf s

omit C in
theorem takeKey_pending {i : Nat} {l rest : List SenderSeedS} {k : SenderSeedS}
    (h : SenderKeyState.takeKey i l = some (k, rest)) :
    ∃ a b, l = a ++ k :: b ∧ rest = a ++ b ∧ k.iteration.getD 0 = i := by
  induction l generalizing rest with
  | nil => cases h
  | cons x l ih =>
    unfold SenderKeyState.takeKey at h
    split at h
    · rename_i hx
      injection h with h
      obtain ⟨rfl, rfl⟩ := Prod.mk.inj h
      exact ⟨[], l, rfl, rfl, hx⟩
    · cases ht : SenderKeyState.takeKey i l with
      | none => rw [ht] at h; cases h
      | some p =>
        rw [ht] at h
        injection h with h
        obtain ⟨h1, h2⟩ := Prod.mk.inj h
        obtain ⟨k', rest'⟩ := p
        simp only at h1 h2
        subst h1
        obtain ⟨a, b, h3, h4, h5⟩ := ih ht
        exact ⟨x :: a, b, by rw [h3]; rfl, by rw [← h2, h4]; rfl, h5⟩

theorem pending_skipped (c : SenderChainKey) (n : Nat) :
    (skippedSeeds c n).map (fun k => k.iteration.getD 0) = (List.range n).map (c.iteration + ·) := by
  unfold skippedSeeds
  rw [List.map_map]
  rfl

theorem pending_moved (s : SenderKeyState) (i : Nat) :
    pending (GroupCipher.moved s i) = pending s ++ (List.range (i - iterationOf s)).map (iterationOf s + ·) := by
  unfold pending GroupCipher.moved
  simp only [List.map_append]
  rw [pending_skipped, position_eq]

theorem GoodSenderState.step {s s' : SenderKeyState} (h : StateStep s s') (hg : GoodSenderState s) :
    GoodSenderState s' := by
  obtain ⟨h1, h2⟩ := hg
  cases h with
  | send => exact ⟨h1, fun i hi => Nat.lt_succ_of_lt (h2 i hi)⟩
  | @old i k rest hi ht =>
    obtain ⟨a, b, h3, h4, h5⟩ := takeKey_pending ht
    have hsub : (pending { s with senderMessageKeys := rest }).Sublist (pending s) := by
      unfold pending
      simp only
      rw [h3, h4]
      apply List.Sublist.map
      exact List.Sublist.append (List.Sublist.refl _) (List.sublist_cons_self ..)
    exact ⟨h1.sublist hsub, fun j hj => h2 j (hsub.subset hj)⟩
  | @new i hp hi =>
    have e : iterationOf (GroupCipher.moved s i) = i + 1 := rfl
    refine ⟨?_, ?_⟩
    · rw [pending_moved]
      rw [List.nodup_append]
      refine ⟨h1, ?_, ?_⟩
      · unfold List.Nodup
        rw [List.pairwise_map]
        exact List.Pairwise.imp (fun hab hc => hab (by omega)) List.nodup_range
      · intro a ha b hb
        obtain ⟨j, _, rfl⟩ := List.mem_map.1 hb
        have := h2 a ha
        omega
    · intro j hj
      rw [e]
      rw [pending_moved] at hj
      rcases List.mem_append.1 hj with hj | hj
      · have := h2 j hj; omega
      · obtain ⟨x, hx, rfl⟩ := List.mem_map.1 hj
        have := List.mem_range.1 hx
        omega

theorem GoodSenderState.fresh {s : SenderKeyState} (h : FreshState s) : GoodSenderState s := by
  have : pending s = [] := by unfold pending; rw [h.1]; rfl
  refine ⟨by rw [this]; exact List.nodup_nil, ?_⟩
  intro i hi
  rw [this] at hi; cases hi

/-- This iteration has been used up. -/
def Used (i : Nat) (s : SenderKeyState) : Prop := GoodSenderState s ∧ i < iterationOf s ∧ i ∉ pending s

theorem Used.step {i : Nat} {s s' : SenderKeyState} (h : StateStep s s') (hu : Used i s) : Used i s' := by
  obtain ⟨h1, h2, h3⟩ := hu
  refine ⟨h1.step h, Nat.lt_of_lt_of_le h2 h.position_le, ?_⟩
  cases h with
  | send => exact h3
  | @old j k rest hj ht =>
    obtain ⟨a, b, q1, q2, _⟩ := takeKey_pending ht
    intro hi
    apply h3
    unfold pending at hi ⊢
    simp only at hi
    rw [q2, List.map_append] at hi
    rw [q1, List.map_append, List.map_cons]
    rcases List.mem_append.1 hi with hi | hi
    · exact List.mem_append_left _ hi
    · exact List.mem_append_right _ (List.mem_cons_of_mem _ hi)
  | @new j hj _ =>
    intro hi
    rw [pending_moved] at hi
    rcases List.mem_append.1 hi with hi | hi
    · exact h3 hi
    · obtain ⟨x, _, hx⟩ := List.mem_map.1 hi
      omega

/-- Getting the key of an iteration uses it up. -/
theorem getSenderKey_used {s s' : SenderKeyState} {i : Nat} {k : SenderMessageKey} (hg : GoodSenderState s)
    (h : GroupCipher.getSenderKey s i = .ok (k, s')) : Used i s' := by
  obtain ⟨hs, hc⟩ := getSenderKey_step h
  refine ⟨hg.step hs, ?_⟩
  rcases hc with ⟨hp, x, rest, ht, _, rfl⟩ | ⟨hp, hi, _, rfl⟩
  · refine ⟨hp, ?_⟩
    obtain ⟨a, b, q1, q2, q3⟩ := takeKey_pending ht
    have hn := hg.1
    unfold pending at hn ⊢
    simp only
    rw [q1, List.map_append, List.map_cons, q3] at hn
    rw [q2, List.map_append]
    intro hm
    rw [List.nodup_append] at hn
    obtain ⟨_, n2, n3⟩ := hn
    rcases List.mem_append.1 hm with hm | hm
    · exact n3 i hm i (List.mem_cons_self ..) rfl
    · exact (List.nodup_cons.1 n2).1 hm
  · have e : iterationOf (GroupCipher.moved s i) = i + 1 := rfl
    refine ⟨by rw [e]; omega, ?_⟩
    rw [pending_moved]
    intro hm
    rcases List.mem_append.1 hm with hm | hm
    · have := hg.2 i hm; omega
    · obtain ⟨x, hx, hx2⟩ := List.mem_map.1 hm
      have := List.mem_range.1 hx
      omega

theorem Used.duplicate {i : Nat} {s : SenderKeyState} (h : Used i s) :
    GroupCipher.getSenderKey s i = .error .duplicateMessage := by
  rw [GroupCipher.getSenderKey_old h.2.1]
  cases ht : SenderKeyState.takeKey i s.senderMessageKeys with
  | none => rfl
  | some p =>
    obtain ⟨k, rest⟩ := p
    obtain ⟨a, b, q1, _, q3⟩ := takeKey_pending ht
    exfalso
    apply h.2.2
    unfold pending
    rw [q1, List.map_append, List.map_cons, q3]
    simp

theorem reached_good (cs : List GroupCall) (n : SenderKeyName) (id : Nat) (s : SenderKeyState)
    (hs : stateFor (GroupCall.after GroupStore.empty cs n) id = some s) : GoodSenderState s :=
  reached_all GoodSenderState (fun _ _ h hg => hg.step h) (fun _ h => .fresh h) cs n id s hs

/-- What acceptance leaves behind, at any later time. -/
theorem accepted_later (before later : List GroupCall) (n : SenderKeyName) (b pt : Bytes)
    (h : (GroupCipher.decrypt (GroupCall.after GroupStore.empty before) n b).result = .ok pt) :
    ∃ m s pub, SenderKeyMessage.parse b = .ok m ∧
      stateFor (GroupCall.after GroupStore.empty (before ++ .decrypt n b :: later) n) m.keyId = some s ∧
      Used m.iteration s ∧ SenderKeyState.getSigningKeyPublic s = .ok pub ∧ m.verifySignature pub = .ok () := by
  obtain ⟨m, s, j, pub, k, s', h1, h2, h3, h4, h5, h6, h7⟩ := GroupCipher.decrypt_ok h
  obtain ⟨q1, _, q2⟩ := SenderKeyRecord.getStateById_ok h2
  have hgood := reached_good before n m.keyId s q1
  have hstep := (getSenderKey_step h5).1
  have hid : SenderKeyState.getKeyId s' = m.keyId := by
    unfold SenderKeyState.getKeyId
    rw [hstep.id]; exact stateFor_id q1
  have hnext : stateFor ((GroupCall.decrypt n b).next (GroupCall.after GroupStore.empty before) n) m.keyId = some s' := by
    rw [next_decrypt h7, q2 s' hid, if_pos rfl]
  obtain ⟨s2, r1, r2, r3⟩ := after_keeps (fun t => Used m.iteration t ∧ t.senderSigningKey = s.senderSigningKey)
    (fun t t' ht hp => ⟨hp.1.step ht, by rw [ht.signing]; exact hp.2⟩) hnext
    ⟨getSenderKey_used hgood h5, hstep.signing⟩ later
  refine ⟨m, s2, pub, h1, ?_, r2, ?_, h4⟩
  · unfold GroupCall.after at r1 ⊢
    rw [List.foldl_append, List.foldl_cons]
    exact r1
  · unfold SenderKeyState.getSigningKeyPublic at h3 ⊢
    rw [r3]; exact h3

omit C in
theorem stateFor_ne {r : SenderKeyRecord} {id : Nat} {s : SenderKeyState} (h : stateFor r id = some s) :
    r.isEmpty ≠ true := by
  intro he
  unfold stateFor at h
  rw [(isEmpty_iff r).1 he] at h
  cases h

/-- **C40.** Once a group message has been accepted, delivering the same bytes again raises `DuplicateMessage` and
changes nothing, whatever group calls were made before and in between. -/
theorem C40_no_replay (before later : List GroupCall) (n : SenderKeyName) (b pt : Bytes)
    (h : (GroupCipher.decrypt (GroupCall.after GroupStore.empty before) n b).result = .ok pt) :
    GroupCipher.decrypt (GroupCall.after GroupStore.empty (before ++ .decrypt n b :: later)) n b =
      ⟨none, .error .duplicateMessage⟩ := by
  obtain ⟨m, s, pub, h1, h2, h3, h4, h5⟩ := accepted_later before later n b pt h
  obtain ⟨j, h6⟩ := SenderKeyRecord.getStateById_some h2
  unfold GroupCipher.decrypt GroupCipher.decryptWithRecord
  rw [if_neg (stateFor_ne h2), h1, ok_bind, h6, ok_bind]
  simp only [h4, ok_bind, h5, h3.duplicate, error_bind]
  rfl

/-- **C40**, for any other bytes with the same key id and iteration: they are never accepted either. -/
theorem C40_one_message_per_iteration (before later : List GroupCall) (n : SenderKeyName) (b b' pt pt' : Bytes)
    (m m' : SenderKeyMessage)
    (h : (GroupCipher.decrypt (GroupCall.after GroupStore.empty before) n b).result = .ok pt)
    (hm : SenderKeyMessage.parse b = .ok m) (hm' : SenderKeyMessage.parse b' = .ok m')
    (hk : m'.keyId = m.keyId) (hi : m'.iteration = m.iteration) :
    (GroupCipher.decrypt (GroupCall.after GroupStore.empty (before ++ .decrypt n b :: later)) n b').result ≠ .ok pt' := by
  intro hok
  obtain ⟨m1, s, pub, h1, h2, h3, _⟩ := accepted_later before later n b pt h
  have := Except.ok.inj (hm.symm.trans h1)
  subst this
  obtain ⟨m2, s2, j, pub2, k, s', r1, r2, _, _, r5, _⟩ := GroupCipher.decrypt_ok hok
  have := Except.ok.inj (hm'.symm.trans r1)
  subst this
  have := (SenderKeyRecord.getStateById_ok r2).1
  rw [hk, h2] at this
  injection this with this
  subst this
  rw [hi, h3.duplicate] at r5
  cases r5

/-! ## C43: joining -/

/-- **C43.** A member who processes a distribution message for a new key id never decrypts a message of that key id with
a smaller iteration, whatever group calls follow. -/
theorem C43_forward_only (g : GroupStore) (n : SenderKeyName) (d : SenderKeyDistributionMessage)
    (hnew : stateFor (g n) d.id = none) (hd : (GroupSessionBuilder.process g n d).result = .ok ())
    (cs : List GroupCall) (b pt : Bytes) (m : SenderKeyMessage) (hm : SenderKeyMessage.parse b = .ok m)
    (hk : m.keyId = d.id) (hi : m.iteration < d.iteration) :
    (GroupCipher.decrypt (GroupCall.after ((GroupCall.process n d).next g) cs) n b).result ≠ .ok pt := by
  intro hok
  have hr : d.id < 2 ^ 32 ∧ d.iteration < 2 ^ 32 := by
    by_cases h : d.id < 2 ^ 32 ∧ d.iteration < 2 ^ 32
    · exact h
    · rw [process_bad h] at hd; cases hd
  have hnext : stateFor ((GroupCall.process n d).next g n) d.id = some (addedState d) := by
    rw [next_process_good hr]
    unfold stateFor at hnew ⊢
    rw [List.find?_append, hnew]
    simp [addedState]
  obtain ⟨s, r1, r2, r3⟩ := after_keeps (fun t => d.iteration ≤ iterationOf t ∧ ∀ i ∈ pending t, d.iteration ≤ i)
    (fun t t' ht hp => by
      refine ⟨Nat.le_trans hp.1 ht.position_le, ?_⟩
      cases ht with
      | send => exact hp.2
      | @old j k rest hj hk =>
        obtain ⟨a, b, q1, q2, _⟩ := takeKey_pending hk
        intro i hi
        apply hp.2
        unfold pending at hi ⊢
        simp only at hi
        rw [q2, List.map_append] at hi
        rw [q1, List.map_append, List.map_cons]
        rcases List.mem_append.1 hi with hi | hi
        · exact List.mem_append_left _ hi
        · exact List.mem_append_right _ (List.mem_cons_of_mem _ hi)
      | @new j hj _ =>
        intro i hi
        rw [pending_moved] at hi
        rcases List.mem_append.1 hi with hi | hi
        · exact hp.2 i hi
        · obtain ⟨x, _, hx⟩ := List.mem_map.1 hi
          have := hp.1
          omega) hnext
    ⟨Nat.le_refl _, fun i hi => by cases hi⟩ cs
  obtain ⟨m', s', j, pub, k, s2, q1, q2, _, _, q5, _⟩ := GroupCipher.decrypt_ok hok
  have := Except.ok.inj (hm.symm.trans q1)
  subst this
  have q2 := (SenderKeyRecord.getStateById_ok q2).1
  rw [hk, r1] at q2
  injection q2 with q2
  subst q2
  rcases (getSenderKey_step q5).2 with ⟨_, x, rest, ht, _⟩ | ⟨hp, _⟩
  · obtain ⟨a, b, t1, _, t3⟩ := takeKey_pending ht
    have := r3 m.iteration (by
      unfold pending
      rw [t1, List.map_append, List.map_cons, t3]
      simp)
    omega
  · omega

/-- Two records that no call can tell apart: the same sending state, and the same state for every key id. -/
def SameKeys (r r' : SenderKeyRecord) : Prop :=
  sendingState r = sendingState r' ∧ ∀ id, stateFor r id = stateFor r' id

omit C in
theorem map_bind_congr {α β γ : Type} {x y : Res α} {f f' : α → Res β} {p : β → γ} (h : x = y)
    (hf : ∀ a, (f a).map p = (f' a).map p) : (x >>= f).map p = (y >>= f').map p := by
  subst h
  cases x with
  | error e => rfl
  | ok a => exact hf a

theorem SameKeys.replace {r r' : SenderKeyRecord} (h : SameKeys r r') {id j j' : Nat} {s s' : SenderKeyState}
    (h1 : r.getStateById id = .ok (s, j)) (h2 : r'.getStateById id = .ok (s, j')) (hs : StateStep s s') :
    SameKeys (r.replace j s') (r'.replace j' s') := by
  obtain ⟨q1, _, q2⟩ := SenderKeyRecord.getStateById_ok h1
  obtain ⟨p1, _, p2⟩ := SenderKeyRecord.getStateById_ok h2
  have hid : SenderKeyState.getKeyId s' = id := by
    unfold SenderKeyState.getKeyId
    rw [hs.id]; exact stateFor_id q1
  constructor
  · rw [SenderKeyRecord.sendingState_replace h1, SenderKeyRecord.sendingState_replace h2, h.1]
  · intro id'
    rw [q2 s' hid, p2 s' hid, h.2]

omit C in
theorem sendingState_none {r : SenderKeyRecord} : sendingState r = none ↔ r.senderKeyStates = [] := by
  unfold sendingState
  exact List.head?_eq_none_iff

omit C in
theorem SameKeys.nil {r r' : SenderKeyRecord} (h : SameKeys r r') : r.senderKeyStates = [] ↔ r'.senderKeyStates = [] := by
  rw [← sendingState_none, ← sendingState_none, h.1]

omit C in
theorem SameKeys.empty {r r' : SenderKeyRecord} (h : SameKeys r r') : r.isEmpty = r'.isEmpty := by
  have := h.nil
  rw [← isEmpty_iff, ← isEmpty_iff] at this
  cases h1 : r.isEmpty <;> cases h2 : r'.isEmpty <;> simp_all

/-- The same calls give the same results on such records, and such records again. -/
theorem SameKeys.run {g g' : GroupStore} (h : ∀ n, SameKeys (g n) (g' n)) (c : GroupCall) :
    (c.run g).result = (c.run g').result ∧ ∀ n, SameKeys (c.next g n) (c.next g' n) := by
  have hfin : ∀ {α : Type} (o o' : GOutcome α) (n' : SenderKeyName),
      ((o.stored = none ∧ o'.stored = none) ∨ ∃ r r', o.stored = some r ∧ o'.stored = some r' ∧ SameKeys r r') →
      ∀ n, SameKeys (o.final g n' n) (o'.final g' n' n) := by
    intro α o o' n' ho n
    unfold GOutcome.final
    rcases ho with ⟨h1, h2⟩ | ⟨r, r', h1, h2, h3⟩
    · rw [h1, h2]; exact h n
    · rw [h1, h2]
      simp only [GroupStore.store]
      split
      · exact h3
      · exact h n
  cases c with
  | encrypt n pt rand =>
    have hs := (h n).1
    unfold GroupCall.next
    simp only [GroupCall.name]
    rw [run_encrypt, run_encrypt]
    have key : (GroupCipher.encrypt g n pt rand).result = (GroupCipher.encrypt g' n pt rand).result ∧
        (((GroupCipher.encrypt g n pt rand).stored = none ∧ (GroupCipher.encrypt g' n pt rand).stored = none) ∨
          ∃ r r', (GroupCipher.encrypt g n pt rand).stored = some r ∧
            (GroupCipher.encrypt g' n pt rand).stored = some r' ∧ SameKeys r r') := by
      have hres : (GroupCipher.encryptWithRecord (g n) pt rand).map (·.1) =
          (GroupCipher.encryptWithRecord (g' n) pt rand).map (·.1) := by
        have hf : (g n).getFirstState = (g' n).getFirstState := by
          cases hx : sendingState (g n) with
          | none =>
            have h1 := sendingState_none.1 hx
            have h2 := sendingState_none.1 (hs ▸ hx)
            unfold SenderKeyRecord.getFirstState
            rw [h1, h2]
          | some s =>
            rw [SenderKeyRecord.getFirstState_ok.2 hx, SenderKeyRecord.getFirstState_ok.2 (hs ▸ hx)]
        unfold GroupCipher.encryptWithRecord
        refine map_bind_congr hf fun s => map_bind_congr rfl fun ct => map_bind_congr rfl fun m => map_bind_congr rfl fun t => rfl
      have hres2 : (GroupCipher.encrypt g n pt rand).result = (GroupCipher.encrypt g' n pt rand).result := by
        unfold GroupCipher.encrypt
        cases h1 : GroupCipher.encryptWithRecord (g n) pt rand with
        | error e =>
          rw [h1] at hres
          cases h2 : GroupCipher.encryptWithRecord (g' n) pt rand with
          | error e' => rw [h2] at hres; rw [Except.error.inj hres]
          | ok p => rw [h2] at hres; cases hres
        | ok p =>
          rw [h1] at hres
          cases h2 : GroupCipher.encryptWithRecord (g' n) pt rand with
          | error e' => rw [h2] at hres; cases hres
          | ok p' =>
            rw [h2] at hres
            have := Except.ok.inj hres
            obtain ⟨m, r⟩ := p
            obtain ⟨m', r'⟩ := p'
            simp only at this
            rw [this]
      refine ⟨hres2, ?_⟩
      cases hr : (GroupCipher.encrypt g n pt rand).result with
      | error e =>
        exact .inl ⟨GroupCipher.encrypt_error hr, GroupCipher.encrypt_error (hres2 ▸ hr)⟩
      | ok b =>
        obtain ⟨s, _, _, h1, _, _, _, h5, h6⟩ := GroupCipher.encrypt_ok hr
        obtain ⟨s', _, _, p1, _, _, _, p5, p6⟩ := GroupCipher.encrypt_ok (hres2 ▸ hr)
        have : s' = s := by
          rw [hs, p1] at h1
          exact Option.some.inj h1
        subst this
        exact .inr ⟨_, _, h6, p6, (h n).replace (SenderKeyRecord.getStateById_first h1)
          (SenderKeyRecord.getStateById_first p1) (.send h5)⟩
    refine ⟨?_, hfin _ _ n ?_⟩
    · unfold GroupCall.mapG
      simp only
      rw [key.1]
    · rw [mapG_stored, mapG_stored]; exact key.2
  | decrypt n b =>
    unfold GroupCall.next
    simp only [GroupCall.name]
    rw [run_decrypt, run_decrypt]
    have hres : (GroupCipher.decryptWithRecord (g n) b).map (·.1) =
        (GroupCipher.decryptWithRecord (g' n) b).map (·.1) := by
      unfold GroupCipher.decryptWithRecord
      rw [(h n).empty]
      split
      · rfl
      · cases SenderKeyMessage.parse b with
        | error e => rfl
        | ok m =>
          simp only [ok_bind]
          cases hx : stateFor (g n) m.keyId with
          | none =>
            rw [SenderKeyRecord.getStateById_none hx, SenderKeyRecord.getStateById_none ((h n).2 _ ▸ hx)]
            rfl
          | some s =>
            obtain ⟨j, h1⟩ := SenderKeyRecord.getStateById_some hx
            obtain ⟨j', h2⟩ := SenderKeyRecord.getStateById_some ((h n).2 _ ▸ hx)
            rw [h1, h2]
            simp only [ok_bind]
            refine map_bind_congr rfl fun pub => map_bind_congr rfl fun u => map_bind_congr rfl fun k =>
              map_bind_congr rfl fun pt => rfl
    have hres2 : (GroupCipher.decrypt g n b).result = (GroupCipher.decrypt g' n b).result := by
      unfold GroupCipher.decrypt
      cases h1 : GroupCipher.decryptWithRecord (g n) b with
      | error e =>
        rw [h1] at hres
        cases h2 : GroupCipher.decryptWithRecord (g' n) b with
        | error e' => rw [h2] at hres; rw [Except.error.inj hres]
        | ok p => rw [h2] at hres; cases hres
      | ok p =>
        rw [h1] at hres
        cases h2 : GroupCipher.decryptWithRecord (g' n) b with
        | error e' => rw [h2] at hres; cases hres
        | ok p' =>
          rw [h2] at hres
          have := Except.ok.inj hres
          obtain ⟨m, r⟩ := p
          obtain ⟨m', r'⟩ := p'
          simp only at this
          rw [this]
    refine ⟨?_, hfin _ _ n ?_⟩
    · unfold GroupCall.mapG
      simp only
      rw [hres2]
    · rw [mapG_stored, mapG_stored]
      cases hr : (GroupCipher.decrypt g n b).result with
      | error e => exact .inl ⟨GroupCipher.decrypt_error hr, GroupCipher.decrypt_error (hres2 ▸ hr)⟩
      | ok pt =>
        obtain ⟨m, s, j, pub, k, s1, h1, h2, _, _, h5, _, h7⟩ := GroupCipher.decrypt_ok hr
        obtain ⟨m', s', j', pub', k', s1', p1, p2, _, _, p5, _, p7⟩ := GroupCipher.decrypt_ok (hres2 ▸ hr)
        have := Except.ok.inj (h1.symm.trans p1)
        subst this
        have hs : s' = s := by
          have q1 := (SenderKeyRecord.getStateById_ok h2).1
          have q2 := (SenderKeyRecord.getStateById_ok p2).1
          rw [(h n).2, q2] at q1
          exact Option.some.inj q1
        subst hs
        have := Prod.mk.inj (Except.ok.inj (h5.symm.trans p5))
        obtain ⟨rfl, rfl⟩ := this
        exact .inr ⟨_, _, h7, p7, (h n).replace h2 p2 (getSenderKey_step h5).1⟩
  | process n m =>
    unfold GroupCall.next
    simp only [GroupCall.name]
    rw [run_process, run_process]
    by_cases hm : m.id < 2 ^ 32 ∧ m.iteration < 2 ^ 32
    · rw [process_good hm.1 hm.2, process_good hm.1 hm.2]
      refine ⟨rfl, hfin _ _ n (.inr ⟨_, _, rfl, rfl, ?_, ?_⟩)⟩
      · have := (h n).1
        unfold sendingState at this ⊢
        simp only [List.head?_append, this]
      · intro id
        have := (h n).2 id
        unfold stateFor at this ⊢
        simp only [List.find?_append, this]
    · rw [process_bad hm, process_bad hm]
      exact ⟨rfl, hfin _ _ n (.inl ⟨rfl, rfl⟩)⟩
  | create n rnd =>
    unfold GroupCall.next
    simp only [GroupCall.name]
    rw [run_create, run_create]
    by_cases he : (g n).senderKeyStates = []
    · have he' := (h n).nil.1 he
      by_cases hk : rnd.keyId < 2 ^ 32
      · rw [create_new he hk, create_new he' hk]
        exact ⟨rfl, hfin _ _ n (.inr ⟨_, _, rfl, rfl, rfl, fun _ => rfl⟩)⟩
      · rw [create_bad he hk, create_bad he' hk]
        exact ⟨rfl, hfin _ _ n (.inl ⟨rfl, rfl⟩)⟩
    · have he' : (g' n).senderKeyStates ≠ [] := fun q => he ((h n).nil.2 q)
      rw [create_again he, create_again he']
      refine ⟨?_, hfin _ _ n (.inl ⟨rfl, rfl⟩)⟩
      have hf : (g n).getFirstState = (g' n).getFirstState := by
        cases hx : sendingState (g n) with
        | none => exact absurd (sendingState_none.1 hx) he
        | some s => rw [SenderKeyRecord.getFirstState_ok.2 hx, SenderKeyRecord.getFirstState_ok.2 ((h n).1 ▸ hx)]
      unfold GroupCall.mapG
      simp only
      unfold GroupSessionBuilder.distributionOf
      rw [hf]

theorem SameKeys.replies {g g' : GroupStore} (h : ∀ n, SameKeys (g n) (g' n)) (cs : List GroupCall) :
    GroupCall.replies g cs = GroupCall.replies g' cs := by
  induction cs generalizing g g' with
  | nil => rfl
  | cons c cs ih =>
    obtain ⟨h1, h2⟩ := SameKeys.run h c
    unfold GroupCall.replies
    rw [h1, ih h2]

/-- **C43**, no rewinding.  Processing a distribution message for a key id that is already known makes no difference to
the result of any later call. -/
theorem C43_no_rewind (g : GroupStore) (n : SenderKeyName) (d : SenderKeyDistributionMessage) (s : SenderKeyStateS)
    (hknown : stateFor (g n) d.id = some s) (cs : List GroupCall) :
    GroupCall.replies ((GroupCall.process n d).next g) cs = GroupCall.replies g cs := by
  refine SameKeys.replies ?_ cs
  intro n'
  by_cases hn : n = n'
  · subst hn
    by_cases hm : d.id < 2 ^ 32 ∧ d.iteration < 2 ^ 32
    · rw [next_process_good hm]
      constructor
      · unfold sendingState
        simp only [List.head?_append]
        cases hl : (g n).senderKeyStates with
        | nil => unfold stateFor at hknown; rw [hl] at hknown; cases hknown
        | cons x l => rfl
      · intro id
        unfold stateFor at hknown ⊢
        simp only [List.find?_append]
        cases hx : List.find? (fun s => s.senderKeyId.getD 0 == id) (g n).senderKeyStates with
        | some t => rfl
        | none =>
          simp only [Option.none_or]
          by_cases hid : id = d.id
          · subst hid; rw [hknown] at hx; cases hx
          · have : (d.id == id) = false := by simpa using fun q => hid q.symm
            simp [addedState, this]
    · rw [next_process_bad hm]
      exact ⟨rfl, fun _ => rfl⟩
  · rw [next_other g (.process n d) n' hn]
    exact ⟨rfl, fun _ => rfl⟩

/-! ## C44: creating -/

/-- **C44**, a sender key exists: nothing is stored, and the message returned describes its current position. -/
theorem C44_create_existing (g : GroupStore) (n : SenderKeyName) (rnd : GroupSessionBuilder.CreateRand) (s : SenderKeyStateS)
    (h : sendingState (g n) = some s) :
    (GroupSessionBuilder.create g n rnd).final g n = g ∧
    ∀ d, (GroupSessionBuilder.create g n rnd).result = .ok d →
      d.id = s.senderKeyId.getD 0 ∧ d.iteration = iterationOf s ∧ d.chainKey = chainKeyOf s ∧
      ∃ k, (s.senderSigningKey.getD {}).pub.getD [] = 5 :: k ∧ d.signatureKey = k.take 32 := by
  have hne : (g n).senderKeyStates ≠ [] := fun q => by
    rw [sendingState_none.2 q] at h; cases h
  rw [create_again hne]
  refine ⟨rfl, ?_⟩
  intro d hd
  simp only at hd
  have hd : GroupSessionBuilder.distributionOf (g n) = .ok d := by
    unfold GroupSessionBuilder.wrapAssert at hd
    split at hd
    · cases hd
    · cases hd
    · exact hd
  unfold GroupSessionBuilder.distributionOf at hd
  rw [SenderKeyRecord.getFirstState_ok.2 h] at hd
  simp only [ok_bind] at hd
  obtain ⟨pub, h1, hd⟩ := bind_eq_ok.1 hd
  unfold SenderKeyDistributionMessage.create at hd
  simp only at hd
  obtain ⟨_, _, hd⟩ := bind_eq_ok.1 hd
  obtain ⟨_, _, hd⟩ := bind_eq_ok.1 hd
  obtain ⟨r, h8, h9⟩ := decodePoint_ok h1
  rw [← Except.ok.inj hd]
  exact ⟨rfl, position_eq s, chainKeyOf_eq s, r, h8, h9⟩

/-- **C44**, no sender key yet: exactly one new state is stored, at iteration 0 and with the drawn key id, chain key and
signing key, and the message returned describes it. -/
theorem C44_create_new (g : GroupStore) (n : SenderKeyName) (rnd : GroupSessionBuilder.CreateRand)
    (hk : rnd.keyId < 2 ^ 32) (hpub : (C.genPub (C.genPriv rnd.signSeed)).length ≤ 32)
    (h : (g n).senderKeyStates = []) :
    ∃ s d, (GroupSessionBuilder.create g n rnd).result = .ok d ∧
      (GroupSessionBuilder.create g n rnd).final g n = (fun n' => if n' = n then ⟨[s]⟩ else g n') ∧
      s.senderKeyId = some rnd.keyId ∧ iterationOf s = 0 ∧ chainKeyOf s = rnd.senderKey ∧ s.senderMessageKeys = [] ∧
      d.id = rnd.keyId ∧ d.iteration = 0 ∧ d.chainKey = rnd.senderKey ∧
      d.signatureKey = C.genPub (C.genPriv rnd.signSeed) := by
  rw [create_new h hk]
  have hd : ∃ x, GroupSessionBuilder.distributionOf { senderKeyStates := [createdState rnd] } = .ok
      ⟨x, rnd.keyId, 0, rnd.senderKey, C.genPub (C.genPriv rnd.signSeed)⟩ := by
    unfold GroupSessionBuilder.distributionOf
    rw [SenderKeyRecord.getFirstState_ok.2 (show sendingState { senderKeyStates := [createdState rnd] } = some (createdState rnd) from rfl)]
    simp only [ok_bind]
    have e1 : SenderKeyState.getSigningKeyPublic (createdState rnd) = .ok (C.genPub (C.genPriv rnd.signSeed)) := by
      unfold SenderKeyState.getSigningKeyPublic createdState
      simp only [Option.getD_some]
      exact decodePoint_serializePoint hpub
    rw [e1]
    simp only [ok_bind]
    unfold SenderKeyDistributionMessage.create
    have e2 : SenderKeyState.getKeyId (createdState rnd) = rnd.keyId := rfl
    have e3 : (SenderKeyState.getSenderChainKey (createdState rnd)).iteration = 0 := rfl
    have e4 : (SenderKeyState.getSenderChainKey (createdState rnd)).chainKey = rnd.senderKey := rfl
    rw [e2, e3, e4, chkU32_ok hk, chkU32_ok (Nat.two_pow_pos 32)]
    exact ⟨_, rfl⟩
  obtain ⟨x, hd⟩ := hd
  refine ⟨createdState rnd, ⟨x, rnd.keyId, 0, rnd.senderKey, C.genPub (C.genPriv rnd.signSeed)⟩, ?_, rfl, rfl, rfl, rfl,
    rfl, rfl, rfl, rfl, rfl⟩
  rw [hd]; rfl

/-- **C44**, sending before `create`: `NoSession`, whatever the plaintext, and nothing is stored. -/
theorem C44_encrypt_before_create (g : GroupStore) (n : SenderKeyName) (pt rand : Bytes)
    (h : (g n).senderKeyStates = []) : GroupCipher.encrypt g n pt rand = ⟨none, .error .noSession⟩ := by
  unfold GroupCipher.encrypt GroupCipher.encryptWithRecord SenderKeyRecord.getFirstState
  rw [h]
  rfl

/-! ## C45: the number of states -/

/-- **C45 is false**: every distribution message is kept, so after `k` of them there are `k` more states. -/
theorem C45_exact (g : GroupStore) (n : SenderKeyName) (ds : List SenderKeyDistributionMessage)
    (h : ∀ d ∈ ds, d.id < 2 ^ 32 ∧ d.iteration < 2 ^ 32) :
    (GroupCall.after g (ds.map (.process n)) n).senderKeyStates.length = (g n).senderKeyStates.length + ds.length := by
  induction ds generalizing g with
  | nil => rfl
  | cons d ds ih =>
    have hd := h d (List.mem_cons_self ..)
    have := ih ((GroupCall.process n d).next g) (fun d hd => h d (List.mem_cons_of_mem _ hd))
    rw [next_process_good hd] at this
    unfold GroupCall.after at this ⊢
    rw [List.map_cons, List.foldl_cons, this, List.length_append, List.length_singleton, List.length_cons]
    omega

/-- **C45 is false**: no bound holds, even if every distribution message processed is the same one. -/
theorem C45_false (n : SenderKeyName) : ¬ ∃ bound, ∀ cs : List GroupCall,
    (GroupCall.after GroupStore.empty cs n).senderKeyStates.length ≤ bound := by
  rintro ⟨bound, h⟩
  have h1 := h ((List.replicate (bound + 1) ⟨[], 0, 0, [], []⟩ : List SenderKeyDistributionMessage).map (.process n))
  rw [C45_exact _ _ _ (fun d hd => by
    rw [(List.mem_replicate.1 hd).2]
    exact ⟨Nat.two_pow_pos 32, Nat.two_pow_pos 32⟩)] at h1
  rw [List.length_replicate] at h1
  omega

/-- What does hold of C45: only distribution messages add states, one each; all other calls keep the number, except
that `create` goes from none to one. -/
theorem C45_growth_partial (g : GroupStore) (c : GroupCall) (n : SenderKeyName) :
    (c.next g n).senderKeyStates.length ≤ (g n).senderKeyStates.length + 1 ∧
    ((∀ d, c ≠ .process n d) → (c.next g n).senderKeyStates.length ≤ max 1 (g n).senderKeyStates.length) := by
  by_cases hn : c.name = n
  · cases c with
    | process n' m =>
      have hn : n' = n := hn
      subst hn
      constructor
      · by_cases hm : m.id < 2 ^ 32 ∧ m.iteration < 2 ^ 32
        · rw [next_process_good hm]; simp
        · rw [next_process_bad hm]; omega
      · intro h; exact absurd rfl (h m)
    | encrypt n' pt rand =>
      have hn : n' = n := hn
      subst hn
      have : ((GroupCall.encrypt n' pt rand).next g n').senderKeyStates.length = (g n').senderKeyStates.length := by
        cases hr : (GroupCipher.encrypt g n' pt rand).result with
        | error e => rw [next_encrypt_error (GroupCipher.encrypt_error hr)]
        | ok b =>
          obtain ⟨s, _, _, _, _, _, _, _, h6⟩ := GroupCipher.encrypt_ok hr
          rw [next_encrypt h6]
          simp [SenderKeyRecord.replace]
      rw [this]
      exact ⟨by omega, fun _ => by omega⟩
    | decrypt n' b =>
      have hn : n' = n := hn
      subst hn
      have : ((GroupCall.decrypt n' b).next g n').senderKeyStates.length = (g n').senderKeyStates.length := by
        cases hr : (GroupCipher.decrypt g n' b).result with
        | error e => rw [next_decrypt_error (GroupCipher.decrypt_error hr)]
        | ok b =>
          obtain ⟨_, s, j, _, _, s', _, _, _, _, _, _, h7⟩ := GroupCipher.decrypt_ok hr
          rw [next_decrypt h7]
          simp [SenderKeyRecord.replace]
      rw [this]
      exact ⟨by omega, fun _ => by omega⟩
    | create n' rnd =>
      have hn : n' = n := hn
      subst hn
      by_cases he : (g n').senderKeyStates = []
      · by_cases hk : rnd.keyId < 2 ^ 32
        · rw [next_create_new he hk]
          simp only [List.length_singleton]
          exact ⟨by omega, fun _ => by omega⟩
        · rw [next_create_bad he hk]
          exact ⟨by omega, fun _ => by omega⟩
      · rw [next_create_again he]
        exact ⟨by omega, fun _ => by omega⟩
  · rw [next_other g c n hn]
    exact ⟨by omega, fun _ => by omega⟩

end

/-! ## Non-vacuity -/

section
attribute [local instance] toy
open Example Spec

abbrev Example.grp : SenderKeyName := ⟨"group", ⟨"alice", 1⟩⟩
def Example.grpRand : GroupSessionBuilder.CreateRand := ⟨77, key 91, key 92⟩
def Example.grpSig : Bytes := List.replicate 64 9

/-- The sender creates a key, sends three messages, one of them between a failing call and a repeated `create`. -/
def Example.grpCalls : List GroupCall :=
  [.create grp grpRand, .encrypt grp [1] grpSig, .decrypt grp [0x33, 1], .create grp grpRand, .encrypt grp [2, 2] grpSig,
   .encrypt grp [] grpSig]
def Example.grpSent : List GroupSent := groupSent GroupStore.empty grpCalls
def Example.grpDist : SenderKeyDistributionMessage :=
  match (GroupSessionBuilder.create GroupStore.empty grp grpRand).result with
  | .ok d => d
  | .error _ => ⟨[], 0, 0, [], []⟩
def Example.grpMsg (i : Nat) : Bytes := (grpSent[i]?.map (·.bytes)).getD []

instance (c : GroupCall) : Decidable (GroupCallOk c) :=
  match c with
  | .encrypt .. => inferInstanceAs (Decidable (_ ∧ _))
  | .create .. => inferInstanceAs (Decidable (_ ∧ _))
  | .decrypt .. => .isTrue trivial
  | .process .. => .isTrue trivial

/-- `C38_no_reuse`: three messages are sent, at iterations 0, 1, 2 of key id 77. -/
example : (∀ c ∈ grpCalls, GroupCallOk c) ∧
    grpSent.map (fun x => (SenderKeyMessage.parse x.bytes).toOption.map fun m => (m.keyId, m.iteration)) =
      [some (77, 0), some (77, 1), some (77, 2)] := by
  constructor
  · have : ∀ c ∈ grpCalls, decide (GroupCallOk c) = true := by decide +kernel
    exact fun c hc => of_decide_eq_true (this c hc)
  · decide +kernel

/-- `C38_consecutive`, `C34_group_authenticated`, `C40_no_replay`, `C40_one_message_per_iteration`: the member processes the
distribution message and accepts the second message; the theorem says what a replay after further calls gives. -/
example : (GroupCipher.decrypt (GroupCall.after GroupStore.empty [.process grp grpDist]) grp (grpMsg 1)).result = .ok [2, 2] ∧
    GroupCipher.decrypt (GroupCall.after GroupStore.empty
        ([.process grp grpDist] ++ .decrypt grp (grpMsg 1) :: [.decrypt grp (grpMsg 0), .process grp grpDist])) grp (grpMsg 1) =
      ⟨none, .error .duplicateMessage⟩ := by
  have h : (GroupCipher.decrypt (GroupCall.after GroupStore.empty [.process grp grpDist]) grp (grpMsg 1)).result = .ok [2, 2] := by
    decide +kernel
  exact ⟨h, C40_no_replay _ _ _ _ _ h⟩

/-- `C39_unchanged`, `C39_encrypt_exceptions`, `C44_encrypt_before_create`: encrypting with nothing set up. -/
example : (GroupCipher.encrypt GroupStore.empty grp [1] grpSig).result = .error .noSession := by decide +kernel

/-- `C39_decrypt_exceptions_partial`: each of the four kinds occurs but for `ValueError`. -/
example : (GroupCipher.decrypt (GroupCall.after GroupStore.empty []) grp (grpMsg 1)).result = .error .noSession ∧
    (GroupCipher.decrypt (GroupCall.after GroupStore.empty [.process grp grpDist]) grp [1, 2]).result = .error .invalidMessage ∧
    (GroupCipher.decrypt (GroupCall.after GroupStore.empty [.process grp grpDist, .decrypt grp (grpMsg 1)]) grp (grpMsg 1)).result
      = .error .duplicateMessage := by decide +kernel

/-- **C39 is false** for the empty byte string: `AssertionError`. -/
theorem C39_false : ∃ (C : Crypto) (cs : List GroupCall) (n : SenderKeyName),
    C.Lawful ∧ (GroupCipher.decrypt (GroupCall.after GroupStore.empty cs) n []).result = .error .assertionError :=
  ⟨toy, [.create grp grpRand], grp, toy_lawful, by decide +kernel⟩

/-- The sender's distribution message after two messages: it is at iteration 2. -/
def Example.grpDistLate : SenderKeyDistributionMessage :=
  match (GroupSessionBuilder.create (GroupCall.after GroupStore.empty (grpCalls.take 5)) grp grpRand).result with
  | .ok d => d
  | .error _ => ⟨[], 0, 0, [], []⟩

/-- `C43_forward_only`: who joins with it reads the third message but not the second. -/
example : grpDistLate.iteration = 2 ∧ stateFor (GroupStore.empty grp) grpDistLate.id = none ∧
    (GroupSessionBuilder.process GroupStore.empty grp grpDistLate).result = .ok () ∧
    (GroupCipher.decrypt (GroupCall.after ((GroupCall.process grp grpDistLate).next GroupStore.empty) []) grp (grpMsg 2)).result
      = .ok [] ∧
    (GroupCipher.decrypt (GroupCall.after ((GroupCall.process grp grpDistLate).next GroupStore.empty) []) grp (grpMsg 1)).result
      = .error .duplicateMessage := by decide +kernel

/-- `C43_no_rewind`, `C45_growth_partial`: the key id is known after the first distribution message; the second makes no
difference to what is returned, but it is kept. -/
example : (stateFor (GroupCall.after GroupStore.empty [.process grp grpDist] grp) grpDist.id).isSome = true ∧
    GroupCall.replies (GroupCall.after GroupStore.empty [.process grp grpDist]) [.decrypt grp (grpMsg 1), .decrypt grp (grpMsg 1)] =
      [.ok (.bytes [2, 2]), .error .duplicateMessage] ∧
    GroupCall.replies (GroupCall.after GroupStore.empty [.process grp grpDist])
        [.decrypt grp (grpMsg 1), .process grp grpDist, .decrypt grp (grpMsg 1)] =
      [.ok (.bytes [2, 2]), .ok .done, .error .duplicateMessage] ∧
    (GroupCall.after GroupStore.empty [.process grp grpDist, .process grp grpDist] grp).senderKeyStates.length = 2 := by
  decide +kernel

/-- `C44_create_new`, `C44_create_existing`. -/
example : grpRand.keyId < 2 ^ 32 ∧ (toy.genPub (toy.genPriv grpRand.signSeed)).length ≤ 32 ∧
    (GroupStore.empty grp).senderKeyStates = [] ∧
    (sendingState (GroupCall.after GroupStore.empty (grpCalls.take 5) grp)).isSome = true ∧
    (grpDistLate.id, grpDistLate.iteration, grpDistLate.signatureKey) = (77, 2, key 92) := by decide +kernel

end
end Axolotl
