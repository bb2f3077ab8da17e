import Verif.Proofs.KeySchedule
import Verif.Props.Messages
import Verif.Example

/-! # C16-C18, C49: what encrypt and decrypt may change -/

namespace Axolotl
section
variable [C : Crypto]
open SessionState

omit C in
theorem sendCounter_eq (s : SessionState) : Spec.sendCounter s = sendIndex s := by
  unfold Spec.sendCounter sendIndex senderChainD
  cases h : s.senderChain with
  | none => rfl
  | some c =>
    cases h2 : c.chainKey with
    | none => obtain ⟨_, _, _, _⟩ := c; simp_all
    | some k => obtain ⟨_, _, _, _⟩ := c; simp_all

omit C in
theorem sendKey_eq (s : SessionState) : Spec.sendKey s = SessionState.sendKey s := by
  unfold Spec.sendKey SessionState.sendKey senderChainD
  cases h : s.senderChain with
  | none => rfl
  | some c =>
    cases h2 : c.chainKey with
    | none => obtain ⟨_, _, _, _⟩ := c; simp_all
    | some k => obtain ⟨_, _, _, _⟩ := c; simp_all

/-- `create` keeps the counter and ratchet key it is given. -/
theorem create_fields {v : Nat} {mk : Bytes} {e : ECPub} {n pc : Nat} {ct : Bytes} {a b : ECPub} {m : WhisperMessage}
    (h : WhisperMessage.create v mk e n pc ct a b = .ok m) :
    m.counter = n ∧ m.senderRatchetKey = e ∧ m.messageVersion = v ∧ m.previousCounter = pc ∧ m.ciphertext = ct := by
  unfold WhisperMessage.create at h
  obtain ⟨_, _, h⟩ := bind_eq_ok.1 h
  obtain ⟨_, _, h⟩ := bind_eq_ok.1 h
  replace h := Except.ok.inj h
  subst h
  exact ⟨rfl, rfl, rfl, rfl, rfl⟩

/-- A state without sender chain cannot encrypt. -/
theorem ews_senderChain {s : SessionState} {pt : Bytes} {c : Ciphertext} {s' : SessionState}
    (h : SessionCipher.encryptWithState s pt = .ok (c, s')) : ∃ sc, s.senderChain = some sc := by
  obtain ⟨_, eph, _, _, _, _, _, he, _⟩ := SessionCipher.ews_ok h
  cases hs : s.senderChain with
  | some sc => exact ⟨sc, rfl⟩
  | none =>
    unfold getSenderRatchetKey senderChainD at he
    rw [hs] at he
    simp [Curve.decodePoint] at he

/-- **C16.** A successful encrypt performs exactly one write, the session of that address, before it
returns.  The message carries the current send counter and ratchet key; the stored counter is one higher;
the stored chain key is the next one; everything else in the record is unchanged. -/
theorem C16_encrypt (w : World) (a : Address) (pt : Bytes) (c : Ciphertext)
    (h : (SessionCipher.encrypt w a pt).result = .ok c) :
    ∃ r' : SessionRecord, (SessionCipher.encrypt w a pt).writes = [.session a r'] ∧
      c.inner.counter = Spec.sendCounter (w.loadSession a).sessionState ∧
      Curve.decodePoint (((w.loadSession a).sessionState.senderChain.getD {}).senderRatchetKey.getD []) =
        .ok c.inner.senderRatchetKey ∧
      Spec.sendCounter r'.sessionState = Spec.sendCounter (w.loadSession a).sessionState + 1 ∧
      Spec.sendKey r'.sessionState = C.hmac (Spec.sendKey (w.loadSession a).sessionState) [0x02] ∧
      Spec.withoutSendKey r'.sessionState = Spec.withoutSendKey (w.loadSession a).sessionState ∧
      r'.previousStates = (w.loadSession a).previousStates := by
  have h0 := Outcome.ofRes_ok h
  obtain ⟨⟨c', s'⟩, h1, h2⟩ := bind_eq_ok.1 h0
  replace h2 := Except.ok.inj h2
  injection h2 with h2 h3
  simp only at h3
  subst h3
  obtain ⟨sc0, hsc0⟩ := ews_senderChain h1
  obtain ⟨kdf, eph, body, lid, rid, m, hk, he, hb, hl, hr, hm, hin, hidx, _, _, sc, hsc, hs'⟩ := SessionCipher.ews_ok h1
  obtain ⟨f1, f2, _⟩ := create_fields hm
  refine ⟨_, h2.symm, ?_, ?_, ?_, ?_, ?_, rfl⟩
  · rw [hin, f1, sendCounter_eq]
  · rw [hin, f2]; exact he
  · subst hs'; subst hsc
    rw [sendCounter_eq, sendCounter_eq]; rfl
  · subst hs'; subst hsc
    rw [sendKey_eq, sendKey_eq]; rfl
  · subst hs'; subst hsc
    simp only [SessionRecord.setState, Spec.withoutSendKey, senderChainD, hsc0]
    rfl

/-- **C16.** A failed encrypt stores nothing. -/
theorem C16_encrypt_failed (w : World) (a : Address) (pt : Bytes) (e : Err)
    (h : (SessionCipher.encrypt w a pt).result = .error e) :
    (SessionCipher.encrypt w a pt).writes = [] ∧ (SessionCipher.encrypt w a pt).final w = w := by
  have h1 := (Outcome.ofRes_error h).2
  change (SessionCipher.encrypt w a pt).writes = [] at h1
  refine ⟨h1, ?_⟩
  unfold Outcome.final
  rw [h1]
  rfl

/-- **C17.** A rejected session message writes to no store: all stores are as before. -/
theorem C17_rejected_message (w : World) (a : Address) (m : WhisperMessage) (seed : Bytes) (seeds : Nat → Bytes)
    (e : Err) (h : (SessionCipher.decryptMsg w a m seed seeds).result = .error e) :
    (SessionCipher.decryptMsg w a m seed seeds).writes = [] ∧
    (SessionCipher.decryptMsg w a m seed seeds).final w = w := by
  have h1 := (Outcome.ofRes_error h).2
  change (SessionCipher.decryptMsg w a m seed seeds).writes = [] at h1
  refine ⟨h1, ?_⟩
  unfold Outcome.final
  rw [h1]
  rfl

/-- **C18 (partial).** A rejected prekey message leaves sessions, prekeys, signed prekeys and own keys as
they were.  The only possible write is the presented identity under that peer's name, and only if the
trust callback accepted it.  Missing for the full statement: the identity store can change
(`C18_identity_saved_on_failure`). -/
theorem C18_rejected_prekey_message_partial (w : World) (a : Address) (m : PreKeyWhisperMessage) (seed : Bytes)
    (seeds : Nat → Bytes) (e : Err) (h : (SessionCipher.decryptPkmsg w a m seed seeds).result = .error e) :
    let w' := (SessionCipher.decryptPkmsg w a m seed seeds).final w
    w'.sessions = w.sessions ∧ w'.preKeys = w.preKeys ∧ w'.signedPreKeys = w.signedPreKeys ∧
    w'.identityKeyPair = w.identityKeyPair ∧ w'.registrationId = w.registrationId ∧
    (w'.identities = w.identities ∨
      (w.isTrusted a.1 m.identityKey = true ∧
       w'.identities = fun n => if n = a.1 then some m.identityKey else w.identities n)) := by
  rcases decryptPkmsg_cases w a m seed seeds with ⟨_, he⟩ | ⟨ht, ⟨e, _, he⟩ | ⟨r, u, e, _, _, he⟩ | ⟨r, u, pt, r2, hv, hd, he⟩⟩
  · rw [he]; exact ⟨rfl, rfl, rfl, rfl, rfl, Or.inl rfl⟩
  · rw [he]; exact ⟨rfl, rfl, rfl, rfl, rfl, Or.inl rfl⟩
  · rw [he]; exact ⟨rfl, rfl, rfl, rfl, rfl, Or.inr ⟨ht, rfl⟩⟩
  · rw [he] at h; cases h

/-- **C49.** Without a session, decrypting raises `NoSession` and changes nothing. -/
theorem C49_decrypt_without_session (w : World) (a : Address) (m : WhisperMessage) (seed : Bytes)
    (seeds : Nat → Bytes) (h : w.sessions a = none) :
    (SessionCipher.decryptMsg w a m seed seeds).result = .error .noSession ∧
    (SessionCipher.decryptMsg w a m seed seeds).final w = w := by
  unfold SessionCipher.decryptMsg World.containsSession
  rw [h]
  exact ⟨rfl, rfl⟩

/-- **C49.** Without a session, encrypting raises (an `IndexError`) and changes nothing. -/
theorem C49_encrypt_without_session (w : World) (a : Address) (pt : Bytes) (h : w.sessions a = none) :
    (SessionCipher.encrypt w a pt).result = .error .indexError ∧
    (SessionCipher.encrypt w a pt).final w = w := by
  unfold SessionCipher.encrypt World.loadSession
  rw [h]
  exact ⟨rfl, rfl⟩

end

/-! ## Counterexample for C18 and non-vacuity -/

attribute [local instance] toy in
open Example in
/-- The full statement of C18 is false: a prekey message with a broken MAC is rejected, but the identity
key it carries has been saved, so from then on a trust-on-first-use policy refuses the real peer. -/
theorem C18_identity_saved_on_failure : ¬ ∀ (C : Crypto), C.Lawful → ∀ (w : World) (a : Address)
    (m : PreKeyWhisperMessage) (seed : Bytes) (seeds : Nat → Bytes) (e : Err),
    (SessionCipher.decryptPkmsg w a m seed seeds).result = .error e →
    ((SessionCipher.decryptPkmsg w a m seed seeds).final w).identities = w.identities := by
  intro h
  have h1 := h toy toy_lawful bob0 aliceAddr forgedPk (key 51) (fun _ => key 52) .invalidMessage forged_rejected
  have h2 := congrFun h1 "alice"
  revert h2
  decide +kernel

section
attribute [local instance] toy
open Example

/-- C16's hypothesis is met: Alice's first message; and a plaintext can fail to encrypt at the end of the
counter range only. -/
example : ∃ c, (SessionCipher.encrypt alice1 bobAddr [104, 105]).result = .ok c :=
  ⟨.preKey firstPk, by decide +kernel⟩

/-- C16/C49: encrypting without a session fails. -/
example : (SessionCipher.encrypt alice0 bobAddr [104, 105]).result = .error .indexError :=
  (C49_encrypt_without_session alice0 bobAddr [104, 105] rfl).1

/-- C17: a forged message is rejected. -/
example : (SessionCipher.decryptMsg alice2 bobAddr { replyMsg with counter := 5 } (key 43) (fun _ => key 44)).result
    = .error .invalidMessage := by decide +kernel

/-- C17 also covers the duplicate. -/
example : (SessionCipher.decryptMsg alice3 bobAddr replyMsg (key 43) (fun _ => key 44)).result
    = .error .duplicateMessage := by decide +kernel

/-- C18: a rejected prekey message. -/
example : (SessionCipher.decryptPkmsg bob0 aliceAddr forgedPk (key 51) (fun _ => key 52)).result
    = .error .invalidMessage := forged_rejected

end
end Axolotl
