import Verif.Proofs.KeySchedule
import Verif.Example

/-! # C24-C28, C30, C31: when sessions are set up, and for whom -/

namespace Axolotl
section
variable [C : Crypto]
open SessionState SessionBuilder

/-! ## C24: trust -/

/-- **C24.** Untrusted identity in a bundle. -/
theorem C24_bundle (w : World) (a : Address) (b : PreKeyBundle) (s1 s2 : Bytes)
    (h : w.policy w.identities a.1 b.identityKey = false) :
    (processPreKeyBundle w a b s1 s2).result = .error .untrustedIdentity ∧
    (processPreKeyBundle w a b s1 s2).final w = w := by
  unfold processPreKeyBundle World.isTrusted
  rw [h]
  exact ⟨rfl, rfl⟩

/-- **C24.** Untrusted identity in a key-exchange message. -/
theorem C24_key_exchange (w : World) (a : Address) (m : KeyExchangeMessage) (rnd : InitiateRand)
    (h : w.policy w.identities a.1 m.identityKey = false) :
    (processKeyExchangeMessage w a m rnd).result = .error .untrustedIdentity ∧
    (processKeyExchangeMessage w a m rnd).final w = w := by
  unfold processKeyExchangeMessage World.isTrusted
  rw [h]
  exact ⟨rfl, rfl⟩

/-- **C24.** Untrusted identity in a prekey message. -/
theorem C24_prekey_message (w : World) (a : Address) (m : PreKeyWhisperMessage) (seed : Bytes) (seeds : Nat → Bytes)
    (h : w.policy w.identities a.1 m.identityKey = false) :
    (SessionCipher.decryptPkmsg w a m seed seeds).result = .error .untrustedIdentity ∧
    (SessionCipher.decryptPkmsg w a m seed seeds).final w = w := by
  unfold SessionCipher.decryptPkmsg SessionBuilder.process World.isTrusted
  rw [h]
  exact ⟨rfl, rfl⟩

/-- **C24.** Conversely, whenever a call saves an identity or sets up a session from such a message, the
callback accepted exactly that identity for that name; and identities are saved for no other key. -/
theorem C24_saved_identity_was_trusted (w : World) (c : Call) (n : String) (k : ECPub)
    (h : .identity n k ∈ (c.run w).writes) : n = c.addr.1 ∧ w.policy w.identities n k = true := by
  cases c with
  | encrypt b pt => obtain ⟨_, _, _, h2⟩ := encrypt_writes h; cases h2
  | decryptMsg b m seed seeds => obtain ⟨_, _, _, _, h2⟩ := decryptMsg_writes h; cases h2
  | decryptPkmsg b m seed seeds =>
    simp only [Call.run, Call.mapOutcome] at h
    rcases decryptPkmsg_cases w b m seed seeds with ⟨_, he⟩ | ⟨ht, ⟨e, _, he⟩ | ⟨r, u, e, _, _, he⟩ | ⟨r, u, pt, r2, _, _, he⟩⟩
    · rw [he] at h; simp at h
    · rw [he] at h; simp at h
    · rw [he] at h
      simp only [List.mem_singleton, Write.identity.injEq] at h
      obtain ⟨rfl, rfl⟩ := h
      exact ⟨rfl, ht⟩
    · rw [he] at h
      have : n = b.1 ∧ k = m.identityKey := by cases u <;> simpa using h
      obtain ⟨rfl, rfl⟩ := this
      exact ⟨rfl, ht⟩
  | processBundle b bu s1 s2 =>
    simp only [Call.run, Call.mapOutcome] at h
    obtain ⟨ht, _, _, _, _, _, _, _, _, _, _, _, hw, _⟩ := processPreKeyBundle_writes h
    rw [hw] at h
    simp only [List.mem_cons, Write.identity.injEq, List.not_mem_nil, or_false, reduceCtorEq, false_or] at h
    obtain ⟨rfl, rfl⟩ := h
    exact ⟨rfl, ht⟩
  | processKeyExchange b m rnd =>
    simp only [Call.run, Call.mapOutcome, processKeyExchangeMessage] at h
    split at h
    · simp at h
    · rename_i ht
      have ht : w.isTrusted b.1 m.identityKey = true := by simpa using ht
      split at h
      · obtain ⟨_, _, _, _, _, _, _, hw⟩ := processInitiate_writes h
        rw [hw] at h
        simp only [List.mem_cons, Write.identity.injEq, List.not_mem_nil, or_false, reduceCtorEq, false_or] at h
        obtain ⟨rfl, rfl⟩ := h
        exact ⟨rfl, ht⟩
      · obtain ⟨_, _, _, _, _, _, _, _, _, _, _, _, hw⟩ := processResponse_writes h
        rw [hw] at h
        simp only [List.mem_cons, Write.identity.injEq, List.not_mem_nil, or_false, reduceCtorEq, false_or] at h
        obtain ⟨rfl, rfl⟩ := h
        exact ⟨rfl, ht⟩
  | initKeyExchange b q s1 s2 s3 =>
    simp only [Call.run, Call.mapOutcome] at h
    obtain ⟨s, hs, hw⟩ := initKeyExchange_writes h
    rw [hw] at h
    simp at h

/-! ## C25, C26: signatures -/

omit C in
theorem ofRes_some_write {α : Type} {r : Res (List Write × α)} {a : α}
    (h : ∀ ws c, r = .ok (ws, c) → ∃ x, x ∈ ws) (ha : (Outcome.ofRes r).result = .ok a) :
    ∃ x, x ∈ (Outcome.ofRes r).writes := by
  cases r with
  | error e => simp [Outcome.ofRes] at ha
  | ok p => exact h p.1 p.2 rfl

theorem verifySignature_true {k m s : Bytes} :
    Curve.verifySignature k m s = .ok true ↔ C.verifySig k m s = some true := by
  unfold Curve.verifySignature
  cases h : C.verifySig k m s with
  | none => simp
  | some b => simp

/-- **C25.** If processing a bundle wrote to any store, or returned normally, the bundle has a signed
prekey whose signature verifies under the bundle's identity key. -/
theorem C25_bundle_signature (w : World) (a : Address) (b : PreKeyBundle) (s1 s2 : Bytes)
    (h : (processPreKeyBundle w a b s1 s2).writes ≠ [] ∨ (processPreKeyBundle w a b s1 s2).result = .ok ()) :
    ∃ k, b.signedPreKey = some k ∧ C.verifySig b.identityKey (5 :: k) b.signedPreKeySignature = some true := by
  have hex : ∃ x, x ∈ (processPreKeyBundle w a b s1 s2).writes := by
    rcases h with h | h
    · exact List.exists_mem_of_ne_nil _ h
    · unfold processPreKeyBundle at h ⊢
      refine ofRes_some_write ?_ h
      intro ws c h0
      split at h0
      · cases h0
      · split at h0
        · cases h0
        · obtain ⟨ok, hok, h1⟩ := bind_eq_ok.1 h0
          split at h1
          · cases h1
          · obtain ⟨s0, h3, h1⟩ := bind_eq_ok.1 h1
            obtain ⟨s1, h4, h1⟩ := bind_eq_ok.1 h1
            obtain ⟨s2, h5, h1⟩ := bind_eq_ok.1 h1
            obtain ⟨s3, h6, h1⟩ := bind_eq_ok.1 h1
            replace h1 := Except.ok.inj h1
            injection h1 with h1 h1'
            rw [← h1]
            exact ⟨_, List.mem_cons_self ..⟩
  obtain ⟨x, hx⟩ := hex
  obtain ⟨_, k, _, _, _, _, hk, hv, _⟩ := processPreKeyBundle_writes hx
  exact ⟨k, hk, verifySignature_true.1 hv⟩

/-- **C25.** Without a valid signed prekey an exception is raised and nothing is stored. -/
theorem C25_bundle_rejected (w : World) (a : Address) (b : PreKeyBundle) (s1 s2 : Bytes)
    (h : ∀ k, b.signedPreKey = some k → C.verifySig b.identityKey (5 :: k) b.signedPreKeySignature ≠ some true) :
    ∃ e, (processPreKeyBundle w a b s1 s2).result = .error e ∧ (processPreKeyBundle w a b s1 s2).final w = w := by
  have hw : (processPreKeyBundle w a b s1 s2).writes = [] := by
    by_cases hw : (processPreKeyBundle w a b s1 s2).writes = []
    · exact hw
    · obtain ⟨k, hk, hv⟩ := C25_bundle_signature w a b s1 s2 (Or.inl hw)
      exact absurd hv (h k hk)
  cases hr : (processPreKeyBundle w a b s1 s2).result with
  | error e => exact ⟨e, rfl, by unfold Outcome.final; rw [hw]; rfl⟩
  | ok u =>
    obtain ⟨k, hk, hv⟩ := C25_bundle_signature w a b s1 s2 (Or.inr (by rw [hr]))
    exact absurd hv (h k hk)

/-- **C26.** If processing a key-exchange message, initiate or response, wrote to any store, its base key
signature verifies under its identity key. -/
theorem C26_key_exchange_signature (w : World) (a : Address) (m : KeyExchangeMessage) (rnd : InitiateRand)
    (h : (processKeyExchangeMessage w a m rnd).writes ≠ []) :
    C.verifySig m.identityKey (5 :: m.baseKey) m.baseKeySignature = some true := by
  obtain ⟨x, hx⟩ := List.exists_mem_of_ne_nil _ h
  unfold processKeyExchangeMessage at hx
  split at hx
  · simp at hx
  · split at hx
    · exact verifySignature_true.1 (processInitiate_writes hx).1
    · exact verifySignature_true.1 (processResponse_writes hx).1

/-- **C26.** With a signature that does not verify, all stores are unchanged; an initiate raises. -/
theorem C26_key_exchange_rejected (w : World) (a : Address) (m : KeyExchangeMessage) (rnd : InitiateRand)
    (h : C.verifySig m.identityKey (5 :: m.baseKey) m.baseKeySignature ≠ some true) :
    (processKeyExchangeMessage w a m rnd).final w = w ∧
    (m.isInitiate = true → ∃ e, (processKeyExchangeMessage w a m rnd).result = .error e) := by
  have hw : (processKeyExchangeMessage w a m rnd).writes = [] := by
    by_cases hw : (processKeyExchangeMessage w a m rnd).writes = []
    · exact hw
    · exact absurd (C26_key_exchange_signature w a m rnd hw) h
  refine ⟨by unfold Outcome.final; rw [hw]; rfl, ?_⟩
  intro hi
  unfold processKeyExchangeMessage at hw ⊢
  split
  · exact ⟨_, rfl⟩
  · rename_i ht
    rw [if_neg ht, if_pos hi] at hw
    unfold processInitiate at hw ⊢
    cases hs : processInitiateState w a m rnd with
    | error e => exact ⟨e, rfl⟩
    | ok y => rw [hs] at hw; simp at hw

/-! ## C31: responses -/

/-- What is pending for a peer: the sequence number of the key exchange under way, if any. -/
def Spec.pendingSequence (w : World) (a : Address) : Option Nat :=
  match w.sessions a with
  | none => none
  | some r => r.sessionState.pendingKeyExchange.map fun p => p.sequence.getD 0

omit C in
theorem pending_iff (w : World) (a : Address) (n : Nat) :
    (hasPendingKeyExchange (w.loadSession a).sessionState = true ∧
      getPendingKeyExchangeSequence (w.loadSession a).sessionState = n) ↔ Spec.pendingSequence w a = some n := by
  unfold Spec.pendingSequence World.loadSession hasPendingKeyExchange getPendingKeyExchangeSequence pendingKED
  cases w.sessions a with
  | none => simp
  | some r => cases h : r.sessionState.pendingKeyExchange <;> simp [h]

/-- **C31.** A response (a message without the initiate flag) is only used if a key exchange with its
sequence number is pending for that peer. -/
theorem C31_response_used (w : World) (a : Address) (m : KeyExchangeMessage) (rnd : InitiateRand)
    (hr : m.isInitiate = false) (h : (processKeyExchangeMessage w a m rnd).writes ≠ []) :
    Spec.pendingSequence w a = some m.sequence := by
  obtain ⟨x, hx⟩ := List.exists_mem_of_ne_nil _ h
  unfold processKeyExchangeMessage at hx
  rw [hr] at hx
  split at hx
  · simp at hx
  · simp only [Bool.false_eq_true, if_false] at hx
    obtain ⟨_, h1, h2, _⟩ := processResponse_writes hx
    exact (pending_iff w a _).1 ⟨h1, h2⟩

/-- **C31.** Otherwise nothing is stored; `StaleKeyExchange` is raised unless the response carries the
simultaneous-initiate flag, in which case the call returns normally. -/
theorem C31_response_not_pending (w : World) (a : Address) (m : KeyExchangeMessage) (rnd : InitiateRand)
    (ht : w.policy w.identities a.1 m.identityKey = true) (hr : m.isInitiate = false)
    (h : Spec.pendingSequence w a ≠ some m.sequence) :
    (processKeyExchangeMessage w a m rnd).final w = w ∧
    (processKeyExchangeMessage w a m rnd).result =
      if m.flags &&& 4 = 0 then .error .staleKeyExchange else .ok none := by
  have hn : (!hasPendingKeyExchange (w.loadSession a).sessionState ||
      getPendingKeyExchangeSequence (w.loadSession a).sessionState != m.sequence) = true := by
    rw [← Bool.not_eq_false]
    intro hc
    apply h
    apply (pending_iff w a _).1
    simpa using hc
  unfold processKeyExchangeMessage World.isTrusted
  rw [ht, hr]
  simp only [Bool.not_true, Bool.false_eq_true, if_false]
  unfold processResponse
  simp only
  rw [if_pos hn]
  unfold KeyExchangeMessage.isResponseForSimultaneousInitiate KeyExchangeMessage.SIMULTAENOUS_INITIATE_FLAG
  by_cases hf : m.flags &&& 4 = 0
  · simp [hf, Outcome.final, World.applyAll]
  · simp [hf, Outcome.final, World.applyAll]

/-! ## C30: isolation -/

omit C in
theorem applyAll_other {ws : List Write} : ∀ {w : World},
    (w.applyAll ws).signedPreKeys = w.signedPreKeys ∧ (w.applyAll ws).identityKeyPair = w.identityKeyPair ∧
    (w.applyAll ws).registrationId = w.registrationId ∧ (w.applyAll ws).policy = w.policy := by
  induction ws with
  | nil => intro w; exact ⟨rfl, rfl, rfl, rfl⟩
  | cons x ws ih =>
    intro w
    obtain ⟨h1, h2, h3, h4⟩ := ih (w := w.apply x)
    cases x <;> exact ⟨h1, h2, h3, h4⟩

omit C in
theorem applyAll_identities {ws : List Write} : ∀ {w : World} {n : String},
    (∀ k, .identity n k ∉ ws) → (w.applyAll ws).identities n = w.identities n := by
  induction ws with
  | nil => intro w n _; rfl
  | cons x ws ih =>
    intro w n h
    have h1 := ih (w := w.apply x) (n := n) (fun k hk => h k (List.mem_cons_of_mem _ hk))
    refine h1.trans ?_
    cases x with
    | session b r => rfl
    | removePreKey i => rfl
    | identity n' k =>
      have : n ≠ n' := by
        intro he
        subst he
        exact h k (List.mem_cons_self ..)
      simp [World.apply, upd, this]

/-- **C30.** A call for one address leaves the session of every other address, the saved identity of
every other name, all signed prekeys, the local identity, registration id and trust policy untouched. -/
theorem C30_isolation (w : World) (c : Call) :
    (∀ a, a ≠ c.addr → (c.next w).sessions a = w.sessions a) ∧
    (∀ n, n ≠ c.addr.1 → (c.next w).identities n = w.identities n) ∧
    (c.next w).signedPreKeys = w.signedPreKeys ∧
    (c.next w).identityKeyPair = w.identityKeyPair ∧
    (c.next w).registrationId = w.registrationId ∧
    (c.next w).policy = w.policy := by
  refine ⟨?_, ?_, applyAll_other⟩
  · intro a ha
    rcases next_session w c a with h | ⟨_, _, h, _⟩
    · exact h
    · exact absurd h ha
  · intro n hn
    apply applyAll_identities
    intro k hk
    exact hn (C24_saved_identity_was_trusted w c n k hk).1

/-- **C30.** The same over any history: an address no call was made for keeps its session. -/
theorem C30_isolation_history (cs : List Call) : ∀ (w : World) (a : Address), (∀ c ∈ cs, c.addr ≠ a) →
    (Call.after w cs).sessions a = w.sessions a := by
  induction cs with
  | nil => intro w a _; rfl
  | cons c cs ih =>
    intro w a h
    have h1 := ih (c.next w) a (fun c' hc' => h c' (List.mem_cons_of_mem _ hc'))
    refine h1.trans ?_
    exact (C30_isolation w c).1 a (fun he => h c (List.mem_cons_self ..) he.symm)

end

/-! ## Non-vacuity -/

section
attribute [local instance] toy
open Example

/-- C24: a trust-on-first-use store that has seen another key refuses Bob's bundle, Alice's prekey message
and Bob's key-exchange answer. -/
example : ({ alice0 with identities := fun _ => some (key 9) } : World).policy (fun _ => some (key 9)) "bob"
    bobBundle.identityKey = false := by decide +kernel

example : (SessionCipher.decryptPkmsg { bob0 with identities := fun _ => some (key 9) } aliceAddr firstPk (key 51)
    (fun _ => key 52)).result = .error .untrustedIdentity := by decide +kernel

/-- C24: identities do get saved. -/
example : .identity "alice" (key 1) ∈ ((Call.decryptPkmsg aliceAddr firstPk (key 51) (fun _ => key 52)).run bob0).writes := by
  decide +kernel

/-- C25: an honest bundle is accepted; one with another signature is refused. -/
example : (SessionBuilder.processPreKeyBundle alice0 bobAddr bobBundle (key 41) (key 42)).result = .ok () := by
  decide +kernel
example : toy.verifySig bobBundle.identityKey (5 :: key 22) (Toy.tag (key 3) (5 :: key 22)) ≠ some true := by
  decide +kernel

/-- C26: an honest initiate and an honest response are used; C31: the response matches what is pending. -/
example : keAnswer.writes ≠ [] ∧ keDone.writes ≠ [] ∧ keAnswerMsg.isInitiate = false ∧
    Spec.pendingSequence keAlice1 bobAddr = some keAnswerMsg.sequence := by decide +kernel
/-- C26: a forged signature. -/
example : toy.verifySig keAskMsg.identityKey (5 :: keAskMsg.baseKey) (Toy.tag (key 3) (5 :: keAskMsg.baseKey)) ≠ some true := by
  decide +kernel

/-- C31: nothing is pending for Alice before she asked, and after the answer was used. -/
example : Spec.pendingSequence alice0 bobAddr ≠ some keAnswerMsg.sequence ∧
    Spec.pendingSequence keAlice2 bobAddr ≠ some keAnswerMsg.sequence ∧
    alice0.policy alice0.identities "bob" keAnswerMsg.identityKey = true := by decide +kernel

/-- C30: a call for one address that does change its session. -/
example : ((Call.encrypt bobAddr [1]).next alice1).sessions bobAddr ≠ alice1.sessions bobAddr := by
  decide +kernel

end
end Axolotl
