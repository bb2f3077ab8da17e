import Verif.Proofs.Agreements
import Verif.Props.Draws

/-! # C114: which agreements are made, between which keys -/

namespace Axolotl
section
variable [C : Crypto]
open Spec Logged Traced SessionState SessionBuilder

omit C in
theorem hasReceiverChain_false {s : SessionState} {m : WhisperMessage} (h : s.hasReceiverChain m.senderRatchetKey = .ok false) :
    ¬ HasChainFor m s := by
  unfold SessionState.hasReceiverChain SessionState.getReceiverChain at h
  cases hf : SessionState.findChain m.senderRatchetKey s.receiverChains 0 with
  | error e => rw [hf] at h; cases h
  | ok o =>
    cases o with
    | none => exact findChain_none hf
    | some x => rw [hf] at h; cases h

namespace Work
variable {Q : ECPriv → ECPub → Prop}

theorem state_meets (s : SessionState) (m : WhisperMessage) (seed : Bytes)
    (h1 : ¬ HasChainFor m s → ∀ c, s.senderChain = some c → Q (c.senderRatchetKeyPrivate.getD []) m.senderRatchetKey)
    (h2 : ¬ HasChainFor m s → Q (C.genPriv seed) m.senderRatchetKey) : Meets Q (decryptWithSessionState tracing s m seed) := by
  unfold decryptWithSessionState
  refine meets_ite (fun _ => meets_fail _) fun hsc => ?_
  obtain ⟨c, hc⟩ : ∃ c, s.senderChain = some c := by
    unfold hasSenderChain at hsc
    cases h : s.senderChain with
    | none => rw [h] at hsc; simp at hsc
    | some c => exact ⟨c, rfl⟩
  have h1' : ¬ HasChainFor m s → Q (s.senderChainD.senderRatchetKeyPrivate.getD []) m.senderRatchetKey := fun h => by
    unfold senderChainD
    rw [hc]
    exact h1 h c hc
  exact meets_ite (fun _ => meets_fail _) fun _ =>
    meets_bind (getOrCreateChainKey_meets _ _ _ (fun h => h1' (hasReceiverChain_false h)) fun h => h2 (hasReceiverChain_false h)) fun _ _ =>
    meets_bind (getOrCreateMessageKeys_meets ..) fun _ _ =>
    meets_bind (meets_lift _) fun _ _ => meets_bind (meets_lift _) fun _ _ => meets_bind (verifyMac_meets ..) fun _ _ =>
    meets_bind (aesDecrypt_meets ..) fun _ _ => meets_pure _

theorem tryPrevious_meets (r : SessionRecord) (m : WhisperMessage) (seeds : Nat → Bytes) (l : List SessionState) (i : Nat)
    (h1 : ∀ s ∈ l, ¬ HasChainFor m s → ∀ c, s.senderChain = some c → Q (c.senderRatchetKeyPrivate.getD []) m.senderRatchetKey)
    (h2 : ∀ s ∈ l, ¬ HasChainFor m s → ∀ j < i + l.length, Q (C.genPriv (seeds j)) m.senderRatchetKey) :
    Meets Q (tryPrevious tracing r m seeds l i) := by
  induction l generalizing i with
  | nil => exact meets_fail _
  | cons p l ih =>
    unfold tryPrevious
    refine meets_bind (meets_attempt (state_meets _ _ _ (h1 p (List.mem_cons_self ..)) fun h => h2 p (List.mem_cons_self ..) h i ?_)) fun v _ => ?_
    · simp
    split
    · exact meets_pure _
    · refine ih (i + 1) (fun s hs => h1 s (List.mem_cons_of_mem _ hs)) fun s hs h j hj => h2 s (List.mem_cons_of_mem _ hs) h j ?_
      rw [List.length_cons]
      omega
    · exact meets_fail _

theorem record_meets (r : SessionRecord) (m : WhisperMessage) (seed : Bytes) (seeds : Nat → Bytes)
    (h1 : ∀ s ∈ states r, ¬ HasChainFor m s → ∀ c, s.senderChain = some c → Q (c.senderRatchetKeyPrivate.getD []) m.senderRatchetKey)
    (h2 : ∀ s ∈ states r, ¬ HasChainFor m s → ∀ x ∈ seed :: (List.range r.previousStates.length).map seeds, Q (C.genPriv x) m.senderRatchetKey) :
    Meets Q (decryptWithSessionRecord tracing r m seed seeds) := by
  unfold decryptWithSessionRecord
  refine meets_bind (meets_attempt (state_meets _ _ _ (h1 _ (List.mem_cons_self ..)) fun h =>
    h2 _ (List.mem_cons_self ..) h _ (List.mem_cons_self ..))) fun v _ => ?_
  split
  · exact meets_pure _
  · refine tryPrevious_meets _ _ _ _ _ (fun s hs => h1 s (List.mem_cons_of_mem _ hs)) fun s hs h j hj =>
      h2 s (List.mem_cons_of_mem _ hs) h _ (List.mem_cons_of_mem _ (List.mem_map_of_mem (List.mem_range.2 (by omega))))
  · exact meets_fail _

theorem process_meets {w : World} {a : Address} {m : PreKeyWhisperMessage} {s : Bytes} {ss : Nat → Bytes} :
    Meets (MakesAgreement w (.decryptPkmsg a m s ss)) (process tracing w a (w.loadSession a) m) := by
  unfold process
  refine meets_ite (fun _ => meets_pure _) fun ht => meets_bind (meets_attempt ?_) fun v _ => ?_
  · unfold processV3
    refine meets_ite (fun _ => meets_pure _) fun hk => meets_bind (meets_lift _) fun spk hspk => meets_bind (meets_lift _) fun kp hkp => ?_
    have hn : NewSession w a m := ⟨by simpa using ht, fun h => hk ((hasSessionState_iff _ _ _).2 h)⟩
    rw [value_lift] at hspk hkp
    have hspk : w.signedPreKeys m.signedPreKeyId = some spk := by
      unfold World.loadSignedPreKey at hspk
      split at hspk
      · rename_i h
        rw [h, Except.ok.inj hspk]
      · cases hspk
    have hkp : kp.priv = spk.privateKey.getD [] := by
      unfold SignedPreKeyRecord.getKeyPair at hkp
      obtain ⟨pub, _, hkp⟩ := bind_eq_ok.1 hkp
      obtain rfl := Except.ok.inj hkp
      rfl
    cases hi : m.preKeyId with
    | none =>
      refine meets_bind (meets_pure _) fun o ho => meets_bind (asBob_meets _ ?_ ?_ ?_ ?_) fun _ _ => meets_bind (meets_lift _) fun _ _ =>
        meets_bind (meets_lift _) fun _ _ => meets_pure _
      · simp only [hkp]; exact .firstSigned hn hspk (Or.inl rfl)
      · exact .firstIdentity hn
      · simp only [hkp]; exact .firstSigned hn hspk (Or.inr (Or.inl rfl))
      · intro k hk
        obtain rfl := Except.ok.inj ho
        cases hk
    | some i =>
      refine meets_bind (meets_lift _) fun pk hpk => meets_bind (meets_lift _) fun op hop => meets_bind (meets_pure _) fun o ho =>
        meets_bind (asBob_meets _ ?_ ?_ ?_ ?_) fun _ _ => meets_bind (meets_lift _) fun _ _ => meets_bind (meets_lift _) fun _ _ => meets_pure _
      · simp only [hkp]; exact .firstSigned hn hspk (Or.inl rfl)
      · exact .firstIdentity hn
      · simp only [hkp]; exact .firstSigned hn hspk (Or.inr (Or.inl rfl))
      · intro k hk
        obtain rfl := Except.ok.inj ho
        obtain rfl := Option.some.inj hk
        rw [value_lift] at hpk hop
        have hpk : w.preKeys i = some pk := by
          unfold World.loadPreKey at hpk
          split at hpk
          · rename_i h
            rw [h, Except.ok.inj hpk]
          · cases hpk
        unfold PreKeyRecord.getKeyPair at hop
        obtain ⟨pub, _, hop⟩ := bind_eq_ok.1 hop
        obtain rfl := Except.ok.inj hop
        exact .firstOneTime hn hi hpk
  · cases v <;> exact meets_pure _

end Work

omit C in
theorem kept_by_archiving {r : SessionRecord} {s : SessionState} (h : s ∈ (archiveUnlessFresh r).previousStates) : s ∈ states r := by
  unfold archiveUnlessFresh SessionRecord.archiveCurrentState SessionRecord.promoteState at h
  unfold states
  split at h
  · simp only at h
    split at h
    · exact List.dropLast_subset _ h
    · exact h
  · exact List.mem_cons_of_mem _ h

/-- The states after a first message has been looked at: those that were there, and the new one, that sends with our signed prekey. -/
theorem process_states {w : World} {a : Address} {m : PreKeyWhisperMessage} {r : SessionRecord} {i : Option Nat}
    (h : (SessionBuilder.process w a (w.loadSession a) m).result = .ok (r, i)) :
    w.isTrusted a.1 m.identityKey = true ∧ ((∀ s ∈ states r, s ∈ states (w.loadSession a)) ∨ (NewSession w a m ∧ ∀ s ∈ states r, s ∈ states (w.loadSession a) ∨
      ∃ p, w.signedPreKeys m.signedPreKeyId = some p ∧ (s.senderChain.getD {}).senderRatchetKeyPrivate.getD [] = p.privateKey.getD [])) := by
  unfold SessionBuilder.process at h
  split at h
  · cases h
  · rename_i ht
    have ht : w.isTrusted a.1 m.identityKey = true := by simpa using ht
    refine ⟨ht, ?_⟩
    cases hp : SessionBuilder.processV3 w (w.loadSession a) m with
    | error e => rw [hp] at h; cases h
    | ok x =>
      rw [hp] at h
      obtain rfl := Except.ok.inj h
      rcases processV3_ok hp with ⟨_, hx⟩ | ⟨hk, spk, kp, ot, s0, s1, s2, h1, h2, _, _, h3, h4, h5, hx, _⟩
      · obtain ⟨rfl, _⟩ := Prod.mk.inj hx
        exact Or.inl fun s hs => hs
      · refine Or.inr ⟨⟨ht, fun h => ?_⟩, ?_⟩
        · rw [(hasSessionState_iff _ _ _).2 h] at hk; cases hk
        · simp only at hx
          rw [hx]
          intro s hs
          rcases List.mem_cons.1 hs with rfl | hs
          · right
            refine ⟨spk, ?_, ?_⟩
            · unfold World.loadSignedPreKey at h1
              split at h1
              · rename_i h
                rw [h, Except.ok.inj h1]
              · cases h1
            · have hkp : kp.priv = spk.privateKey.getD [] := by
                unfold SignedPreKeyRecord.getKeyPair at h2
                obtain ⟨pub, _, h2⟩ := bind_eq_ok.1 h2
                obtain rfl := Except.ok.inj h2
                rfl
              have e2 : s2.senderChain = s1.senderChain := by
                unfold setRemoteRegistrationId at h5
                obtain ⟨_, _, h5⟩ := bind_eq_ok.1 h5
                obtain rfl := Except.ok.inj h5
                rfl
              have e1 : s1.senderChain = s0.senderChain := by
                unfold setLocalRegistrationId at h4
                obtain ⟨_, _, h4⟩ := bind_eq_ok.1 h4
                obtain rfl := Except.ok.inj h4
                rfl
              unfold RatchetingSession.initializeSessionAsBob at h3
              obtain ⟨_, _, h3⟩ := bind_eq_ok.1 h3
              obtain ⟨s', hs', h3⟩ := bind_eq_ok.1 h3
              obtain rfl := Except.ok.inj h3
              unfold setSenderChain at hs'
              obtain ⟨_, _, hs'⟩ := bind_eq_ok.1 hs'
              obtain rfl := Except.ok.inj hs'
              show (s2.senderChain.getD {}).senderRatchetKeyPrivate.getD [] = _
              rw [e2, e1, ← hkp]
              rfl
          · exact Or.inl (kept_by_archiving hs)

theorem Work.bundle_meets {w : World} {a : Address} {b : PreKeyBundle} {s1 s2 : Bytes} :
    Meets (MakesAgreement w (.processBundle a b s1 s2)) (processPreKeyBundle tracing w a b s1 s2) := by
  constructor
  unfold processPreKeyBundle
  rw [outcome_trace]
  refine Meets.each ?_
  refine meets_ite (fun _ => meets_fail _) fun ht => ?_
  cases hb : b.signedPreKey with
  | none => exact meets_fail _
  | some spk =>
    refine meets_bind (verifySignature_meets ..) fun ok hok => meets_ite (fun _ => meets_fail _) fun hv => ?_
    have hg : GoodBundle w a b spk := by
      refine ⟨by simpa using ht, hb, ?_⟩
      have hv : ok = true := by simpa using hv
      subst hv
      rw [verifySignature_value] at hok
      unfold Curve.verifySignature at hok
      cases hsig : C.verifySig b.identityKey (5 :: spk) b.signedPreKeySignature with
      | none => rw [show C.verifySig b.identityKey (Curve.serializePoint spk) b.signedPreKeySignature = none from hsig] at hok; cases hok
      | some x =>
        rw [show C.verifySig b.identityKey (Curve.serializePoint spk) b.signedPreKeySignature = some x from hsig] at hok
        obtain rfl := Except.ok.inj hok
        rfl
    refine meets_bind (generateKeyPair_meets _) fun k hk => ?_
    rw [generateKeyPair_value] at hk
    obtain rfl := Except.ok.inj hk
    exact meets_bind (asAlice_meets _ (.bundleIdentity hg) (.bundleBase hg (Or.inl rfl)) (.bundleBase hg (Or.inr (Or.inl rfl)))
        (fun k hk => .bundleBase hg (Or.inr (Or.inr hk))) (.bundleRatchet hg)) fun _ _ =>
      meets_bind (meets_lift _) fun _ _ => meets_bind (meets_lift _) fun _ _ => meets_bind (meets_lift _) fun _ _ => meets_pure _

theorem Work.initiate_meets {w : World} {a : Address} {m : KeyExchangeMessage} {rnd : InitiateRand}
    (ht : w.isTrusted a.1 m.identityKey = true) (hm : m.isInitiate = true) :
    Meets (MakesAgreement w (.processKeyExchange a m rnd)) (processInitiate tracing w a m rnd) := by
  unfold processInitiate
  refine meets_bind (meets_attempt ?_) fun v hv => ?_
  · unfold processInitiateState
    refine meets_bind (verifySignature_meets ..) fun ok hok => meets_ite (fun _ => meets_fail _) fun hv => ?_
    have hsig : exchangeSignature m = some true := by
      have hv : ok = true := by simpa using hv
      subst hv
      rw [verifySignature_value] at hok
      unfold Curve.verifySignature at hok
      unfold exchangeSignature
      cases hsig : C.verifySig m.identityKey (5 :: m.baseKey) m.baseKeySignature with
      | none => rw [show C.verifySig m.identityKey (Curve.serializePoint m.baseKey) m.baseKeySignature = none from hsig] at hok; cases hok
      | some x =>
        rw [show C.verifySig m.identityKey (Curve.serializePoint m.baseKey) m.baseKeySignature = some x from hsig] at hok
        obtain rfl := Except.ok.inj hok
        rfl
    have hpl := pending_loaded w a
    refine meets_ite (fun hp => ?_) fun hp => ?_
    · have hp : Spec.pendingOf (w.sessions a) = none := by
        unfold hasPendingKeyExchange at hp
        rw [hpl] at hp
        cases h : Spec.pendingOf (w.sessions a) with
        | none => rfl
        | some x => rw [h] at hp; cases hp
      refine meets_bind (generateKeyPair_meets _) fun bk hbk => meets_bind (generateKeyPair_meets _) fun rk hrk => ?_
      rw [generateKeyPair_value] at hbk hrk
      obtain rfl := Except.ok.inj hbk
      obtain rfl := Except.ok.inj hrk
      have hx : ExchangeWith w a m rnd w.identityKeyPair ⟨C.genPub (C.genPriv rnd.baseSeed), C.genPriv rnd.baseSeed⟩ :=
        .request ht hm hsig (.new hp)
      refine meets_bind (meets_pure _) fun y hy => ?_
      obtain rfl := Except.ok.inj hy
      exact meets_bind (initializeSession_meets _ (.exchangeIdentity hx) (.exchangeBase hx (Or.inl rfl)) (.exchangeBase hx (Or.inr rfl))
        (.exchangeRatchet hx)) fun _ _ => meets_pure _
    · refine meets_bind (meets_lift _) fun ik hik => meets_bind (meets_lift _) fun bk hbk => meets_bind (meets_lift _) fun rk hrk => ?_
      rw [value_lift] at hik hbk hrk
      have hx : ExchangeWith w a m rnd ik bk := by
        unfold hasPendingKeyExchange at hp
        cases h : (w.loadSession a).sessionState.pendingKeyExchange with
        | none => rw [h] at hp; simp at hp
        | some x => exact .request ht hm hsig (.pending (hpl.symm.trans h) (pendingKeys_of h hik hbk hrk))
      refine meets_bind (meets_pure _) fun y hy => ?_
      obtain rfl := Except.ok.inj hy
      exact meets_bind (initializeSession_meets _ (.exchangeIdentity hx) (.exchangeBase hx (Or.inl rfl)) (.exchangeBase hx (Or.inr rfl))
        (.exchangeRatchet hx)) fun _ _ => meets_pure _
  · split
    · exact meets_pure _
    · exact meets_bind (meets_attempt (meets_bind (calculateSignature_meets ..) fun _ _ => meets_bind (meets_lift _) fun _ _ =>
        meets_pure _)) fun _ _ => meets_pure _

theorem Work.response_meets {w : World} {a : Address} {m : KeyExchangeMessage} {rnd : InitiateRand}
    (ht : w.isTrusted a.1 m.identityKey = true) (hm : m.isInitiate = false) :
    Meets (MakesAgreement w (.processKeyExchange a m rnd)) (processResponse tracing w a m rnd.sendSeed) := by
  unfold processResponse
  refine meets_ite (fun _ => meets_ite (fun _ => meets_pure _) fun _ => meets_pure _) fun hp => ?_
  constructor
  rw [outcome_trace]
  refine Meets.each ?_
  refine meets_bind (meets_lift _) fun bk hbk => meets_bind (meets_lift _) fun rk hrk => meets_bind (meets_lift _) fun ik hik => ?_
  rw [value_lift] at hik hbk hrk
  have hx : ExchangeWith w a m rnd ik bk := by
    have hpl := pending_loaded w a
    unfold hasPendingKeyExchange getPendingKeyExchangeSequence pendingKED at hp
    cases h : (w.loadSession a).sessionState.pendingKeyExchange with
    | none => rw [h] at hp; simp at hp
    | some x =>
      rw [h] at hp
      exact .reply ht hm (hpl.symm.trans h) (by simpa using hp) (pendingKeys_of h hik hbk hrk)
  exact meets_bind (initializeSession_meets _ (.exchangeIdentity hx) (.exchangeBase hx (Or.inl rfl)) (.exchangeBase hx (Or.inr rfl))
      (.exchangeRatchet hx)) fun _ _ => meets_bind (verifySignature_meets ..) fun _ _ =>
    meets_ite (fun _ => meets_fail _) fun _ => meets_pure _

/-- **C114**, on any stores: the calls of the session API make only these agreements. -/
theorem C114_call (w : World) (c : Call) (k : ECPriv) (p : ECPub) (h : .dh k p ∈ callTrace w c) : MakesAgreement w c k p := by
  have only : ∀ {α : Type} {x : Traced α}, Meets (MakesAgreement w c) x → Op.dh k p ∈ x.work → MakesAgreement w c k p :=
    fun hx hm => hx.each k p hm
  unfold callTrace at h
  cases c with
  | encrypt a p =>
    simp only [Work.run, mapped_trace] at h
    unfold Work.encrypt at h
    rw [outcome_trace] at h
    exact only (meets_bind (Work.encryptWithState_meets _ _) fun _ _ => meets_pure _) h
  | decryptMsg a m s ss =>
    simp only [Work.run, mapped_trace] at h
    unfold Work.decryptMsg at h
    rw [outcome_trace] at h
    exact only (meets_ite (fun _ => meets_fail _) fun _ => meets_bind (Work.record_meets _ _ _ _ (fun s hs hn c hc => .ratchet .message hs hn hc)
      fun s hs hn x hx => .new .message hs hn hx) fun _ _ => meets_pure _) h
  | decryptPkmsg a m s ss =>
    simp only [Work.run, mapped_trace] at h
    unfold Work.decryptPkmsg at h
    refine only (meets_bind Work.process_meets fun o ho => ?_) h
    rw [Work.process_value] at ho
    obtain rfl := Except.ok.inj ho
    split
    · exact meets_pure _
    · rename_i r i hr
      have hsub : ∀ x, x ∈ s :: (List.range r.previousStates.length).map ss → x ∈ randomness w (.decryptPkmsg a m s ss) := fun x hx =>
        ((range_sublist (process_more hr) ss).cons_cons s).subset hx
      obtain ⟨ht, hs⟩ := process_states hr
      refine meets_bind (meets_attempt (Work.record_meets _ _ _ _ (fun st hst hn c hc => ?_) fun st hst hn x hx => ?_)) fun v _ => ?_
      · rcases hs with hs | ⟨hnew, hs⟩
        · exact .ratchet (.first ht) (hs st hst) hn hc
        · rcases hs st hst with hs | ⟨p, hp, he⟩
          · exact .ratchet (.first ht) hs hn hc
          · rw [hc] at he; rw [show c.senderRatchetKeyPrivate.getD [] = _ from he]; exact .firstSigned hnew hp (Or.inr (Or.inr rfl))
      · rcases hs with hs | ⟨hnew, hs⟩
        · exact .new (.first ht) (hs st hst) hn (hsub x hx)
        · exact .firstNew hnew (hsub x hx)
      · split <;> exact meets_pure _
  | processBundle a b s1 s2 =>
    simp only [Work.run, mapped_trace] at h
    exact only Work.bundle_meets h
  | processKeyExchange a m r =>
    simp only [Work.run, mapped_trace] at h
    unfold Work.processKeyExchangeMessage at h
    refine only (meets_ite (fun _ => meets_pure _) fun ht => meets_ite (fun hm => ?_) fun hm => ?_) h
    · exact Work.initiate_meets (by simpa using ht) hm
    · exact Work.response_meets (by simpa using ht) (by simpa using hm)
  | initKeyExchange a n s1 s2 s3 =>
    simp only [Work.run, mapped_trace] at h
    unfold Work.processInitKeyExchangeMessage at h
    refine only (meets_bind (Work.generateKeyPair_meets _) fun _ _ => meets_bind (Work.generateKeyPair_meets _) fun _ _ =>
      meets_bind (meets_attempt (meets_bind (Work.calculateSignature_meets ..) fun _ _ => meets_bind (meets_lift _) fun _ _ =>
        meets_pure _)) fun v _ => ?_) h
    split <;> exact meets_pure _

/-- **C114**, groups, on any stores: the calls of the group API make no agreement. -/
theorem C114_group (g : GroupStore) (c : GroupCall) (k : ECPriv) (p : ECPub) : .dh k p ∉ groupCallTrace g c := by
  intro h
  have none : ∀ {α : Type} {x : Traced α}, Meets (fun _ _ => False) x → Op.dh k p ∈ x.work → False := fun hx hm => hx.each k p hm
  unfold groupCallTrace at h
  cases c with
  | encrypt n pt r =>
    simp only [Work.groupRun, mapped_trace] at h
    exact none (Work.groupEncrypt_meets ..) h
  | decrypt n b =>
    simp only [Work.groupRun, mapped_trace] at h
    exact none (Work.groupDecrypt_meets ..) h
  | process n m => cases h
  | create n r =>
    simp only [Work.groupRun, mapped_trace] at h
    exact none (Work.groupCreate_meets ..) h

/-- No agreement when writing, when asking for a key exchange, and when reading with states that all have a chain for the message. -/
theorem C114_none (w : World) (c : Call) (hc : (∃ a p, c = .encrypt a p) ∨ (∃ a n s1 s2 s3, c = .initKeyExchange a n s1 s2 s3) ∨
      ∃ a m s ss, c = .decryptMsg a m s ss ∧ ∀ st ∈ states (w.loadSession a), HasChainFor m st) (k : ECPriv) (p : ECPub) :
    .dh k p ∉ callTrace w c := by
  intro h
  have h := C114_call w c k p h
  rcases hc with ⟨a, q, rfl⟩ | ⟨a, n, s1, s2, s3, rfl⟩ | ⟨a, m, s, ss, rfl, hall⟩
  · cases h with
    | ratchet hg => cases hg
    | new hg => cases hg
  · cases h with
    | ratchet hg => cases hg
    | new hg => cases hg
  · cases h with
    | ratchet hg hs hn => cases hg; exact hn (hall _ hs)
    | new hg hs hn => cases hg; exact hn (hall _ hs)

/-- No agreement with anything that comes with an identity key that is not trusted. -/
theorem C114_untrusted (w : World) (a : Address) (i : ECPub) (ht : w.isTrusted a.1 i = false) (c : Call)
    (hc : (∃ m s ss, c = .decryptPkmsg a m s ss ∧ m.identityKey = i) ∨ (∃ b s1 s2, c = .processBundle a b s1 s2 ∧ b.identityKey = i) ∨
      ∃ m r, c = .processKeyExchange a m r ∧ m.identityKey = i) (k : ECPriv) (p : ECPub) : .dh k p ∉ callTrace w c := by
  intro h
  replace h := C114_call w c k p h
  have no : ∀ {j : ECPub}, j = i → w.isTrusted a.1 j = true → False := by
    rintro j rfl h
    rw [ht] at h
    cases h
  rcases hc with ⟨m, s, ss, rfl, hi⟩ | ⟨b, s1, s2, rfl, hi⟩ | ⟨m, r, rfl, hi⟩
  · cases h with
    | ratchet hg => cases hg with | first ht' => exact no hi ht'
    | new hg => cases hg with | first ht' => exact no hi ht'
    | firstNew hn => exact no hi hn.trusted
    | firstIdentity hn => exact no hi hn.trusted
    | firstSigned hn => exact no hi hn.trusted
    | firstOneTime hn => exact no hi hn.trusted
  · cases h with
    | ratchet hg => cases hg
    | new hg => cases hg
    | bundleIdentity hn => exact no hi hn.trusted
    | bundleBase hn => exact no hi hn.trusted
    | bundleRatchet hn => exact no hi hn.trusted
  · have key : ∀ {x y : KeyPair}, ExchangeWith w a m r x y → False := fun h => by
      cases h with
      | request h => exact no hi h
      | reply h => exact no hi h
    cases h with
    | ratchet hg => cases hg
    | new hg => cases hg
    | exchangeIdentity hx => exact key hx
    | exchangeBase hx => exact key hx
    | exchangeRatchet hx => exact key hx

end

section
open Example Spec
attribute [local instance] toy

/-- The agreements among the uses of the primitives. -/
def agreements (l : List Op) : List (ECPriv × ECPub) := l.filterMap fun o => match o with | .dh k p => some (k, p) | _ => none

/-- The hypothesis of `C114_call`: what Alice does with a bundle, and Bob with her first message. -/
example : agreements (callTrace alice0 (.processBundle bobAddr bobBundle (key 41) (key 42))) =
      [(alice0.identityKeyPair.priv, bobBundle.signedPreKey.getD []), ((toy).genPriv (key 41), bobBundle.identityKey),
       ((toy).genPriv (key 41), bobBundle.signedPreKey.getD []), ((toy).genPriv (key 41), bobBundle.preKey.getD []),
       ((toy).genPriv (key 42), bobBundle.signedPreKey.getD [])] ∧
    ((bob0.signedPreKeys firstPk.signedPreKeyId).bind fun spk => (bob0.preKeys (firstPk.preKeyId.getD 0)).map fun pk =>
      decide (agreements (callTrace bob0 (.decryptPkmsg aliceAddr firstPk (key 31) (fun _ => key 32))) =
        [(spk.privateKey.getD [], firstPk.identityKey), (bob0.identityKeyPair.priv, firstPk.baseKey),
         (spk.privateKey.getD [], firstPk.baseKey), (pk.privateKey.getD [], firstPk.baseKey),
         (spk.privateKey.getD [], firstPk.message.senderRatchetKey), ((toy).genPriv (key 31), firstPk.message.senderRatchetKey)])) = some true := by
  decide +kernel

/-- The same for the reply, and for a key exchange. -/
example : agreements (callTrace alice2 (.decryptMsg bobAddr replyMsg (key 43) (fun _ => key 44))) =
      [((toy).genPriv (key 42), replyMsg.senderRatchetKey), ((toy).genPriv (key 43), replyMsg.senderRatchetKey)] ∧
    agreements (callTrace bob0 (.processKeyExchange aliceAddr keAskMsg keRand)) =
      [((toy).genPriv keRand.baseSeed, keAskMsg.identityKey), (bob0.identityKeyPair.priv, keAskMsg.baseKey),
       ((toy).genPriv keRand.baseSeed, keAskMsg.baseKey)] ∧
    agreements (callTrace keAlice1 (.processKeyExchange bobAddr keAnswerMsg keRand)) ≠ [] := by
  decide +kernel

/-- The hypothesis of `C114_none`: the reply again, with a state that has the chain. -/
example : ∀ s ∈ states (alice3.loadSession bobAddr), HasChainFor replyMsg s := by
  have h : ((states (alice3.loadSession bobAddr)).all fun s => s.receiverChains.any fun c =>
      decide (c.senderRatchetKey = some (5 :: replyMsg.senderRatchetKey) ∧ replyMsg.senderRatchetKey.length = 32)) = true := by decide +kernel
  intro s hs
  obtain ⟨c, hc, h1⟩ := List.any_eq_true.1 (List.all_eq_true.1 h s hs)
  obtain ⟨h1, h2⟩ := of_decide_eq_true h1
  exact ⟨c, hc, _, h1, (List.take_of_length_le (by omega)).symm⟩

/-- The hypothesis of `C114_untrusted`: Bob knows Alice, a bundle with another identity key comes. -/
example : bob1.isTrusted aliceAddr.1 (key 99) = false ∧ bob1.isTrusted aliceAddr.1 firstPk.identityKey = true := by
  decide +kernel

end
end Axolotl
