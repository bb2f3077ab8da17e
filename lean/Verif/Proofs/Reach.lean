import Verif.Proofs.Decrypt
import Verif.Spec.History

/-! What any API call can write to the session store, and induction over histories. -/

namespace Axolotl
section
variable [C : Crypto]
open SessionState SessionBuilder

/-- Session states as the library sets them up, always starting from an empty state. -/
inductive Created : SessionState → Prop
  | bob {p : BobParameters} {s0 s1 s2 : SessionState} {l r : Int} {k : Bytes} :
      RatchetingSession.initializeSessionAsBob {} p = .ok s0 →
      setLocalRegistrationId s0 l = .ok s1 → setRemoteRegistrationId s1 r = .ok s2 →
      Created (setAliceBaseKey s2 k)
  | alice {p : AliceParameters} {seed : Bytes} {s0 s1 s2 s3 : SessionState} {l r : Int} {k : Bytes}
      {pk : Option Int} {spk : Int} {bk : ECPub} :
      RatchetingSession.initializeSessionAsAlice {} p seed = .ok s0 →
      setUnacknowledgedPreKeyMessage s0 pk spk bk = .ok s1 →
      setLocalRegistrationId s1 l = .ok s2 → setRemoteRegistrationId s2 r = .ok s3 →
      Created (setAliceBaseKey s3 k)
  | sym {p : SymmetricParameters} {seed : Bytes} {s : SessionState} :
      RatchetingSession.initializeSession {} p seed = .ok s → Created s

/-- What a single call can do to a loaded record. -/
inductive RecStep (r : SessionRecord) : SessionRecord → Prop
  | encrypt {pt : Bytes} {c : Ciphertext} {s : SessionState} :
      SessionCipher.encryptWithState r.sessionState pt = .ok (c, s) → RecStep r (r.setState s)
  | decrypt {m : WhisperMessage} {seed : Bytes} {seeds : Nat → Bytes} {pt : Bytes} {r' : SessionRecord} :
      SessionCipher.decryptWithSessionRecord r m seed seeds = .ok (pt, r') → RecStep r r'
  | create {s : SessionState} : Created s → RecStep r ((archiveUnlessFresh r).setState s)
  | createDecrypt {s : SessionState} {m : WhisperMessage} {seed : Bytes} {seeds : Nat → Bytes} {pt : Bytes}
      {r' : SessionRecord} : Created s →
      SessionCipher.decryptWithSessionRecord ((archiveUnlessFresh r).setState s) m seed seeds = .ok (pt, r') →
      RecStep r r'
  | pending {q : Nat} {a b c : KeyPair} {s : SessionState} :
      setPendingKeyExchange r.sessionState q a b c = .ok s → RecStep r (r.setState s)

omit C in
theorem Outcome.ofRes_writes {α : Type} {r : Res (List Write × α)} {x : Write}
    (h : x ∈ (Outcome.ofRes r).writes) : ∃ ws a, r = .ok (ws, a) ∧ x ∈ ws := by
  cases r with
  | error e => simp [Outcome.ofRes] at h
  | ok p => exact ⟨p.1, p.2, rfl, h⟩

omit C in
theorem Outcome.ofRes_error {α : Type} {r : Res (List Write × α)} {e : Err}
    (h : (Outcome.ofRes r).result = .error e) : r = .error e ∧ (Outcome.ofRes r).writes = [] := by
  cases r with
  | error e' => simp only [Outcome.ofRes] at h ⊢; injection h with h; exact ⟨by rw [h], trivial⟩
  | ok p => simp [Outcome.ofRes] at h

omit C in
theorem Outcome.ofRes_ok {α : Type} {r : Res (List Write × α)} {a : α}
    (h : (Outcome.ofRes r).result = .ok a) : r = .ok ((Outcome.ofRes r).writes, a) := by
  cases r with
  | error e' => simp [Outcome.ofRes] at h
  | ok p => simp only [Outcome.ofRes] at h ⊢; injection h with h; rw [← h]

omit C in
theorem archive_load_state (w : World) (a : Address) :
    (archiveUnlessFresh (w.loadSession a)).sessionState = {} := by
  unfold World.loadSession
  cases w.sessions a with
  | none => rfl
  | some r => rfl

/-! ## Inversion of the individual calls -/

theorem encrypt_writes {w : World} {a : Address} {pt : Bytes} {x : Write}
    (h : x ∈ (SessionCipher.encrypt w a pt).writes) :
    ∃ c s, SessionCipher.encryptWithState (w.loadSession a).sessionState pt = .ok (c, s) ∧
      x = .session a ((w.loadSession a).setState s) := by
  unfold SessionCipher.encrypt at h
  obtain ⟨ws, c, h1, h2⟩ := Outcome.ofRes_writes h
  obtain ⟨⟨c', s⟩, h3, h4⟩ := bind_eq_ok.1 h1
  injection h4 with h4
  injection h4 with h4 h5
  subst h4
  simp only [List.mem_singleton] at h2
  exact ⟨c', s, h3, h2⟩

theorem decryptMsg_writes {w : World} {a : Address} {m : WhisperMessage} {seed : Bytes} {seeds : Nat → Bytes}
    {x : Write} (h : x ∈ (SessionCipher.decryptMsg w a m seed seeds).writes) :
    w.containsSession a = true ∧
    ∃ pt r', SessionCipher.decryptWithSessionRecord (w.loadSession a) m seed seeds = .ok (pt, r') ∧
      x = .session a r' := by
  unfold SessionCipher.decryptMsg at h
  obtain ⟨ws, c, h1, h2⟩ := Outcome.ofRes_writes h
  split at h1
  · cases h1
  · rename_i hc
    obtain ⟨⟨c', s⟩, h3, h4⟩ := bind_eq_ok.1 h1
    injection h4 with h4
    injection h4 with h4 h5
    subst h4
    simp only [List.mem_singleton] at h2
    exact ⟨by simpa using hc, c', s, h3, h2⟩

/-- What `processV3` returns. -/
theorem processV3_ok {w : World} {r : SessionRecord} {m : PreKeyWhisperMessage} {x : SessionRecord × Option Nat}
    (h : processV3 w r m = .ok x) :
    (r.hasSessionState m.version (Curve.serializePoint m.baseKey) = true ∧ x = (r, none)) ∨
    (r.hasSessionState m.version (Curve.serializePoint m.baseKey) = false ∧
      ∃ spk kp ot s0 s1 s2, w.loadSignedPreKey m.signedPreKeyId = .ok spk ∧
        SignedPreKeyRecord.getKeyPair spk = .ok kp ∧
        (m.preKeyId = none → ot = none) ∧
        (∀ id, m.preKeyId = some id → ∃ pk k, w.loadPreKey id = .ok pk ∧ PreKeyRecord.getKeyPair pk = .ok k ∧ ot = some k) ∧
        RatchetingSession.initializeSessionAsBob (archiveUnlessFresh r).sessionState
          { theirBaseKey := m.baseKey, theirIdentityKey := m.identityKey,
            ourIdentityKey := w.identityKeyPair, ourSignedPreKey := kp,
            ourRatchetKey := kp, ourOneTimePreKey := ot } = .ok s0 ∧
        setLocalRegistrationId s0 w.registrationId = .ok s1 ∧
        setRemoteRegistrationId s1 m.registrationId = .ok s2 ∧
        x.1 = (archiveUnlessFresh r).setState (setAliceBaseKey s2 (Curve.serializePoint m.baseKey)) ∧
        x.2 = (match m.preKeyId with
                | none => none
                | some id => if id ≠ Medium.MAX_VALUE then some id else none)) := by
  unfold processV3 at h
  split at h
  · rename_i hh
    injection h with h
    exact Or.inl ⟨hh, h.symm⟩
  · rename_i hh
    right
    refine ⟨by simpa using hh, ?_⟩
    obtain ⟨spk, h1, h⟩ := bind_eq_ok.1 h
    obtain ⟨kp, h2, h⟩ := bind_eq_ok.1 h
    cases hp : m.preKeyId with
    | none =>
      rw [hp] at h
      simp only [ok_bind] at h
      obtain ⟨s0, h3, h⟩ := bind_eq_ok.1 h
      obtain ⟨s1, h4, h⟩ := bind_eq_ok.1 h
      obtain ⟨s2, h5, h⟩ := bind_eq_ok.1 h
      replace h := Except.ok.inj h
      subst h
      exact ⟨spk, kp, none, s0, s1, s2, h1, h2, fun _ => rfl, fun _ h => (by cases h), h3, h4, h5, rfl, rfl⟩
    | some id =>
      rw [hp] at h
      simp only at h
      obtain ⟨pk, hpk, h⟩ := bind_eq_ok.1 h
      obtain ⟨k, hk, h⟩ := bind_eq_ok.1 h
      simp only [ok_bind] at h
      obtain ⟨s0, h3, h⟩ := bind_eq_ok.1 h
      obtain ⟨s1, h4, h⟩ := bind_eq_ok.1 h
      obtain ⟨s2, h5, h⟩ := bind_eq_ok.1 h
      replace h := Except.ok.inj h
      subst h
      refine ⟨spk, kp, some k, s0, s1, s2, h1, h2, fun h => (by cases h), ?_, h3, h4, h5, rfl, rfl⟩
      intro id' hid
      injection hid with hid
      subst hid
      exact ⟨pk, k, hpk, hk, rfl⟩

/-- The possible outcomes of `decryptPkmsg`. -/
theorem decryptPkmsg_cases (w : World) (a : Address) (m : PreKeyWhisperMessage) (seed : Bytes) (seeds : Nat → Bytes) :
    (w.isTrusted a.1 m.identityKey = false ∧
      SessionCipher.decryptPkmsg w a m seed seeds = ⟨[], .error .untrustedIdentity⟩) ∨
    (w.isTrusted a.1 m.identityKey = true ∧
      ((∃ e, processV3 w (w.loadSession a) m = .error e ∧
          SessionCipher.decryptPkmsg w a m seed seeds = ⟨[], .error e⟩) ∨
       (∃ r u e, processV3 w (w.loadSession a) m = .ok (r, u) ∧
          SessionCipher.decryptWithSessionRecord r m.message seed seeds = .error e ∧
          SessionCipher.decryptPkmsg w a m seed seeds = ⟨[.identity a.1 m.identityKey], .error e⟩) ∨
       (∃ r u pt r', processV3 w (w.loadSession a) m = .ok (r, u) ∧
          SessionCipher.decryptWithSessionRecord r m.message seed seeds = .ok (pt, r') ∧
          SessionCipher.decryptPkmsg w a m seed seeds =
            ⟨[.identity a.1 m.identityKey, .session a r'] ++ (u.map Write.removePreKey).toList, .ok pt⟩))) := by
  unfold SessionCipher.decryptPkmsg SessionBuilder.process
  cases ht : w.isTrusted a.1 m.identityKey with
  | false => left; exact ⟨rfl, rfl⟩
  | true =>
    right
    refine ⟨rfl, ?_⟩
    simp only [Bool.not_true, Bool.false_eq_true, if_false]
    cases hv : processV3 w (w.loadSession a) m with
    | error e => left; exact ⟨e, rfl, rfl⟩
    | ok x =>
      right
      obtain ⟨r, u⟩ := x
      cases hd : SessionCipher.decryptWithSessionRecord r m.message seed seeds with
      | error e => left; exact ⟨r, u, e, rfl, hd, by simp only [hd]⟩
      | ok y => right; exact ⟨r, u, y.1, y.2, rfl, hd, by simp only [hd, List.cons_append, List.nil_append]⟩

/-- What a successful `processPreKeyBundle` did. -/
theorem processPreKeyBundle_writes {w : World} {a : Address} {b : PreKeyBundle} {bs rs : Bytes} {x : Write}
    (h : x ∈ (processPreKeyBundle w a b bs rs).writes) :
    w.isTrusted a.1 b.identityKey = true ∧
    ∃ k s0 s1 s2 s3, b.signedPreKey = some k ∧
      Curve.verifySignature b.identityKey (Curve.serializePoint k) b.signedPreKeySignature = .ok true ∧
      RatchetingSession.initializeSessionAsAlice {}
            { ourBaseKey := Curve.generateKeyPair bs, ourIdentityKey := w.identityKeyPair,
              theirIdentityKey := b.identityKey, theirSignedPreKey := k,
              theirRatchetKey := k, theirOneTimePreKey := b.preKey } rs = .ok s0 ∧
      setUnacknowledgedPreKeyMessage s0 (b.preKey.map fun _ => b.preKeyId) b.signedPreKeyId
        (Curve.generateKeyPair bs).pub = .ok s1 ∧
      setLocalRegistrationId s1 w.registrationId = .ok s2 ∧
      setRemoteRegistrationId s2 b.registrationId = .ok s3 ∧
      (processPreKeyBundle w a b bs rs).writes =
        [.session a ((archiveUnlessFresh (w.loadSession a)).setState
            (setAliceBaseKey s3 (Curve.serializePoint (Curve.generateKeyPair bs).pub))),
         .identity a.1 b.identityKey] ∧
      (processPreKeyBundle w a b bs rs).result = .ok () := by
  unfold processPreKeyBundle at h ⊢
  obtain ⟨ws, c, h1, h2⟩ := Outcome.ofRes_writes h
  rw [h1]
  split at h1
  · cases h1
  · rename_i ht
    refine ⟨by simpa using ht, ?_⟩
    split at h1
    · cases h1
    · rename_i k hk
      obtain ⟨ok, hok, h1⟩ := bind_eq_ok.1 h1
      split at h1
      · cases h1
      · rename_i hb
        obtain ⟨s0, h3, h1⟩ := bind_eq_ok.1 h1
        obtain ⟨s1, h4, h1⟩ := bind_eq_ok.1 h1
        obtain ⟨s2, h5, h1⟩ := bind_eq_ok.1 h1
        obtain ⟨s3, h6, h1⟩ := bind_eq_ok.1 h1
        replace h1 := Except.ok.inj h1
        injection h1 with h1 h1'
        subst h1
        rw [archive_load_state] at h3
        have : ok = true := by simpa using hb
        subst this
        exact ⟨k, s0, s1, s2, s3, hk, hok, h3, h4, h5, h6, rfl, rfl⟩

/-- What a writing `processInitiate` did. -/
theorem processInitiate_writes {w : World} {a : Address} {m : KeyExchangeMessage} {rnd : InitiateRand} {x : Write}
    (h : x ∈ (processInitiate w a m rnd).writes) :
    Curve.verifySignature m.identityKey (Curve.serializePoint m.baseKey) m.baseKeySignature = .ok true ∧
    ∃ p s, RatchetingSession.initializeSession {} p rnd.sendSeed = .ok s ∧
      p.theirBaseKey = m.baseKey ∧ p.theirRatchetKey = m.ratchetKey ∧ p.theirIdentityKey = m.identityKey ∧
      (processInitiate w a m rnd).writes =
        [.session a ((archiveUnlessFresh (w.loadSession a)).setState s), .identity a.1 m.identityKey] := by
  unfold processInitiate at h ⊢
  cases hs : processInitiateState w a m rnd with
  | error e => rw [hs] at h; simp at h
  | ok y =>
    clear h
    unfold processInitiateState at hs
    obtain ⟨ok, hok, hs⟩ := bind_eq_ok.1 hs
    split at hs
    · cases hs
    · rename_i hb
      have : ok = true := by simpa using hb
      subst this
      refine ⟨hok, ?_⟩
      obtain ⟨r, flags, p⟩ := y
      dsimp only at hs
      split at hs
      · simp only [ok_bind] at hs
        obtain ⟨s, h3, hs⟩ := bind_eq_ok.1 hs
        replace hs := Except.ok.inj hs
        injection hs with h4 h5
        injection h5 with h5 h6
        subst h4; subst h6
        rw [archive_load_state] at h3
        exact ⟨_, s, h3, rfl, rfl, rfl, rfl⟩
      · obtain ⟨ik, _, hs⟩ := bind_eq_ok.1 hs
        obtain ⟨bk, _, hs⟩ := bind_eq_ok.1 hs
        obtain ⟨rk, _, hs⟩ := bind_eq_ok.1 hs
        simp only [ok_bind] at hs
        obtain ⟨s, h3, hs⟩ := bind_eq_ok.1 hs
        replace hs := Except.ok.inj hs
        injection hs with h4 h5
        injection h5 with h5 h6
        subst h4; subst h6
        rw [archive_load_state] at h3
        exact ⟨_, s, h3, rfl, rfl, rfl, rfl⟩

/-- What a writing `processResponse` did. -/
theorem processResponse_writes {w : World} {a : Address} {m : KeyExchangeMessage} {seed : Bytes} {x : Write}
    (h : x ∈ (processResponse w a m seed).writes) :
    Curve.verifySignature m.identityKey (Curve.serializePoint m.baseKey) m.baseKeySignature = .ok true ∧
    hasPendingKeyExchange (w.loadSession a).sessionState = true ∧
    getPendingKeyExchangeSequence (w.loadSession a).sessionState = m.sequence ∧
    ∃ p s, RatchetingSession.initializeSession {} p seed = .ok s ∧
      getPendingKeyExchangeBaseKey (w.loadSession a).sessionState = .ok p.ourBaseKey ∧
      getPendingKeyExchangeRatchetKey (w.loadSession a).sessionState = .ok p.ourRatchetKey ∧
      getPendingKeyExchangeIdentityKey (w.loadSession a).sessionState = .ok p.ourIdentityKey ∧
      p.theirBaseKey = m.baseKey ∧ p.theirRatchetKey = m.ratchetKey ∧ p.theirIdentityKey = m.identityKey ∧
      (processResponse w a m seed).writes =
        [.session a ((archiveUnlessFresh (w.loadSession a)).setState s), .identity a.1 m.identityKey] := by
  unfold processResponse at h ⊢
  simp only at h ⊢
  split at h
  · split at h <;> simp at h
  · rename_i hc
    have hc' : hasPendingKeyExchange (w.loadSession a).sessionState = true ∧
        getPendingKeyExchangeSequence (w.loadSession a).sessionState = m.sequence := by
      simpa using hc
    rw [if_neg hc]
    obtain ⟨ws, c, h1, h2⟩ := Outcome.ofRes_writes h
    rw [h1]
    obtain ⟨bk, hbk, h1⟩ := bind_eq_ok.1 h1
    obtain ⟨rk, hrk, h1⟩ := bind_eq_ok.1 h1
    obtain ⟨ik, hik, h1⟩ := bind_eq_ok.1 h1
    obtain ⟨s, hs, h1⟩ := bind_eq_ok.1 h1
    obtain ⟨ok, hok, h1⟩ := bind_eq_ok.1 h1
    split at h1
    · cases h1
    · rename_i hb
      have : ok = true := by simpa using hb
      subst this
      replace h1 := Except.ok.inj h1
      injection h1 with h1 h1'
      subst h1
      rw [archive_load_state] at hs
      exact ⟨hok, hc'.1, hc'.2, _, s, hs, hbk, hrk, hik, rfl, rfl, rfl, rfl⟩

theorem initKeyExchange_writes {w : World} {a : Address} {q : Nat} {bs rs ss : Bytes} {x : Write}
    (h : x ∈ (processInitKeyExchangeMessage w a q bs rs ss).writes) :
    ∃ s, setPendingKeyExchange (w.loadSession a).sessionState (q + 1) (Curve.generateKeyPair bs)
        (Curve.generateKeyPair rs) w.identityKeyPair = .ok s ∧
      (processInitKeyExchangeMessage w a q bs rs ss).writes = [.session a ((w.loadSession a).setState s)] := by
  unfold processInitKeyExchangeMessage at h ⊢
  simp only at h ⊢
  split at h
  · simp at h
  · rename_i sig r heq
    obtain ⟨sg, _, heq⟩ := bind_eq_ok.1 heq
    obtain ⟨s, hs, heq⟩ := bind_eq_ok.1 heq
    replace heq := Except.ok.inj heq
    injection heq with h1 h2
    subst h2
    exact ⟨s, hs, rfl⟩

/-- Every session write of every call is a step from the loaded record at the call's own address. -/
theorem run_session_write {w : World} {c : Call} {a : Address} {r' : SessionRecord}
    (h : .session a r' ∈ (c.run w).writes) : a = c.addr ∧ RecStep (w.loadSession a) r' := by
  cases c with
  | encrypt b pt =>
    obtain ⟨c, s, h1, h2⟩ := encrypt_writes h
    injection h2 with h2 h3
    subst h2; subst h3
    exact ⟨rfl, .encrypt h1⟩
  | decryptMsg b m seed seeds =>
    obtain ⟨_, c, s, h1, h2⟩ := decryptMsg_writes h
    injection h2 with h2 h3
    subst h2; subst h3
    exact ⟨rfl, .decrypt h1⟩
  | decryptPkmsg b m seed seeds =>
    simp only [Call.run, Call.mapOutcome] at h
    rcases decryptPkmsg_cases w b m seed seeds with ⟨_, he⟩ | ⟨_, ⟨e, _, he⟩ | ⟨r, u, e, _, _, he⟩ | ⟨r, u, pt, r2, hv, hd, he⟩⟩
    · rw [he] at h; simp at h
    · rw [he] at h; simp at h
    · rw [he] at h; simp at h
    · rw [he] at h
      have : a = b ∧ r' = r2 := by
        cases u <;> simpa using h
      obtain ⟨rfl, rfl⟩ := this
      refine ⟨rfl, ?_⟩
      rcases processV3_ok hv with ⟨_, hx⟩ | ⟨_, spk, kp, ot, s0, s1, s2, _, _, _, _, h0, h1, h2, hx, _⟩
      · injection hx with hx _
        subst hx
        exact .decrypt hd
      · simp only at hx
        subst hx
        rw [archive_load_state] at h0
        exact .createDecrypt (.bob h0 h1 h2) hd
  | processBundle b bu s1 s2 =>
    simp only [Call.run, Call.mapOutcome] at h
    obtain ⟨_, k, s0, s1, s2, s3, _, _, h0, h1, h2, h3, hw, _⟩ := processPreKeyBundle_writes h
    rw [hw] at h
    simp only [List.mem_cons, Write.session.injEq, List.not_mem_nil, or_false, reduceCtorEq] at h
    obtain ⟨rfl, rfl⟩ := h
    exact ⟨rfl, .create (.alice h0 h1 h2 h3)⟩
  | processKeyExchange b m rnd =>
    simp only [Call.run, Call.mapOutcome, processKeyExchangeMessage] at h
    split at h
    · simp at h
    · split at h
      · obtain ⟨_, p, s, hs, _, _, _, hw⟩ := processInitiate_writes h
        rw [hw] at h
        simp only [List.mem_cons, Write.session.injEq, List.not_mem_nil, or_false, reduceCtorEq] at h
        obtain ⟨rfl, rfl⟩ := h
        exact ⟨rfl, .create (.sym hs)⟩
      · obtain ⟨_, _, _, p, s, hs, _, _, _, _, _, _, hw⟩ := processResponse_writes h
        rw [hw] at h
        simp only [List.mem_cons, Write.session.injEq, List.not_mem_nil, or_false, reduceCtorEq] at h
        obtain ⟨rfl, rfl⟩ := h
        exact ⟨rfl, .create (.sym hs)⟩
  | initKeyExchange b q s1 s2 s3 =>
    simp only [Call.run, Call.mapOutcome] at h
    obtain ⟨s, hs, hw⟩ := initKeyExchange_writes h
    rw [hw] at h
    simp only [List.mem_singleton, Write.session.injEq] at h
    obtain ⟨rfl, rfl⟩ := h
    exact ⟨rfl, .pending hs⟩

omit C in
/-- The sessions after a list of writes: the old record or one of the written ones. -/
theorem applyAll_sessions {ws : List Write} : ∀ {w : World} {a : Address},
    (w.applyAll ws).sessions a = w.sessions a ∨
    ∃ r, .session a r ∈ ws ∧ (w.applyAll ws).sessions a = some r := by
  induction ws with
  | nil => intro w a; exact Or.inl rfl
  | cons x ws ih =>
    intro w a
    rcases ih (w := w.apply x) (a := a) with h | ⟨r, hr, h⟩
    · cases x with
      | session b r =>
        by_cases hb : a = b
        · subst hb
          right
          refine ⟨r, by simp, ?_⟩
          show ((w.apply _).applyAll ws).sessions a = _
          rw [h]
          simp [World.apply, upd]
        · left
          show ((w.apply _).applyAll ws).sessions a = _
          rw [h]
          simp [World.apply, upd, hb]
      | identity n k => left; exact h
      | removePreKey i => left; exact h
    · right; exact ⟨r, by simp [hr], h⟩

/-- What one call does to the session of an address: nothing, or a step. -/
theorem next_session (w : World) (c : Call) (a : Address) :
    (c.next w).sessions a = w.sessions a ∨
    ∃ r, (c.next w).sessions a = some r ∧ a = c.addr ∧ RecStep (w.loadSession a) r := by
  unfold Call.next Outcome.final
  rcases applyAll_sessions (ws := (c.run w).writes) (w := w) (a := a) with h | ⟨r, hr, h⟩
  · exact Or.inl h
  · obtain ⟨h1, h2⟩ := run_session_write hr
    exact Or.inr ⟨r, h, h1, h2⟩

/-- Invariants of records: closed under steps, true of the empty record. -/
theorem reachable_record {P : SessionRecord → Prop} (h0 : P {})
    (hfresh : ∀ r, P r → P { r with fresh := false })
    (hstep : ∀ r r', P r → RecStep r r' → P r') :
    ∀ (cs : List Call) (w : World), (∀ a r, w.sessions a = some r → P r) →
      ∀ a r, (Call.after w cs).sessions a = some r → P r := by
  intro cs
  induction cs with
  | nil => intro w hw a r h; exact hw a r h
  | cons c cs ih =>
    intro w hw a r h
    refine ih (c.next w) ?_ a r h
    intro a r hr
    rcases next_session w c a with h1 | ⟨r', h1, _, h2⟩
    · rw [h1] at hr; exact hw a r hr
    · rw [h1] at hr
      injection hr with hr
      subst hr
      refine hstep _ _ ?_ h2
      unfold World.loadSession
      cases hs : w.sessions a with
      | none => exact h0
      | some r0 => exact hfresh _ (hw a r0 hs)

/-! ## Decryption with a record -/

/-- What a successful `decryptWithSessionRecord` did: the current state decrypted, or an archived one did
after all states before it were refused with `InvalidMessage`. -/
theorem tryPrevious_ok {r : SessionRecord} {m : WhisperMessage} {seeds : Nat → Bytes} {pt : Bytes} {r' : SessionRecord} :
    ∀ {rest : List SessionState} {i : Nat}, SessionCipher.tryPrevious r m seeds rest i = .ok (pt, r') →
    ∃ k p s, rest[k]? = some p ∧ SessionCipher.decryptWithSessionState p m (seeds (i + k)) = .ok (pt, s) ∧
      (∀ k' p', k' < k → rest[k']? = some p' →
        SessionCipher.decryptWithSessionState p' m (seeds (i + k')) = .error .invalidMessage) ∧
      r' = SessionRecord.promoteState { r with previousStates := r.previousStates.eraseIdx (i + k) } s := by
  intro rest
  induction rest with
  | nil => intro i h; simp [SessionCipher.tryPrevious] at h
  | cons p rest ih =>
    intro i h
    unfold SessionCipher.tryPrevious at h
    split at h
    · rename_i pt' s hd
      replace h := Except.ok.inj h
      injection h with h1 h2
      subst h1
      exact ⟨0, p, s, rfl, hd, fun k' p' hk => absurd hk (by omega), h2.symm⟩
    · rename_i hd
      obtain ⟨k, p', s, hk, hd', hall, hr⟩ := ih h
      refine ⟨k + 1, p', s, hk, by rw [← Nat.add_assoc, Nat.add_right_comm]; exact hd', ?_,
        by rw [← Nat.add_assoc, Nat.add_right_comm]; exact hr⟩
      intro k' p'' hk' hp
      cases k' with
      | zero => simp only [List.getElem?_cons_zero, Option.some.injEq] at hp; subst hp; exact hd
      | succ k' =>
        have := hall k' p'' (by omega) hp
        rw [← Nat.add_assoc, Nat.add_right_comm]; exact this
    · cases h

theorem dwsr_ok {r : SessionRecord} {m : WhisperMessage} {seed : Bytes} {seeds : Nat → Bytes} {pt : Bytes}
    {r' : SessionRecord} (h : SessionCipher.decryptWithSessionRecord r m seed seeds = .ok (pt, r')) :
    (∃ s, SessionCipher.decryptWithSessionState r.sessionState m seed = .ok (pt, s) ∧ r' = r.setState s) ∨
    (SessionCipher.decryptWithSessionState r.sessionState m seed = .error .invalidMessage ∧
      ∃ k p s, r.previousStates[k]? = some p ∧
        SessionCipher.decryptWithSessionState p m (seeds k) = .ok (pt, s) ∧
        (∀ k' p', k' < k → r.previousStates[k']? = some p' →
          SessionCipher.decryptWithSessionState p' m (seeds k') = .error .invalidMessage) ∧
        r' = SessionRecord.promoteState { r with previousStates := r.previousStates.eraseIdx k } s) := by
  unfold SessionCipher.decryptWithSessionRecord at h
  split at h
  · rename_i pt' s hd
    replace h := Except.ok.inj h
    injection h with h1 h2
    subst h1
    exact Or.inl ⟨s, hd, h2.symm⟩
  · rename_i hd
    right
    refine ⟨hd, ?_⟩
    obtain ⟨k, p, s, h1, h2, h3, h4⟩ := tryPrevious_ok h
    simp only [Nat.zero_add] at h2 h3 h4
    exact ⟨k, p, s, h1, h2, h3, h4⟩
  · cases h

/-! ## Invariants of session states -/

/-- A predicate kept by everything the library does to a session state. -/
structure StateInv (P : SessionState → Prop) : Prop where
  empty : P {}
  created : ∀ s, Created s → P s
  encrypt : ∀ s pt c s', P s → SessionCipher.encryptWithState s pt = .ok (c, s') → P s'
  decrypt : ∀ s m seed pt s', P s → SessionCipher.decryptWithSessionState s m seed = .ok (pt, s') → P s'
  pending : ∀ s q a b c s', P s → setPendingKeyExchange s q a b c = .ok s' → P s'

/-- All states of a record satisfy `P`. -/
def SessionRecord.All (P : SessionState → Prop) (r : SessionRecord) : Prop :=
  P r.sessionState ∧ ∀ s ∈ r.previousStates, P s

omit C in
theorem SessionRecord.All.promote {P : SessionState → Prop} {r : SessionRecord} (h : r.All P) {s : SessionState}
    (hs : P s) : (r.promoteState s).All P := by
  refine ⟨hs, ?_⟩
  intro x hx
  unfold SessionRecord.promoteState at hx
  simp only at hx
  have hmem : x ∈ r.sessionState :: r.previousStates := by
    split at hx
    · exact (List.dropLast_sublist _).subset hx
    · exact hx
  rcases List.mem_cons.1 hmem with h1 | h1
  · exact h1 ▸ h.1
  · exact h.2 x h1

theorem SessionRecord.All.decrypt {P : SessionState → Prop} (hP : StateInv P) {r : SessionRecord} (h : r.All P)
    {m : WhisperMessage} {seed : Bytes} {seeds : Nat → Bytes} {pt : Bytes} {r' : SessionRecord}
    (hd : SessionCipher.decryptWithSessionRecord r m seed seeds = .ok (pt, r')) : r'.All P := by
  rcases dwsr_ok hd with ⟨s, h1, h2⟩ | ⟨_, k, p, s, h1, h2, _, h4⟩
  · subst h2
    exact ⟨hP.decrypt _ _ _ _ _ h.1 h1, h.2⟩
  · subst h4
    refine SessionRecord.All.promote (r := { r with previousStates := r.previousStates.eraseIdx k }) ⟨h.1, ?_⟩ (hP.decrypt _ _ _ _ _ (h.2 p (List.mem_of_getElem? h1)) h2)
    intro x hx
    exact h.2 x (List.mem_of_mem_eraseIdx hx)

theorem SessionRecord.All.archive {P : SessionState → Prop} (hP : StateInv P) {r : SessionRecord} (h : r.All P) :
    (archiveUnlessFresh r).All P := by
  unfold archiveUnlessFresh
  split
  · exact h.promote hP.empty
  · exact h

theorem SessionRecord.All.step {P : SessionState → Prop} (hP : StateInv P) {r r' : SessionRecord} (h : r.All P)
    (hs : RecStep r r') : r'.All P := by
  cases hs with
  | encrypt he => exact ⟨hP.encrypt _ _ _ _ h.1 he, h.2⟩
  | decrypt hd => exact h.decrypt hP hd
  | create hc => exact ⟨hP.created _ hc, (h.archive hP).2⟩
  | createDecrypt hc hd =>
    exact SessionRecord.All.decrypt hP (r := (archiveUnlessFresh r).setState _) ⟨hP.created _ hc, (h.archive hP).2⟩ hd
  | pending hp => exact ⟨hP.pending _ _ _ _ _ _ h.1 hp, h.2⟩

/-- Every state of every stored record of a reachable world satisfies an invariant. -/
theorem reachable_all {P : SessionState → Prop} (hP : StateInv P) (w : World) (hw : w.NoSessions) (cs : List Call)
    (a : Address) (r : SessionRecord) (h : (Call.after w cs).sessions a = some r) : r.All P := by
  refine reachable_record (P := fun r => r.All P) ⟨hP.empty, by intro s hs; cases hs⟩
    (fun r h => h) (fun r r' h hs => h.step hP hs) cs w ?_ a r h
  intro a r h
  rw [hw a] at h
  cases h

end
end Axolotl
