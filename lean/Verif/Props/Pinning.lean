import Verif.Props.SetupState
import Verif.Props.Builder
import Verif.Props.Crash

/-!
# C57: pinned identities

If the application's trust callback never accepts a key that differs from the saved one (as the in-memory store does: trust
on first use), the saved identity of a name never changes, and every session of every device of that name is with it.
-/

namespace Axolotl
section
variable [C : Crypto]
open SessionState SessionBuilder Spec

omit C in
/-- The trust callback only accepts the saved key, or any key if none is saved. -/
def Spec.Pinning (w : World) : Prop :=
  ∀ saved n k, w.policy saved n k = true → saved n = none ∨ saved n = some k

omit C in
/-- A state without a session, or a session between the identities `me` and the one saved; and a pending exchange uses
the identity `me`. -/
def IdentityOk (saved : Option ECPub) (me : ECPub) (s : SessionState) : Prop :=
  ((s.remoteIdentityPublic = none ∧ s.localIdentityPublic = none) ∨
    ∃ k, saved = some k ∧ s.remoteIdentityPublic = some (5 :: k) ∧ s.localIdentityPublic = some (5 :: me)) ∧
  ∀ p, s.pendingKeyExchange = some p → p.localIdentityKey = some (5 :: me)

omit C in
theorem IdentityOk.of_same {saved : Option ECPub} {me : ECPub} {s s' : SessionState} (h : IdentityOk saved me s)
    (h1 : SameSession s s') (h2 : s'.pendingKeyExchange = s.pendingKeyExchange) : IdentityOk saved me s' := by
  unfold IdentityOk
  rw [h1.2.2.1, h1.2.1, h2]
  exact h

omit C in
theorem IdentityOk.empty (saved : Option ECPub) (me : ECPub) : IdentityOk saved me {} :=
  ⟨.inl ⟨rfl, rfl⟩, fun p hp => by cases hp⟩

omit C in
/-- All states of the record of an address. -/
def RecordOk (saved : Option ECPub) (me : ECPub) (r : SessionRecord) : Prop := ∀ s ∈ states r, IdentityOk saved me s

omit C in
theorem RecordOk.promote {saved : Option ECPub} {me : ECPub} {r : SessionRecord} (h : RecordOk saved me r)
    {s : SessionState} (hs : IdentityOk saved me s) : RecordOk saved me (r.promoteState s) := by
  have hall : r.All (IdentityOk saved me) := ⟨h _ (List.mem_cons_self ..), fun s hs => h s (List.mem_cons_of_mem _ hs)⟩
  obtain ⟨h1, h2⟩ := hall.promote hs
  intro x hx
  rcases List.mem_cons.1 hx with rfl | hx
  · exact h1
  · exact h2 x hx

omit C in
theorem RecordOk.set {saved : Option ECPub} {me : ECPub} {r : SessionRecord} (h : RecordOk saved me r)
    {s : SessionState} (hs : IdentityOk saved me s) : RecordOk saved me (r.setState s) := by
  intro x hx
  rcases List.mem_cons.1 hx with rfl | hx
  · exact hs
  · exact h x (List.mem_cons_of_mem _ hx)

omit C in
theorem RecordOk.archive {saved : Option ECPub} {me : ECPub} {r : SessionRecord} (h : RecordOk saved me r) :
    RecordOk saved me (archiveUnlessFresh r) := by
  unfold archiveUnlessFresh
  split
  · exact h.promote (IdentityOk.empty _ _)
  · exact h

theorem RecordOk.decrypt {saved : Option ECPub} {me : ECPub} {r r' : SessionRecord} (h : RecordOk saved me r)
    {m : WhisperMessage} {seed : Bytes} {seeds : Nat → Bytes} {pt : Bytes}
    (hd : SessionCipher.decryptWithSessionRecord r m seed seeds = .ok (pt, r')) : RecordOk saved me r' := by
  rcases dwsr_ok hd with ⟨s, h1, rfl⟩ | ⟨_, k, p, s, hk, h1, _, rfl⟩
  · obtain ⟨e1, e2, _⟩ := dwss_same h1
    exact h.set ((h _ (List.mem_cons_self ..)).of_same e1 e2)
  · obtain ⟨e1, e2, _⟩ := dwss_same h1
    refine RecordOk.promote (r := { r with previousStates := r.previousStates.eraseIdx k }) ?_
      ((h p (List.mem_cons_of_mem _ (List.mem_of_getElem? hk))).of_same e1 e2)
    intro x hx
    rcases List.mem_cons.1 hx with rfl | hx
    · exact h _ (List.mem_cons_self ..)
    · exact h x (List.mem_cons_of_mem _ (List.mem_of_mem_eraseIdx hx))

omit C in
theorem RecordOk.load {w : World} {a : Address} {me : ECPub}
    (h : ∀ r, w.sessions a = some r → RecordOk (w.identities a.1) me r) :
    RecordOk (w.identities a.1) me (w.loadSession a) := by
  unfold World.loadSession
  cases hr : w.sessions a with
  | none =>
    intro s hs
    rcases List.mem_cons.1 hs with rfl | hs
    · exact IdentityOk.empty _ _
    · cases hs
  | some r => exact h r hr

omit C in
theorem RecordOk.mono {saved : Option ECPub} {me k : ECPub} {r : SessionRecord} (h : RecordOk saved me r)
    (hs : saved = none ∨ saved = some k) : RecordOk (some k) me r := by
  intro s hm
  obtain ⟨h1, h2⟩ := h s hm
  refine ⟨?_, h2⟩
  rcases h1 with h1 | ⟨k', e, h1⟩
  · exact .inl h1
  · rcases hs with hs | hs
    · rw [hs] at e; cases e
    · rw [hs] at e; cases e; exact .inr ⟨k, rfl, h1⟩

/-- The identities of the state made by a key exchange. -/
theorem sym_identities {p : SymmetricParameters} {seed : Bytes} {s : SessionState}
    (h : RatchetingSession.initializeSession {} p seed = .ok s) :
    s.remoteIdentityPublic = some (5 :: p.theirIdentityKey) ∧ s.localIdentityPublic = some (5 :: p.ourIdentityKey.pub) ∧
    s.pendingKeyExchange = none := by
  rcases initSession_ok h with ⟨_, h⟩ | ⟨_, h⟩
  · obtain ⟨_, _, _, _, _, rfl⟩ := initAlice_ok h
    exact ⟨rfl, rfl, rfl⟩
  · obtain ⟨_, _, rfl⟩ := initBob_ok h
    exact ⟨rfl, rfl, rfl⟩

/-- What processing a key exchange message wrote, with our identity key. -/
theorem keyExchange_writes {w : World} {a : Address} {m : KeyExchangeMessage} {rnd : InitiateRand} {x : Write}
    (h : x ∈ (processKeyExchangeMessage w a m rnd).writes) :
    w.isTrusted a.1 m.identityKey = true ∧
    ∃ p s, RatchetingSession.initializeSession {} p rnd.sendSeed = .ok s ∧ p.theirIdentityKey = m.identityKey ∧
      (p.ourIdentityKey = w.identityKeyPair ∨
        (hasPendingKeyExchange (w.loadSession a).sessionState = true ∧
          getPendingKeyExchangeIdentityKey (w.loadSession a).sessionState = .ok p.ourIdentityKey)) ∧
      (processKeyExchangeMessage w a m rnd).writes =
        [.session a ((archiveUnlessFresh (w.loadSession a)).setState s), .identity a.1 m.identityKey] := by
  unfold processKeyExchangeMessage at h ⊢
  split at h
  · cases h
  rename_i htr
  refine ⟨by simpa using htr, ?_⟩
  rw [if_neg htr]
  split at h
  · rename_i hini
    rw [if_pos hini]
    unfold processInitiate at h ⊢
    cases hs : processInitiateState w a m rnd with
    | error e => rw [hs] at h; cases h
    | ok y =>
      clear h
      obtain ⟨r, flags, p⟩ := y
      unfold processInitiateState at hs
      obtain ⟨ok, _, hs⟩ := bind_eq_ok.1 hs
      split at hs
      · cases hs
      dsimp only at hs
      split at hs
      · simp only [ok_bind] at hs
        obtain ⟨s, h3, hs⟩ := bind_eq_ok.1 hs
        obtain ⟨u1, u2⟩ := Prod.mk.inj (Except.ok.inj hs)
        obtain ⟨u3, u4⟩ := Prod.mk.inj u2
        subst u1 u3 u4
        rw [archive_load_state] at h3
        exact ⟨_, s, h3, rfl, .inl rfl, rfl⟩
      · rename_i hp
        obtain ⟨ik, q1, hs⟩ := bind_eq_ok.1 hs
        obtain ⟨bk, q2, hs⟩ := bind_eq_ok.1 hs
        obtain ⟨rk, q3, hs⟩ := bind_eq_ok.1 hs
        simp only [ok_bind] at hs
        obtain ⟨s, h3, hs⟩ := bind_eq_ok.1 hs
        obtain ⟨u1, u2⟩ := Prod.mk.inj (Except.ok.inj hs)
        obtain ⟨u3, u4⟩ := Prod.mk.inj u2
        subst u1 u3 u4
        rw [archive_load_state] at h3
        exact ⟨_, s, h3, rfl, .inr ⟨by simpa using hp, q1⟩, rfl⟩
  · rename_i hini
    rw [if_neg hini]
    obtain ⟨_, hp, hsq, p, s, h3, k1, k2, k3, e1, e2, e3, hwr⟩ := processResponse_writes h
    exact ⟨p, s, h3, e3, .inr ⟨hp, k3⟩, hwr⟩

omit C in
theorem applyAll_identity (w : World) (a : Address) (r : SessionRecord) (k : ECPub) (n : String) :
    (w.applyAll [.session a r, .identity n k]).identities n = some k := by
  simp [World.applyAll, World.apply, upd]

/-- A key saved by a call is the saved key afterwards. -/
theorem identity_final {w : World} {c : Call} {n : String} {k : ECPub} (h : .identity n k ∈ (c.run w).writes) :
    (c.next w).identities n = some k := by
  unfold Call.next Outcome.final
  cases c with
  | encrypt b pt => obtain ⟨_, _, _, h2⟩ := encrypt_writes h; cases h2
  | decryptMsg b m seed seeds => obtain ⟨_, _, _, _, h2⟩ := decryptMsg_writes h; cases h2
  | decryptPkmsg b m seed seeds =>
    simp only [Call.run, Call.mapOutcome] at h ⊢
    rcases decryptPkmsg_cases w b m seed seeds with ⟨_, he⟩ | ⟨ht, ⟨e, _, he⟩ | ⟨r, u, e, _, _, he⟩ | ⟨r, u, pt, r2, _, _, he⟩⟩
    · rw [he] at h; simp at h
    · rw [he] at h; simp at h
    · rw [he] at h ⊢
      simp only [List.mem_singleton, Write.identity.injEq] at h
      obtain ⟨rfl, rfl⟩ := h
      simp [World.applyAll, World.apply, upd]
    · rw [he] at h ⊢
      have : n = b.1 ∧ k = m.identityKey := by cases u <;> simpa using h
      obtain ⟨rfl, rfl⟩ := this
      cases u <;> simp [World.applyAll, World.apply, upd]
  | processBundle b bu s1 s2 =>
    simp only [Call.run, Call.mapOutcome] at h ⊢
    obtain ⟨ht, _, _, _, _, _, _, _, _, _, _, _, hw, _⟩ := processPreKeyBundle_writes h
    rw [hw] at h ⊢
    simp only [List.mem_cons, Write.identity.injEq, List.not_mem_nil, or_false, reduceCtorEq, false_or] at h
    obtain ⟨rfl, rfl⟩ := h
    exact applyAll_identity ..
  | processKeyExchange b m rnd =>
    simp only [Call.run, Call.mapOutcome] at h ⊢
    obtain ⟨_, p, s, _, _, _, hw⟩ := keyExchange_writes h
    rw [hw] at h ⊢
    simp only [List.mem_cons, Write.identity.injEq, List.not_mem_nil, or_false, reduceCtorEq, false_or] at h
    obtain ⟨rfl, rfl⟩ := h
    exact applyAll_identity ..
  | initKeyExchange b q s1 s2 s3 =>
    simp only [Call.run, Call.mapOutcome] at h
    obtain ⟨s, hs, hw⟩ := initKeyExchange_writes h
    rw [hw] at h
    simp at h

omit C in
theorem applyAll_fixed (ws : List Write) : ∀ w : World, (w.applyAll ws).policy = w.policy ∧
    (w.applyAll ws).identityKeyPair = w.identityKeyPair := by
  induction ws with
  | nil => intro w; exact ⟨rfl, rfl⟩
  | cons x ws ih =>
    intro w
    obtain ⟨h1, h2⟩ := ih (w.apply x)
    have : (w.apply x).policy = w.policy ∧ (w.apply x).identityKeyPair = w.identityKeyPair := by
      cases x <;> exact ⟨rfl, rfl⟩
    exact ⟨h1.trans this.1, h2.trans this.2⟩

theorem next_fixed (w : World) (c : Call) : (c.next w).policy = w.policy ∧ (c.next w).identityKeyPair = w.identityKeyPair :=
  applyAll_fixed _ w

/-- One call: the saved key stays, or there was none. -/
theorem next_identity {w : World} (hp : Pinning w) (c : Call) (n : String) :
    (c.next w).identities n = w.identities n ∨ (w.identities n = none ∧ ∃ k, .identity n k ∈ (c.run w).writes) := by
  by_cases h : ∃ k, .identity n k ∈ (c.run w).writes
  · obtain ⟨k, hk⟩ := h
    have h1 := identity_final hk
    rcases hp _ _ _ (C24_saved_identity_was_trusted w c n k hk).2 with h2 | h2
    · exact .inr ⟨h2, k, hk⟩
    · left; rw [h1, h2]
  · left
    exact applyAll_identities (fun k hk => h ⟨k, hk⟩)

/-- The invariant. -/
def WorldOk (me : ECPub) (w : World) : Prop :=
  w.identityKeyPair.pub = me ∧ ∀ a r, w.sessions a = some r → RecordOk (w.identities a.1) me r

theorem WorldOk.written {me : ECPub} {w : World} (hw : WorldOk me w) (hme : me.length ≤ 32) (hp : Pinning w) {c : Call}
    {a : Address} {r' : SessionRecord} (h : .session a r' ∈ (c.run w).writes) :
    RecordOk ((c.next w).identities a.1) me r' := by
  have hload := RecordOk.load (a := a) (fun r hr => hw.2 a r hr)
  -- a record that only depends on the saved key of before
  have keep : RecordOk (w.identities a.1) me r' → RecordOk ((c.next w).identities a.1) me r' := by
    intro hr
    rcases next_identity hp c a.1 with h1 | ⟨h1, k, hk⟩
    · rw [h1]; exact hr
    · rw [identity_final hk]
      exact hr.mono (.inl h1)
  -- a new state between us and the saved key
  have fresh : ∀ (k : ECPub) (s : SessionState), .identity a.1 k ∈ (c.run w).writes →
      s.remoteIdentityPublic = some (5 :: k) → s.localIdentityPublic = some (5 :: me) → s.pendingKeyExchange = none →
      RecordOk ((c.next w).identities a.1) me ((archiveUnlessFresh (w.loadSession a)).setState s) := by
    intro k s hk e1 e2 e3
    rw [identity_final hk]
    refine RecordOk.set (hload.archive.mono (hp _ _ _ (C24_saved_identity_was_trusted w c a.1 k hk).2)) ?_
    exact ⟨.inr ⟨k, rfl, e1, e2⟩, fun p hp => by rw [e3] at hp; cases hp⟩
  cases c with
  | encrypt b pt =>
    obtain ⟨c, s, h1, h2⟩ := encrypt_writes h
    injection h2 with h2 h3
    subst h2; subst h3
    obtain ⟨e1, e2, _⟩ := ews_same h1
    exact keep (hload.set ((hload _ (List.mem_cons_self ..)).of_same e1 e2))
  | decryptMsg b m seed seeds =>
    obtain ⟨_, c, s, h1, h2⟩ := decryptMsg_writes h
    injection h2 with h2 h3
    subst h2; subst h3
    exact keep (hload.decrypt h1)
  | decryptPkmsg b m seed seeds =>
    have h0 := h
    simp only [Call.run, Call.mapOutcome] at h
    rcases decryptPkmsg_cases w b m seed seeds with ⟨_, he⟩ | ⟨_, ⟨e, _, he⟩ | ⟨r, u, e, _, _, he⟩ | ⟨r, u, pt, r2, hv, hd, he⟩⟩
    · rw [he] at h; simp at h
    · rw [he] at h; simp at h
    · rw [he] at h; simp at h
    · rw [he] at h
      have : a = b ∧ r' = r2 := by
        cases u <;> simpa using h
      obtain ⟨rfl, rfl⟩ := this
      rcases processV3_ok hv with ⟨_, hx⟩ | ⟨_, spk, kp, ot, s0, s1, s2, _, _, _, _, h0, h1, h2, hx, _⟩
      · injection hx with hx _
        subst hx
        exact keep (hload.decrypt hd)
      · simp only at hx
        subst hx
        rw [archive_load_state] at h0
        obtain ⟨_, _, rfl⟩ := initBob_ok h0
        obtain ⟨_, _, _, rfl⟩ := setLocalRegistrationId_ok h1
        obtain ⟨_, _, _, rfl⟩ := setRemoteRegistrationId_ok h2
        refine RecordOk.decrypt (fresh m.identityKey _ ?_ rfl ?_ rfl) hd
        · simp only [Call.run, Call.mapOutcome]
          rw [he]
          simp
        · show some (5 :: w.identityKeyPair.pub) = _
          rw [hw.1]
  | processBundle b bu s1 s2 =>
    have h0 := h
    simp only [Call.run, Call.mapOutcome] at h
    obtain ⟨_, k, t0, t1, t2, t3, _, _, g0, g1, g2, g3, hwr, _⟩ := processPreKeyBundle_writes h
    rw [hwr] at h
    simp only [List.mem_cons, Write.session.injEq, List.not_mem_nil, or_false, reduceCtorEq] at h
    obtain ⟨rfl, rfl⟩ := h
    obtain ⟨_, _, _, _, _, rfl⟩ := initAlice_ok g0
    obtain ⟨_, _, _, _, _, _, _, rfl⟩ := setUnack_ok g1
    obtain ⟨_, _, _, rfl⟩ := setLocalRegistrationId_ok g2
    obtain ⟨_, _, _, rfl⟩ := setRemoteRegistrationId_ok g3
    refine fresh bu.identityKey _ ?_ rfl ?_ rfl
    · simp only [Call.run, Call.mapOutcome]
      rw [hwr]
      simp
    · show some (5 :: w.identityKeyPair.pub) = _
      rw [hw.1]
  | processKeyExchange b m rnd =>
    have h0 := h
    simp only [Call.run, Call.mapOutcome] at h
    obtain ⟨_, p, s, hs, hth, hour, hwr⟩ := keyExchange_writes h
    rw [hwr] at h
    simp only [List.mem_cons, Write.session.injEq, List.not_mem_nil, or_false, reduceCtorEq] at h
    obtain ⟨rfl, rfl⟩ := h
    obtain ⟨i1, i2, i3⟩ := sym_identities hs
    refine fresh m.identityKey s ?_ (by rw [i1, hth]) ?_ i3
    · simp only [Call.run, Call.mapOutcome]
      rw [hwr]
      simp
    · rw [i2]
      rcases hour with hour | ⟨hpend, hour⟩
      · rw [hour, hw.1]
      · unfold hasPendingKeyExchange at hpend
        cases hq : (w.loadSession a).sessionState.pendingKeyExchange with
        | none => rw [hq] at hpend; cases hpend
        | some q =>
          have hl := (hload _ (List.mem_cons_self ..)).2 q hq
          unfold getPendingKeyExchangeIdentityKey at hour
          obtain ⟨k, hk, hour⟩ := bind_eq_ok.1 hour
          have hd : SessionState.pendingKED (w.loadSession a).sessionState = q := by
            unfold SessionState.pendingKED
            rw [hq]
            rfl
          rw [hd, hl] at hk
          obtain ⟨x, hx, hk'⟩ := KeyOf_iff.2 hk
          injection hx with hx
          injection hx with _ hx
          rw [← Except.ok.inj hour]
          show some (5 :: k) = _
          rw [hk', ← hx, List.take_of_length_le hme]
  | initKeyExchange b q s1 s2 s3 =>
    simp only [Call.run, Call.mapOutcome] at h
    obtain ⟨s, hs, hwr⟩ := initKeyExchange_writes h
    rw [hwr] at h
    simp only [List.mem_singleton, Write.session.injEq] at h
    obtain ⟨rfl, rfl⟩ := h
    obtain ⟨_, rfl⟩ := setPending_ok hs
    refine keep (hload.set ?_)
    refine ⟨(hload _ (List.mem_cons_self ..)).1, ?_⟩
    intro p hp
    have hp : some (Axolotl.pendingOf _ _ _ _) = some p := hp
    rw [← Option.some.inj hp]
    show some (5 :: w.identityKeyPair.pub) = _
    rw [hw.1]

theorem WorldOk.next {me : ECPub} {w : World} (hw : WorldOk me w) (hme : me.length ≤ 32) (hp : Pinning w) (c : Call) :
    WorldOk me (c.next w) := by
  refine ⟨by rw [(next_fixed w c).2]; exact hw.1, ?_⟩
  intro a r hr
  rcases applyAll_sessions (ws := (c.run w).writes) (w := w) (a := a) with h | ⟨r', hm, h⟩
  · have hr' : w.sessions a = some r := h.symm.trans hr
    rcases next_identity hp c a.1 with h1 | ⟨h1, k, hk⟩
    · rw [h1]; exact hw.2 a r hr'
    · rw [identity_final hk]
      exact (hw.2 a r hr').mono (.inl h1)
  · have : r' = r := Option.some.inj (h.symm.trans hr)
    subst this
    exact hw.written hme hp hm

theorem WorldOk.after {me : ECPub} (hme : me.length ≤ 32) : ∀ (cs : List Call) {w : World}, WorldOk me w → Pinning w →
    WorldOk me (Call.after w cs)
  | [], _, hw, _ => hw
  | c :: cs, w, hw, hp => by
    refine WorldOk.after hme cs (hw.next hme hp c) ?_
    unfold Pinning
    rw [(next_fixed w c).1]
    exact hp

/-- **C57.** A saved identity never changes. -/
theorem C57_pinned : ∀ (cs : List Call) (w : World), Pinning w → ∀ (n : String) (k : ECPub), w.identities n = some k →
    (Call.after w cs).identities n = some k
  | [], _, _, _, _, h => h
  | c :: cs, w, hp, n, k, h => by
    refine C57_pinned cs (c.next w) (by unfold Pinning; rw [(next_fixed w c).1]; exact hp) n k ?_
    rcases next_identity hp c n with h1 | ⟨h1, _⟩
    · rw [h1, h]
    · rw [h1] at h; cases h

/-- **C57.** Every session stored for any device of a name, current or archived, is between our identity and the one saved
for that name. -/
theorem C57_sessions (w0 : World) (hw : w0.NoSessions) (hp : Pinning w0) (hi : w0.identityKeyPair.pub.length ≤ 32)
    (cs : List Call) (a : Address) (r : SessionRecord) (hr : (Call.after w0 cs).sessions a = some r)
    (s : SessionS) (hs : s ∈ states r) (hk : s.remoteIdentityPublic ≠ none) :
    ∃ k, (Call.after w0 cs).identities a.1 = some k ∧ s.remoteIdentityPublic = some (5 :: k) ∧
      s.localIdentityPublic = some (5 :: w0.identityKeyPair.pub) := by
  have h0 : WorldOk w0.identityKeyPair.pub w0 := ⟨rfl, fun a r hr => by rw [hw a] at hr; cases hr⟩
  rcases ((WorldOk.after hi cs h0 hp).2 a r hr s hs).1 with ⟨h, _⟩ | ⟨k, h⟩
  · exact absurd h hk
  · exact ⟨k, h⟩

/-- **C57.** Every plaintext ever returned for an address came with a MAC over our identity and the saved identity of that
name. -/
theorem C57_plaintext (hC : C.Lawful) (w0 : World) (hw : w0.NoSessions) (hp : Pinning w0)
    (hi : w0.identityKeyPair.pub.length ≤ 32) (cs : List Call) (a : Address) (m : WhisperMessage) (seed : Bytes)
    (seeds : Nat → Bytes) (pt : Bytes) (h : (SessionCipher.decryptMsg (Call.after w0 cs) a m seed seeds).result = .ok pt) :
    ∃ k macKey body, (Call.after w0 cs).identities a.1 = some k ∧
      m.serialized = body ++ (C.hmac macKey ((5 :: k.take 32) ++ (5 :: w0.identityKeyPair.pub) ++ body)).take 8 := by
  obtain ⟨r, r', hr, _, hacc⟩ := C55_effect hC w0 hw cs a m seed seeds pt h
  have key : ∀ s ∈ states r, ∀ sd s', Accepts s m sd pt s' → ∃ k macKey body, (Call.after w0 cs).identities a.1 = some k ∧
      m.serialized = body ++ (C.hmac macKey ((5 :: k.take 32) ++ (5 :: w0.identityKeyPair.pub) ++ body)).take 8 := by
    intro s hs sd s' hA
    cases hA with
    | intro _ _ _ _ _ _ _ hth hm hser _ _ =>
      obtain ⟨x, hx, e1⟩ := hth
      obtain ⟨y, hy, e2⟩ := hm
      obtain ⟨k, g1, g2, g3⟩ := C57_sessions w0 hw hp hi cs a r hr s hs (by rw [hx]; exact fun h => by cases h)
      rw [hx] at g2
      rw [hy] at g3
      injection g2 with g2
      injection g2 with _ g2
      injection g3 with g3
      injection g3 with _ g3
      subst g2 g3
      rw [List.take_of_length_le hi] at e2
      subst e1 e2
      exact ⟨x, _, _, g1, hser⟩
  rcases hacc with ⟨hA, _⟩ | ⟨k, p, hk, hA, _⟩
  · exact key _ (List.mem_cons_self ..) _ _ hA
  · exact key _ (List.mem_cons_of_mem _ (List.mem_of_getElem? hk)) _ _ hA

/-- **C57.** Trust is decided when a session is set up: sending in, and reading from, an existing session ask for nothing but
the stored session.  Withdrawing trust in an identity does not stop its sessions. -/
theorem C57_not_rechecked (w w' : World) (a : Address) (h : w'.sessions a = w.sessions a) :
    (∀ pt, SessionCipher.encrypt w' a pt = SessionCipher.encrypt w a pt) ∧
    ∀ m seed seeds, SessionCipher.decryptMsg w' a m seed seeds = SessionCipher.decryptMsg w a m seed seeds := by
  constructor
  · intro pt
    unfold SessionCipher.encrypt World.loadSession
    rw [h]
  · intro m seed seeds
    unfold SessionCipher.decryptMsg World.containsSession World.loadSession
    rw [h]

omit C in
/-- Trust on first use, as the in-memory store implements it, pins identities. -/
theorem tofu_pins (w : World) (h : w.policy = tofu) : Pinning w := by
  intro saved n k hk
  rw [h] at hk
  unfold tofu at hk
  cases hs : saved n with
  | none => exact .inl rfl
  | some k' =>
    rw [hs] at hk
    right
    rw [eq_of_beq hk]

end

section
attribute [local instance] toy
open Example Spec

/-- A bundle signed by another identity. -/
def Example.evilBundle : PreKeyBundle :=
  { bobBundle with signedPreKeySignature := Toy.tag (key 9) (5 :: key 22), identityKey := key 9 }

/-- `C57_pinned`, `C57_sessions`, `C57_plaintext`: Alice's stores pin identities, a session is stored and a reply is read;
Bob's key is saved, and a bundle with another identity is refused. -/
example : Pinning alice0 ∧ alice0.NoSessions ∧ alice0.identityKeyPair.pub.length ≤ 32 ∧
    alice2.identities "bob" = some (key 2) ∧
    (alice2.sessions bobAddr).map (fun r => r.sessionState.remoteIdentityPublic) = some (some (5 :: key 2)) ∧
    (SessionCipher.decryptMsg alice2 bobAddr replyMsg (key 43) (fun _ => key 44)).result = .ok [121, 111] ∧
    (SessionBuilder.processPreKeyBundle alice2 ("bob", 2) evilBundle (key 45) (key 46)).result = .error .untrustedIdentity ∧
    (SessionBuilder.processPreKeyBundle alice0 ("bob", 2) evilBundle (key 45) (key 46)).result = .ok () :=
  ⟨tofu_pins _ rfl, fun _ => rfl, by decide, by decide +kernel, by decide +kernel, by decide +kernel, by decide +kernel,
    by decide +kernel⟩

/-- `C57_not_rechecked`: a store that trusts nobody any more still sends and reads. -/
example : (SessionCipher.encrypt { alice2 with policy := fun _ _ _ => false } bobAddr [1]).result =
      (SessionCipher.encrypt alice2 bobAddr [1]).result ∧
    (SessionCipher.decryptMsg { alice2 with policy := fun _ _ _ => false } bobAddr replyMsg (key 43)
      (fun _ => key 44)).result = .ok [121, 111] := by decide +kernel

/-- **C57 does not survive a crash**: `processPreKeyBundle` stores the session before it saves the identity.  If the process
dies in between, the key is not pinned: another identity is accepted later, and the record then holds sessions with two
different identities. -/
theorem C57_crash_false : ∃ (w : World) (c d : Call), Pinning w ∧ w.NoSessions ∧
    ((d.next (crashed w c 1)).sessions bobAddr).map
      (fun r => (states r).map fun s => s.remoteIdentityPublic) = some [some (5 :: key 9), some (5 :: key 2)] ∧
    (d.run (crashed w c 1)).result = .ok .done :=
  ⟨alice0, .processBundle bobAddr bobBundle (key 41) (key 42), .processBundle bobAddr evilBundle (key 45) (key 46),
    tofu_pins _ rfl, fun _ => rfl, by decide +kernel, by decide +kernel⟩

end
end Axolotl
