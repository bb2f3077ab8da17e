import Verif.Proofs.Shape
import Verif.Props.Builder
import Verif.Props.Session
import Verif.Props.PreKeys

/-! # C29: prekey messages until the first reply -/

namespace Axolotl
section
variable [C : Crypto]
open SessionState SessionBuilder Spec

/-- Calls that do not answer the session with `a`: calls for other peers, encrypting, starting a key exchange,
and messages or bundles that are refused. -/
inductive Spec.Unanswered (a : Address) (w : World) : Call → Prop
  | other {c : Call} : c.addr ≠ a → Unanswered a w c
  | encrypt {pt : Bytes} : Unanswered a w (.encrypt a pt)
  | init {q : Nat} {bs rs ss : Bytes} : Unanswered a w (.initKeyExchange a q bs rs ss)
  | refusedMsg {m : WhisperMessage} {seed : Bytes} {seeds : Nat → Bytes} {e : Err} :
      (SessionCipher.decryptMsg w a m seed seeds).result = .error e → Unanswered a w (.decryptMsg a m seed seeds)
  | refusedPkmsg {m : PreKeyWhisperMessage} {seed : Bytes} {seeds : Nat → Bytes} {e : Err} :
      (SessionCipher.decryptPkmsg w a m seed seeds).result = .error e → Unanswered a w (.decryptPkmsg a m seed seeds)
  | refusedBundle {b : PreKeyBundle} {bs rs : Bytes} {e : Err} :
      (processPreKeyBundle w a b bs rs).result = .error e → Unanswered a w (.processBundle a b bs rs)

/-- A history of such calls. -/
inductive Spec.UnansweredAll (a : Address) : World → List Call → Prop
  | nil {w : World} : UnansweredAll a w []
  | cons {w : World} {c : Call} {cs : List Call} : Unanswered a w c → UnansweredAll a (c.next w) cs →
      UnansweredAll a w (c :: cs)

/-- The current session with `a` still announces itself as `p`. -/
def StillAnnounces (p : PendingPreKeyS) (reg : Nat) (w : World) (a : Address) : Prop :=
  ∃ r, w.sessions a = some r ∧ r.sessionState.pendingPreKey = some p ∧ r.sessionState.localRegistrationId = some reg

theorem StillAnnounces.next {p : PendingPreKeyS} {reg : Nat} {w : World} {a : Address} (h : StillAnnounces p reg w a) {c : Call}
    (hc : Unanswered a w c) : StillAnnounces p reg (c.next w) a := by
  obtain ⟨r, hr, hp, hg⟩ := h
  have hload : w.loadSession a = { r with fresh := false } := by unfold World.loadSession; rw [hr]
  have keep : (c.next w).sessions a = w.sessions a → StillAnnounces p reg (c.next w) a :=
    fun he => ⟨r, by rw [he, hr], hp, hg⟩
  cases hc with
  | other hne => exact keep ((C30_isolation w c).1 a (fun e => hne e.symm))
  | @encrypt pt =>
    rcases next_session w (.encrypt a pt) a with he | ⟨r', he, _, _⟩
    · exact keep he
    · cases hres : (SessionCipher.encrypt w a pt).result with
      | error e =>
        apply keep
        show (w.applyAll (SessionCipher.encrypt w a pt).writes).sessions a = _
        have hnil : (SessionCipher.encrypt w a pt).writes = [] := (Outcome.ofRes_error hres).2
        rw [hnil]
        rfl
      | ok c =>
        have h0 := Outcome.ofRes_ok hres
        obtain ⟨⟨c', s'⟩, h1, h2⟩ := bind_eq_ok.1 h0
        replace h2 := Except.ok.inj h2
        injection h2 with h2 h3
        rw [hload] at h1
        obtain ⟨q1, _, q2, _⟩ := ews_same h1
        refine ⟨{ r with fresh := false, sessionState := s' }, ?_, by rw [← hp]; exact q2, by rw [← hg]; exact q1.2.2.2.2.1⟩
        have hw : (SessionCipher.encrypt w a pt).writes = [.session a ((w.loadSession a).setState s')] := h2.symm
        simp only [Call.next, Call.run, Call.mapOutcome, Outcome.final]
        rw [hw, hload]
        simp [World.applyAll, World.apply, upd, SessionRecord.setState]
  | @init q bs rs ss =>
    rcases next_session w (.initKeyExchange a q bs rs ss) a with he | ⟨r', he, _, _⟩
    · exact keep he
    · rcases applyAll_sessions (ws := (Call.run w (.initKeyExchange a q bs rs ss)).writes) (w := w) (a := a) with h | ⟨r1, h1, h2⟩
      · exact keep h
      · simp only [Call.run, Call.mapOutcome] at h1
        obtain ⟨s, hs, hw⟩ := initKeyExchange_writes h1
        rw [hw] at h1
        simp only [List.mem_singleton, Write.session.injEq] at h1
        obtain ⟨_, rfl⟩ := h1
        obtain ⟨_, rfl⟩ := setPending_ok hs
        rw [hload] at h2
        exact ⟨_, h2, hp, hg⟩
  | @refusedMsg m seed seeds e he =>
    apply keep
    show ((SessionCipher.decryptMsg w a m seed seeds).final w).sessions a = _
    rw [(C17_rejected_message w a m seed seeds e he).2]
  | @refusedPkmsg m seed seeds e he =>
    apply keep
    show ((SessionCipher.decryptPkmsg w a m seed seeds).final w).sessions a = _
    rw [(C18_rejected_prekey_message_partial w a m seed seeds e he).1]
  | @refusedBundle b bs rs e he =>
    apply keep
    show (w.applyAll (processPreKeyBundle w a b bs rs).writes).sessions a = _
    have hnil : (processPreKeyBundle w a b bs rs).writes = [] := (Outcome.ofRes_error he).2
    rw [hnil]
    rfl

theorem StillAnnounces.after {p : PendingPreKeyS} {reg : Nat} {a : Address} : ∀ {cs : List Call} {w : World},
    StillAnnounces p reg w a → UnansweredAll a w cs → StillAnnounces p reg (Call.after w cs) a := by
  intro cs
  induction cs with
  | nil => intro w h _; exact h
  | cons c cs ih =>
    intro w h hc
    cases hc with
    | cons h1 h2 => exact ih (h.next h1) h2

theorem bundle_wrote {w : World} {a : Address} {b : PreKeyBundle} {bs rs : Bytes}
    (h : (processPreKeyBundle w a b bs rs).result = .ok ()) : ∃ x, x ∈ (processPreKeyBundle w a b bs rs).writes := by
  have h1 := Outcome.ofRes_ok h
  change _ = Except.ok ((processPreKeyBundle w a b bs rs).writes, ()) at h1
  generalize (processPreKeyBundle w a b bs rs).writes = ws at h1
  split at h1
  · cases h1
  · split at h1
    · cases h1
    · obtain ⟨ok, hok, h1⟩ := bind_eq_ok.1 h1
      split at h1
      · cases h1
      · obtain ⟨s0, h3, h1⟩ := bind_eq_ok.1 h1
        obtain ⟨s1, h4, h1⟩ := bind_eq_ok.1 h1
        obtain ⟨s2, h5, h1⟩ := bind_eq_ok.1 h1
        obtain ⟨s3, h6, h1⟩ := bind_eq_ok.1 h1
        replace h1 := Except.ok.inj h1
        injection h1 with h1 _
        exact ⟨_, by rw [← h1]; exact List.mem_cons_self ..⟩

omit C in
theorem pkCreate_fields {v reg : Nat} {pk : Option Nat} {spk : Int} {bk ik : ECPub} {m : WhisperMessage}
    {pm : PreKeyWhisperMessage} (h : PreKeyWhisperMessage.create v reg pk spk bk ik m = .ok pm) :
    (pm.signedPreKeyId : Int) = spk ∧ pm.registrationId = reg ∧ pm.preKeyId = pk ∧ pm.baseKey = bk ∧
    pm.identityKey = ik ∧ pm.message = m ∧ pm.version = v := by
  unfold PreKeyWhisperMessage.create at h
  obtain ⟨spk', t1, h⟩ := bind_eq_ok.1 h
  obtain ⟨rg, t2, h⟩ := bind_eq_ok.1 h
  rw [chkU32_eq_ok] at t1 t2
  have e2 : rg = reg := by omega
  cases pk with
  | none =>
    simp only [ok_bind] at h
    obtain rfl := Except.ok.inj h
    exact ⟨t1.1.symm, e2, rfl, rfl, rfl, rfl, rfl⟩
  | some i =>
    simp only at h
    obtain ⟨n, t3, h⟩ := bind_eq_ok.1 h
    simp only [ok_bind] at h
    rw [chkU32_eq_ok] at t3
    obtain rfl := Except.ok.inj h
    exact ⟨t1.1.symm, e2, congrArg some (by omega), rfl, rfl, rfl, rfl⟩

/-- **C29**, before the answer.  After a bundle was processed, and whatever unanswered calls follow, every message
encrypted is a prekey message with the base key drawn for this bundle, the bundle's prekey ids, and this
side's identity key and registration id. -/
theorem C29_announced (hC : C.Lawful) (w : World) (a : Address) (b : PreKeyBundle) (baseSeed ratchetSeed : Bytes)
    (hs : baseSeed.length = 32) (h : (processPreKeyBundle w a b baseSeed ratchetSeed).result = .ok ())
    (cs : List Call) (hcs : UnansweredAll a ((processPreKeyBundle w a b baseSeed ratchetSeed).final w) cs)
    (pt : Bytes) (c : Ciphertext)
    (hc : (SessionCipher.encrypt (Call.after ((processPreKeyBundle w a b baseSeed ratchetSeed).final w) cs) a pt).result =
      .ok c) :
    ∃ m : PreKeyWhisperMessage, c = .preKey m ∧ m.baseKey = C.genPub (C.genPriv baseSeed) ∧
      (m.signedPreKeyId : Int) = b.signedPreKeyId ∧
      m.preKeyId.map (fun n : Nat => (n : Int)) = b.preKey.map (fun _ => b.preKeyId) ∧
      (m.registrationId : Int) = w.registrationId := by
  obtain ⟨x, hx⟩ := bundle_wrote h
  obtain ⟨_, k, s0, s1, s2, s3, _, _, h0, h1, h2, h3, hw, _⟩ := processPreKeyBundle_writes hx
  obtain ⟨secrets, rk', ck', _, _, e0⟩ := initAlice_ok h0
  obtain ⟨p, p1, p2, p3, p4, p5, p6, e1⟩ := setUnack_ok h1
  obtain ⟨reg, r1, r2, e2⟩ := setLocalRegistrationId_ok h2
  obtain ⟨_, _, _, e3⟩ := setRemoteRegistrationId_ok h3
  have hann : StillAnnounces p reg ((processPreKeyBundle w a b baseSeed ratchetSeed).final w) a := by
    refine ⟨(archiveUnlessFresh (w.loadSession a)).setState
      (setAliceBaseKey s3 (Curve.serializePoint (Curve.generateKeyPair baseSeed).pub)), ?_, ?_, ?_⟩
    · unfold Outcome.final; rw [hw]; simp [World.applyAll, World.apply, upd]
    · rw [e3, e2, e1]; rfl
    · rw [e3, e2]; rfl
  obtain ⟨r, hr, hp, hg⟩ := hann.after hcs
  have hload : (Call.after ((processPreKeyBundle w a b baseSeed ratchetSeed).final w) cs).loadSession a =
      { r with fresh := false } := by unfold World.loadSession; rw [hr]
  have g0 := Outcome.ofRes_ok hc
  obtain ⟨⟨c', s'⟩, g1, g2⟩ := bind_eq_ok.1 g0
  replace g2 := Except.ok.inj g2
  injection g2 with _ g3
  simp only at g3
  subst g3
  rw [hload] at g1
  obtain ⟨_, _, _, _, _, _, _, _, _, _, _, _, _, _, _, f, _⟩ := SessionCipher.ews_ok g1
  obtain ⟨items, pm, f1, f2, rfl⟩ := f (by unfold hasUnacknowledgedPreKeyMessage; rw [hp]; rfl)
  refine ⟨pm, rfl, ?_⟩
  unfold getUnacknowledgedPreKeyMessageItems at f1
  simp only [hp] at f1
  simp only [Option.getD_some, p1, p2, Option.getD_some] at f1
  rw [decodePoint_serializePoint (by
    show (C.genPub (C.genPriv baseSeed)).length ≤ 32
    rw [hC.genPub_len _ (hC.genPriv_len _ hs)]; omega)] at f1
  rw [ok_bind] at f1
  obtain rfl := Except.ok.inj f1
  obtain ⟨q1, q2, q3, q4, _⟩ := pkCreate_fields f2
  refine ⟨q4, q1, ?_, ?_⟩
  · rw [q3]
    show p.preKeyId.map _ = _
    cases hb : b.preKey with
    | none =>
      have := p5 (by rw [hb]; rfl)
      rw [this, e0]; rfl
    | some k' =>
      obtain ⟨n, g4, _, g5⟩ := p6 b.preKeyId (by rw [hb]; rfl)
      rw [g5, g4]; rfl
  · rw [q2, r1]
    unfold getLocalRegistrationId
    simp only [hg, Option.getD_some]

/-- What a call other than a bundle leaves in a session that no longer announces itself. -/
theorem answered_next {w : World} {a : Address} {r : SessionRecord} (hr : w.sessions a = some r)
    (hp : r.sessionState.pendingPreKey = none) {c : Call}
    (hc : ∀ b bs rs, c = .processBundle a b bs rs → ∃ e, (processPreKeyBundle w a b bs rs).result = .error e) :
    ∃ r', (c.next w).sessions a = some r' ∧ r'.sessionState.pendingPreKey = none := by
  have hload : w.loadSession a = { r with fresh := false } := by unfold World.loadSession; rw [hr]
  have hdec : ∀ {r0 : SessionRecord} {m : WhisperMessage} {seed : Bytes} {seeds : Nat → Bytes} {pt : Bytes}
      {r1 : SessionRecord}, SessionCipher.decryptWithSessionRecord r0 m seed seeds = .ok (pt, r1) →
      r1.sessionState.pendingPreKey = none := by
    intro r0 m seed seeds pt r1 h
    rcases dwsr_ok h with ⟨s, h1, h2⟩ | ⟨_, k, p, s, _, h2, _, h4⟩
    · rw [h2]; exact (dwss_same h1).2.2
    · rw [h4]; exact (dwss_same h2).2.2
  have hsym : ∀ {p : SymmetricParameters} {seed : Bytes} {s : SessionState},
      RatchetingSession.initializeSession {} p seed = .ok s → s.pendingPreKey = none := by
    intro p seed s h
    rcases initSession_ok h with ⟨_, h1⟩ | ⟨_, h1⟩
    · obtain ⟨_, _, _, _, _, rfl⟩ := initAlice_ok h1; rfl
    · obtain ⟨_, _, rfl⟩ := initBob_ok h1; rfl
  rcases applyAll_sessions (ws := (c.run w).writes) (w := w) (a := a) with h | ⟨r', h, h'⟩
  · exact ⟨r, by rw [← hr]; exact h, hp⟩
  · refine ⟨r', h', ?_⟩
    cases c with
    | encrypt b pt =>
      obtain ⟨c, s, h1, h2⟩ := encrypt_writes h
      injection h2 with h2 h3
      subst h2; subst h3
      rw [hload] at h1
      exact (ews_same h1).2.2.1.trans hp
    | decryptMsg b m seed seeds =>
      obtain ⟨_, c, s, h1, h2⟩ := decryptMsg_writes h
      injection h2 with h2 h3
      subst h3
      exact hdec h1
    | decryptPkmsg b m seed seeds =>
      simp only [Call.run, Call.mapOutcome] at h
      rcases decryptPkmsg_cases w b m seed seeds with ⟨_, he⟩ | ⟨_, ⟨e, _, he⟩ | ⟨r, u, e, _, _, he⟩ | ⟨r, u, pt, r2, hv, hd, he⟩⟩
      · rw [he] at h; simp at h
      · rw [he] at h; simp at h
      · rw [he] at h; simp at h
      · rw [he] at h
        have : a = b ∧ r' = r2 := by
          cases u <;> simpa using h
        rw [this.2]
        exact hdec hd
    | processBundle b bu s1 s2 =>
      obtain ⟨rfl, _⟩ := run_session_write h
      obtain ⟨e, he⟩ := hc bu s1 s2 rfl
      have hnil : (processPreKeyBundle w a bu s1 s2).writes = [] := (Outcome.ofRes_error he).2
      simp only [Call.run, Call.mapOutcome] at h
      rw [hnil] at h
      cases h
    | processKeyExchange b m rnd =>
      simp only [Call.run, Call.mapOutcome, processKeyExchangeMessage] at h
      split at h
      · simp at h
      · split at h
        · obtain ⟨_, p, s, hs, _, _, _, hw⟩ := processInitiate_writes h
          rw [hw] at h
          simp only [List.mem_cons, Write.session.injEq, List.not_mem_nil, or_false, reduceCtorEq] at h
          rw [h.2]; exact hsym hs
        · obtain ⟨_, _, _, p, s, hs, _, _, _, _, _, _, hw⟩ := processResponse_writes h
          rw [hw] at h
          simp only [List.mem_cons, Write.session.injEq, List.not_mem_nil, or_false, reduceCtorEq] at h
          rw [h.2]; exact hsym hs
    | initKeyExchange b q s1 s2 s3 =>
      simp only [Call.run, Call.mapOutcome] at h
      obtain ⟨s, hs, hw⟩ := initKeyExchange_writes h
      rw [hw] at h
      simp only [List.mem_singleton, Write.session.injEq] at h
      obtain ⟨rfl, rfl⟩ := h
      obtain ⟨_, rfl⟩ := setPending_ok hs
      rw [hload]
      exact hp

/-- A history in which no bundle for `a` is accepted. -/
inductive Spec.NoBundle (a : Address) : World → List Call → Prop
  | nil {w : World} : NoBundle a w []
  | cons {w : World} {c : Call} {cs : List Call} :
      (∀ b bs rs, c = .processBundle a b bs rs → ∃ e, (processPreKeyBundle w a b bs rs).result = .error e) →
      NoBundle a (c.next w) cs → NoBundle a w (c :: cs)

theorem answered_after {a : Address} : ∀ {cs : List Call} {w : World} {r : SessionRecord}, w.sessions a = some r →
    r.sessionState.pendingPreKey = none → NoBundle a w cs →
    ∃ r', (Call.after w cs).sessions a = some r' ∧ r'.sessionState.pendingPreKey = none := by
  intro cs
  induction cs with
  | nil => intro w r hr hp _; exact ⟨r, hr, hp⟩
  | cons c cs ih =>
    intro w r hr hp h
    cases h with
    | cons h1 h2 =>
      obtain ⟨r', g1, g2⟩ := answered_next hr hp h1
      exact ih g1 g2 h2

theorem whisper_of_answered {w : World} {a : Address} {r : SessionRecord} (hr : w.sessions a = some r)
    (hp : r.sessionState.pendingPreKey = none) {pt : Bytes} {c : Ciphertext}
    (hc : (SessionCipher.encrypt w a pt).result = .ok c) : ∃ m, c = .whisper m := by
  have hload : w.loadSession a = { r with fresh := false } := by unfold World.loadSession; rw [hr]
  have g0 := Outcome.ofRes_ok hc
  obtain ⟨⟨c', s'⟩, g1, g2⟩ := bind_eq_ok.1 g0
  replace g2 := Except.ok.inj g2
  injection g2 with _ g3
  simp only at g3
  subst g3
  rw [hload] at g1
  obtain ⟨_, _, _, _, _, m, _, _, _, _, _, _, _, _, f, _⟩ := SessionCipher.ews_ok g1
  exact ⟨m, f (by unfold hasUnacknowledgedPreKeyMessage; rw [hp]; rfl)⟩

/-- **C29**, after the answer.  Once a message (of either kind) was decrypted on the session, every message
encrypted is an ordinary one, whatever calls come in between, unless a new bundle is accepted. -/
theorem C29_answered (w : World) (a : Address) (cs : List Call) (pt' : Bytes) (c : Ciphertext) :
    (∀ (m : WhisperMessage) (seed : Bytes) (seeds : Nat → Bytes) (pt : Bytes),
      (SessionCipher.decryptMsg w a m seed seeds).result = .ok pt →
      NoBundle a ((SessionCipher.decryptMsg w a m seed seeds).final w) cs →
      (SessionCipher.encrypt (Call.after ((SessionCipher.decryptMsg w a m seed seeds).final w) cs) a pt').result = .ok c →
      ∃ m', c = .whisper m') ∧
    (∀ (m : PreKeyWhisperMessage) (seed : Bytes) (seeds : Nat → Bytes) (pt : Bytes),
      (SessionCipher.decryptPkmsg w a m seed seeds).result = .ok pt →
      NoBundle a ((SessionCipher.decryptPkmsg w a m seed seeds).final w) cs →
      (SessionCipher.encrypt (Call.after ((SessionCipher.decryptPkmsg w a m seed seeds).final w) cs) a pt').result =
        .ok c → ∃ m', c = .whisper m') := by
  have hdec : ∀ {r0 : SessionRecord} {m : WhisperMessage} {seed : Bytes} {seeds : Nat → Bytes} {pt : Bytes}
      {r1 : SessionRecord}, SessionCipher.decryptWithSessionRecord r0 m seed seeds = .ok (pt, r1) →
      r1.sessionState.pendingPreKey = none := by
    intro r0 m seed seeds pt r1 h
    rcases dwsr_ok h with ⟨s, h1, h2⟩ | ⟨_, k, p, s, _, h2, _, h4⟩
    · rw [h2]; exact (dwss_same h1).2.2
    · rw [h4]; exact (dwss_same h2).2.2
  constructor
  · intro m seed seeds pt h hn hc
    have h0 := Outcome.ofRes_ok h
    change _ = Except.ok ((SessionCipher.decryptMsg w a m seed seeds).writes, pt) at h0
    split at h0
    · cases h0
    · obtain ⟨⟨pt1, r1⟩, h1, h2⟩ := bind_eq_ok.1 h0
      replace h2 := Except.ok.inj h2
      injection h2 with h2 _
      have hs : ((SessionCipher.decryptMsg w a m seed seeds).final w).sessions a = some r1 := by
        unfold Outcome.final; rw [← h2]; simp [World.applyAll, World.apply, upd]
      obtain ⟨r', g1, g2⟩ := answered_after hs (hdec h1) hn
      exact whisper_of_answered g1 g2 hc
  · intro m seed seeds pt h hn hc
    rcases decryptPkmsg_cases w a m seed seeds with ⟨_, he⟩ | ⟨_, ⟨e, _, he⟩ | ⟨r, u, e, _, _, he⟩ | ⟨r, u, pt, r2, hv, hd, he⟩⟩
    · rw [he] at h; cases h
    · rw [he] at h; cases h
    · rw [he] at h; cases h
    · have hs : ((SessionCipher.decryptPkmsg w a m seed seeds).final w).sessions a = some r2 := by
        unfold Outcome.final; rw [he]
        cases u <;> simp [World.applyAll, World.apply, upd]
      obtain ⟨r', g1, g2⟩ := answered_after hs (hdec hd) hn
      exact whisper_of_answered g1 g2 hc

end

/-! ## Non-vacuity -/

section
attribute [local instance] toy
open Example Spec

/-- Alice processes Bob's bundle, encrypts, receives a forged reply and encrypts again: still a prekey message.
Bob's reply arrives: her next message is an ordinary one. -/
example : (SessionBuilder.processPreKeyBundle alice0 bobAddr bobBundle (key 41) (key 42)).result = .ok () ∧
    UnansweredAll bobAddr alice1 [.encrypt bobAddr [104, 105],
      .decryptMsg bobAddr { replyMsg with counter := 7 } (key 43) fun _ => key 44] ∧
    (SessionCipher.encrypt alice2 bobAddr [1]).result.toOption.any (fun c => decide (c.getType = 3)) = true ∧
    (SessionCipher.decryptMsg alice2 bobAddr replyMsg (key 43) fun _ => key 44).result = .ok [121, 111] ∧
    (SessionCipher.encrypt alice3 bobAddr [1]).result.toOption.any (fun c => decide (c.getType = 2)) = true :=
  ⟨by decide +kernel,
   .cons .encrypt (.cons (.refusedMsg (e := .invalidMessage) (by decide +kernel)) .nil),
   by decide +kernel, by decide +kernel, by decide +kernel⟩

end
end Axolotl
