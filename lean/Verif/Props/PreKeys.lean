import Verif.Props.Records

/-! # C27, C28: one-time prekeys and repeated prekey messages; C36: new sessions -/

namespace Axolotl
section
variable [C : Crypto]
open SessionState SessionBuilder

/-- Whether the peer's stored record already has a session started with this base key. -/
def Spec.alreadyKnown (w : World) (a : Address) (m : PreKeyWhisperMessage) : Prop :=
  ∃ r, w.sessions a = some r ∧ Spec.knowsBaseKey r m.version m.baseKey

omit C in
theorem hasSessionState_iff (r : SessionRecord) (v : Nat) (k : ECPub) :
    r.hasSessionState v (Curve.serializePoint k) = true ↔ Spec.knowsBaseKey r v k := by
  have hm : ∀ s, SessionRecord.stateMatches v (Curve.serializePoint k) s = true ↔
      ((match s.sessionVersion with | none => 2 | some 0 => 2 | some v => v) = v ∧
        s.aliceBaseKey.getD [] = 5 :: k) := by
    intro s
    unfold SessionRecord.stateMatches
    rw [stateVersion_eq]
    simp only [Bool.and_eq_true, beq_iff_eq]
    refine and_congr Iff.rfl ?_
    exact eq_comm
  unfold SessionRecord.hasSessionState Spec.knowsBaseKey Spec.states
  simp only [Bool.or_eq_true, List.any_eq_true, List.mem_cons, hm]
  constructor
  · rintro (h | ⟨s, h1, h2⟩)
    · exact ⟨_, Or.inl rfl, h⟩
    · exact ⟨s, Or.inr h1, h2⟩
  · rintro ⟨s, rfl | h1, h2⟩
    · exact Or.inl h2
    · exact Or.inr ⟨s, h1, h2⟩

omit C in
theorem loaded_known (w : World) (a : Address) (m : PreKeyWhisperMessage) :
    (w.loadSession a).hasSessionState m.version (Curve.serializePoint m.baseKey) = true ↔ Spec.alreadyKnown w a m := by
  rw [hasSessionState_iff]
  unfold Spec.alreadyKnown World.loadSession
  cases h : w.sessions a with
  | none =>
    constructor
    · rintro ⟨s, hs, _, h2⟩
      simp only [Spec.states, List.mem_cons, List.not_mem_nil, or_false] at hs
      subst hs
      simp at h2
    · rintro ⟨r, hr, _⟩; cases hr
  | some r =>
    constructor
    · intro h; exact ⟨r, rfl, h⟩
    · rintro ⟨r', hr, h⟩
      injection hr with hr
      subst hr
      exact h

/-! ## C27 -/

/-- **C27.** A one-time prekey is removed exactly when the prekey message was accepted, started a session
not known before, and names that prekey; the last-resort id is never removed. -/
theorem C27_removed_iff (w : World) (a : Address) (m : PreKeyWhisperMessage) (seed : Bytes) (seeds : Nat → Bytes)
    (id : Nat) :
    .removePreKey id ∈ (SessionCipher.decryptPkmsg w a m seed seeds).writes ↔
      (∃ pt, (SessionCipher.decryptPkmsg w a m seed seeds).result = .ok pt) ∧ ¬ Spec.alreadyKnown w a m ∧
      m.preKeyId = some id ∧ id ≠ 0xFFFFFF := by
  rcases decryptPkmsg_cases w a m seed seeds with ⟨_, h⟩ | ⟨_, ⟨e, _, h⟩ | ⟨r, u, e, _, _, h⟩ | ⟨r, u, pt, r', hp, _, h⟩⟩
  · rw [h]; simp
  · rw [h]; simp
  · rw [h]; simp
  · rw [h]
    rcases processV3_ok hp with ⟨hk, hx⟩ | ⟨hk, _, _, _, _, _, _, _, _, _, _, _, _, _, _, hu⟩
    · injection hx with _ hu
      subst hu
      constructor
      · intro h; simp at h
      · rintro ⟨_, h, _⟩; exact absurd ((loaded_known w a m).1 hk) h
    · simp only at hu
      have hk' : ¬ Spec.alreadyKnown w a m := by
        rw [← loaded_known, hk]; simp
      subst hu
      cases hm : m.preKeyId with
      | none => simp
      | some j =>
        by_cases hj : j = Medium.MAX_VALUE
        · subst hj
          simp only [ne_eq, not_true, if_false]
          constructor
          · intro h; simp at h
          · rintro ⟨_, _, h, h'⟩
            injection h with h
            exact absurd h.symm h'
        · simp only [ne_eq, hj, not_false_eq_true, if_true]
          constructor
          · intro h
            simp only [Option.map_some, Option.toList_some, List.mem_append, List.mem_cons, List.not_mem_nil,
              or_false, reduceCtorEq, false_or, Write.removePreKey.injEq] at h
            subst h
            exact ⟨⟨pt, rfl⟩, hk', rfl, hj⟩
          · rintro ⟨_, _, h, _⟩
            injection h with h
            subst h
            simp

omit C in
theorem applyAll_preKeys {ws : List Write} : ∀ {w : World} {i : Nat},
    (w.applyAll ws).preKeys i = if .removePreKey i ∈ ws then none else w.preKeys i := by
  induction ws with
  | nil => intro w i; simp [World.applyAll]
  | cons x ws ih =>
    intro w i
    show ((w.apply x).applyAll ws).preKeys i = _
    rw [ih]
    cases x with
    | session b r => simp [World.apply]
    | identity n k => simp [World.apply]
    | removePreKey j =>
      by_cases hj : i = j
      · subst hj; simp [World.apply, upd]
      · simp [World.apply, upd, hj]

/-- **C27.** The prekey store after a prekey message: unchanged except for the one named prekey. -/
theorem C27_only_the_named (w : World) (a : Address) (m : PreKeyWhisperMessage) (seed : Bytes)
    (seeds : Nat → Bytes) (id : Nat) :
    let o := SessionCipher.decryptPkmsg w a m seed seeds
    (o.final w).preKeys id = none ∧ (∃ pt, o.result = .ok pt) ∧ ¬ Spec.alreadyKnown w a m ∧ m.preKeyId = some id ∧
        id ≠ 0xFFFFFF ∧ (w.preKeys id).isSome ∨
    (o.final w).preKeys id = w.preKeys id ∧ ¬ ((∃ pt, o.result = .ok pt) ∧ ¬ Spec.alreadyKnown w a m ∧
        m.preKeyId = some id ∧ id ≠ 0xFFFFFF) := by
  intro o
  have hi := C27_removed_iff w a m seed seeds id
  have hf : (o.final w).preKeys id = if .removePreKey id ∈ o.writes then none else w.preKeys id := applyAll_preKeys
  by_cases hm : .removePreKey id ∈ o.writes
  · left
    rw [if_pos hm] at hf
    obtain ⟨h1, h2, h3, h4⟩ := hi.1 hm
    refine ⟨hf, h1, h2, h3, h4, ?_⟩
    rcases decryptPkmsg_cases w a m seed seeds with ⟨_, h⟩ | ⟨_, ⟨e, _, h⟩ | ⟨r, u, e, _, _, h⟩ | ⟨r, u, pt, r', hp, _, h⟩⟩
    · rw [h] at h1; obtain ⟨_, h1⟩ := h1; cases h1
    · rw [h] at h1; obtain ⟨_, h1⟩ := h1; cases h1
    · rw [h] at h1; obtain ⟨_, h1⟩ := h1; cases h1
    · rcases processV3_ok hp with ⟨hk, hx⟩ | ⟨hk, _, _, _, _, _, _, _, _, _, hpk, _⟩
      · exact absurd ((loaded_known w a m).1 hk) h2
      · obtain ⟨pk, k, hl, _⟩ := hpk id h3
        unfold World.loadPreKey at hl
        cases hw : w.preKeys id with
        | none => rw [hw] at hl; cases hl
        | some _ => rfl
  · right
    rw [if_neg hm] at hf
    exact ⟨hf, fun h => hm (hi.2 h)⟩

/-- **C27.** A prekey message that names a one-time prekey that is no longer in the store, and does not
belong to a known session, is refused; no session is stored and no prekey removed. -/
theorem C27_consumed_refused (w : World) (a : Address) (m : PreKeyWhisperMessage) (seed : Bytes)
    (seeds : Nat → Bytes) (id : Nat) (hid : m.preKeyId = some id) (hno : w.preKeys id = none)
    (hk : ¬ Spec.alreadyKnown w a m) :
    (∃ e, (SessionCipher.decryptPkmsg w a m seed seeds).result = .error e) ∧
    (SessionCipher.decryptPkmsg w a m seed seeds).writes = [] := by
  have hk' : (w.loadSession a).hasSessionState m.version (Curve.serializePoint m.baseKey) = true → False :=
    fun h => hk ((loaded_known w a m).1 h)
  have contra : ∀ r u, processV3 w (w.loadSession a) m = .ok (r, u) → False := by
    intro r u hp
    rcases processV3_ok hp with ⟨h, _⟩ | ⟨_, _, _, _, _, _, _, _, _, _, hpk, _⟩
    · exact hk' h
    · obtain ⟨pk, k, hl, _⟩ := hpk id hid
      unfold World.loadPreKey at hl
      rw [hno] at hl
      cases hl
  rcases decryptPkmsg_cases w a m seed seeds with ⟨_, h⟩ | ⟨_, ⟨e, _, h⟩ | ⟨r, u, e, hp, _, h⟩ | ⟨r, u, pt, r', hp, _, h⟩⟩
  · rw [h]; exact ⟨⟨_, rfl⟩, rfl⟩
  · rw [h]; exact ⟨⟨_, rfl⟩, rfl⟩
  · exact (contra _ _ hp).elim
  · exact (contra _ _ hp).elim

/-- **C27.** A removed one-time prekey stays removed whatever calls follow. -/
theorem C27_stays_removed (cs : List Call) : ∀ (w : World) (id : Nat), w.preKeys id = none →
    (Call.after w cs).preKeys id = none := by
  induction cs with
  | nil => intro w id h; exact h
  | cons c cs ih =>
    intro w id h
    refine ih (c.next w) id ?_
    show (w.applyAll _).preKeys id = none
    rw [applyAll_preKeys, h]
    split <;> rfl

/-- **C27.** Only `decryptPkmsg` ever removes a prekey. -/
theorem C27_other_calls (w : World) (c : Call) (h : ∀ a m seed seeds, c ≠ .decryptPkmsg a m seed seeds) (id : Nat) :
    (c.next w).preKeys id = w.preKeys id := by
  show (w.applyAll _).preKeys id = _
  rw [applyAll_preKeys, if_neg]
  intro hm
  cases c with
  | encrypt b pt => obtain ⟨_, _, _, h2⟩ := encrypt_writes hm; cases h2
  | decryptMsg b m seed seeds => obtain ⟨_, _, _, _, h2⟩ := decryptMsg_writes hm; cases h2
  | decryptPkmsg b m seed seeds => exact h _ _ _ _ rfl
  | processBundle b bd s1 s2 =>
    have hm : .removePreKey id ∈ (processPreKeyBundle w b bd s1 s2).writes := hm
    obtain ⟨_, _, _, _, _, _, _, _, _, _, _, _, hw, _⟩ := processPreKeyBundle_writes hm
    rw [hw] at hm
    simp at hm
  | processKeyExchange b m rnd =>
    have hm : .removePreKey id ∈ (processKeyExchangeMessage w b m rnd).writes := hm
    unfold processKeyExchangeMessage at hm
    split at hm
    · simp at hm
    · split at hm
      · have hm' : .removePreKey id ∈ (processInitiate w b m rnd).writes := hm
        obtain ⟨_, _, _, _, _, _, _, hw⟩ := processInitiate_writes hm'
        rw [hw] at hm'
        simp at hm'
      · have hm' : .removePreKey id ∈ (processResponse w b m rnd.sendSeed).writes := hm
        obtain ⟨_, _, _, _, _, _, _, _, _, _, _, _, hw⟩ := processResponse_writes hm'
        rw [hw] at hm'
        simp at hm'
  | initKeyExchange b q s1 s2 s3 =>
    have hm : .removePreKey id ∈ (processInitKeyExchangeMessage w b q s1 s2 s3).writes := hm
    obtain ⟨_, _, hw⟩ := initKeyExchange_writes hm
    rw [hw] at hm
    simp at hm

/-! ## C28 -/

/-- **C28.** A prekey message from a trusted identity whose base key is already known is treated as the
message inside it: same result, same sessions afterwards; no prekey is removed. -/
theorem C28_repeated (w : World) (a : Address) (m : PreKeyWhisperMessage) (seed : Bytes) (seeds : Nat → Bytes)
    (ht : w.isTrusted a.1 m.identityKey = true) (hk : Spec.alreadyKnown w a m) :
    let o := SessionCipher.decryptPkmsg w a m seed seeds
    let o' := SessionCipher.decryptMsg w a m.message seed seeds
    o.result = o'.result ∧ (o.final w).sessions = (o'.final w).sessions ∧ (o.final w).preKeys = w.preKeys := by
  intro o o'
  have hp : processV3 w (w.loadSession a) m = .ok (w.loadSession a, none) := by
    unfold processV3
    rw [if_pos ((loaded_known w a m).2 hk)]
  have hc : w.containsSession a = true := by
    obtain ⟨r, hr, _⟩ := hk
    unfold World.containsSession; rw [hr]; rfl
  have hr : o.result = o'.result ∧ (o.final w).sessions = (o'.final w).sessions := by
    show (SessionCipher.decryptPkmsg w a m seed seeds).result = (SessionCipher.decryptMsg w a m.message seed seeds).result ∧
      (w.applyAll (SessionCipher.decryptPkmsg w a m seed seeds).writes).sessions =
      (w.applyAll (SessionCipher.decryptMsg w a m.message seed seeds).writes).sessions
    rcases decryptPkmsg_cases w a m seed seeds with ⟨h, _⟩ | ⟨_, ⟨e, h, _⟩ | ⟨r, u, e, h, hd, ho⟩ | ⟨r, u, pt, r', h, hd, ho⟩⟩
    · rw [ht] at h; cases h
    · rw [hp] at h; cases h
    · rw [hp] at h
      injection h with h
      injection h with h1 h2
      subst h1; subst h2
      unfold SessionCipher.decryptMsg
      rw [ho, hc, hd]
      exact ⟨rfl, rfl⟩
    · rw [hp] at h
      injection h with h
      injection h with h1 h2
      subst h1; subst h2
      unfold SessionCipher.decryptMsg
      rw [ho, hc, hd]
      exact ⟨rfl, rfl⟩
  refine ⟨hr.1, hr.2, ?_⟩
  funext i
  show (w.applyAll _).preKeys i = _
  rw [applyAll_preKeys, if_neg]
  intro hm
  exact ((C27_removed_iff w a m seed seeds i).1 hm).2.1 hk

/-- **C28.** It needs nothing from the prekey stores: with any other content the outcome is the same. -/
theorem C28_no_prekey_needed (w : World) (a : Address) (m : PreKeyWhisperMessage) (seed : Bytes)
    (seeds : Nat → Bytes) (hk : Spec.alreadyKnown w a m) (pks : Nat → Option PreKeyRecord)
    (spks : Nat → Option SignedPreKeyRecord) :
    SessionCipher.decryptPkmsg { w with preKeys := pks, signedPreKeys := spks } a m seed seeds =
    SessionCipher.decryptPkmsg w a m seed seeds := by
  have hp : ∀ w : World, Spec.alreadyKnown w a m →
      processV3 w (w.loadSession a) m = .ok (w.loadSession a, none) := by
    intro w hk
    unfold processV3
    rw [if_pos ((loaded_known w a m).2 hk)]
  unfold SessionCipher.decryptPkmsg SessionBuilder.process
  rw [hp w hk, hp { w with preKeys := pks, signedPreKeys := spks } hk]
  rfl

/-- **C28.** No second session: afterwards the record holds the same sessions, at most one of them
advanced, possibly in another order. -/
theorem C28_no_new_session (w : World) (a : Address) (m : PreKeyWhisperMessage) (seed : Bytes)
    (seeds : Nat → Bytes) (r : SessionRecord) (hr : w.sessions a = some r) (hl : r.previousStates.length ≤ 40)
    (hk : Spec.knowsBaseKey r m.version m.baseKey) :
    ∃ r', ((SessionCipher.decryptPkmsg w a m seed seeds).final w).sessions a = some r' ∧
      ∃ i x, (∀ s, (Spec.states r)[i]? = some s → Spec.SameSession s x) ∧
        ((Spec.states r).set i x).Perm (Spec.states r') := by
  have hsame : ∃ i x, (∀ s, (Spec.states r)[i]? = some s → Spec.SameSession s x) ∧
        ((Spec.states r).set i x).Perm (Spec.states r) := by
    refine ⟨(Spec.states r).length, {}, ?_, ?_⟩
    · intro s hs
      exact absurd (List.getElem?_eq_some_iff.1 hs).1 (Nat.lt_irrefl _)
    · rw [List.set_eq_of_length_le (Nat.le_refl _)]
  have hp : processV3 w (w.loadSession a) m = .ok (w.loadSession a, none) := by
    unfold processV3
    rw [if_pos ((loaded_known w a m).2 ⟨r, hr, hk⟩)]
  have hload : w.loadSession a = { r with fresh := false } := by unfold World.loadSession; rw [hr]
  show ∃ r', (w.applyAll (SessionCipher.decryptPkmsg w a m seed seeds).writes).sessions a = some r' ∧ _
  rcases decryptPkmsg_cases w a m seed seeds with ⟨_, ho⟩ | ⟨_, ⟨e, h, ho⟩ | ⟨r, u, e, h, hd, ho⟩ | ⟨r0, u, pt, r', h, hd, ho⟩⟩
  · rw [ho]; exact ⟨r, hr, hsame⟩
  · rw [ho]; exact ⟨r, hr, hsame⟩
  · rw [ho]; exact ⟨_, hr, hsame⟩
  · rw [hp, hload] at h
    injection h with h
    injection h with h1 h2
    subst h1; subst h2
    rw [ho]
    refine ⟨r', ?_, ?_⟩
    · simp [World.applyAll, World.apply, upd]
    · exact dwsr_kept (r := { r with fresh := false }) hd hl

/-! ## C36: setting up a new session -/

/-- **C36.** Processing a bundle makes the new session current and archives the former current one, first
in the list; at most the oldest beyond 40 is dropped. -/
theorem C36_new_session_bundle (w : World) (a : Address) (b : PreKeyBundle) (bs rs : Bytes)
    (h : (processPreKeyBundle w a b bs rs).result = .ok ()) :
    ∃ r' s, ((processPreKeyBundle w a b bs rs).final w).sessions a = some r' ∧
      s.aliceBaseKey = some (5 :: (Curve.generateKeyPair bs).pub) ∧ s.pendingPreKey.isSome ∧
      (w.sessions a = none → Spec.states r' = [s]) ∧
      (∀ r, w.sessions a = some r → r.previousStates.length ≤ 40 →
        Spec.states r' = s :: (Spec.states r).take 40) := by
  have h0 := Outcome.ofRes_ok h
  have hw : ∃ x, x ∈ (processPreKeyBundle w a b bs rs).writes := by
    unfold processPreKeyBundle
    revert h0
    generalize (Outcome.ofRes _).writes = ws
    intro h0
    split at h0
    · cases h0
    · split at h0
      · cases h0
      · obtain ⟨_, _, h0⟩ := bind_eq_ok.1 h0
        split at h0
        · cases h0
        · obtain ⟨_, _, h0⟩ := bind_eq_ok.1 h0
          obtain ⟨_, _, h0⟩ := bind_eq_ok.1 h0
          obtain ⟨_, _, h0⟩ := bind_eq_ok.1 h0
          obtain ⟨_, _, h0⟩ := bind_eq_ok.1 h0
          replace h0 := Except.ok.inj h0
          injection h0 with h0 _
          rw [← h0]
          exact ⟨_, List.mem_cons_self ..⟩
  obtain ⟨x, hx⟩ := hw
  obtain ⟨_, k, s0, s1, s2, s3, _, _, h1, h2, h3, h4, hws, _⟩ := processPreKeyBundle_writes hx
  refine ⟨(archiveUnlessFresh (w.loadSession a)).setState
      (setAliceBaseKey s3 (Curve.serializePoint (Curve.generateKeyPair bs).pub)),
    setAliceBaseKey s3 (Curve.serializePoint (Curve.generateKeyPair bs).pub), ?_, rfl, ?_, ?_, ?_⟩
  · show (w.applyAll _).sessions a = _
    rw [hws]
    simp [World.applyAll, World.apply, upd]
  · obtain ⟨p, _, _, _, _, _, _, rfl⟩ := setUnack_ok h2
    obtain ⟨_, _, _, rfl⟩ := setLocalRegistrationId_ok h3
    obtain ⟨_, _, _, rfl⟩ := setRemoteRegistrationId_ok h4
    rfl
  · intro hn
    unfold World.loadSession
    rw [hn]
    rfl
  · intro r hr hl
    unfold World.loadSession
    rw [hr]
    show _ :: (archiveUnlessFresh { r with fresh := false }).previousStates = _
    rw [archive_states (r := { r with fresh := false }) hl rfl]
    rfl

/-- **C36.** A prekey message that starts a session: the new one is set up in front of the 40 most recent
old ones, and then accepts the message, or one of the old ones does and becomes current. -/
theorem C36_new_session_prekey_message (w : World) (a : Address) (m : PreKeyWhisperMessage) (seed : Bytes)
    (seeds : Nat → Bytes) (pt : Bytes) (h : (SessionCipher.decryptPkmsg w a m seed seeds).result = .ok pt)
    (hk : ¬ Spec.alreadyKnown w a m) (r : SessionRecord) (hr : w.sessions a = some r)
    (hl : r.previousStates.length ≤ 40) :
    ∃ r' s, ((SessionCipher.decryptPkmsg w a m seed seeds).final w).sessions a = some r' ∧
      s.aliceBaseKey = some (5 :: m.baseKey) ∧
      ((Spec.SameSession s r'.sessionState ∧ r'.previousStates = (Spec.states r).take 40) ∨
       ∃ k p, ((Spec.states r).take 40)[k]? = some p ∧ Spec.SameSession p r'.sessionState ∧
         r'.previousStates = s :: ((Spec.states r).take 40).eraseIdx k) := by
  have hload : w.loadSession a = { r with fresh := false } := by unfold World.loadSession; rw [hr]
  have hfin : ∀ r' l, ((w.applyAll ([.identity a.1 m.identityKey, .session a r'] ++
      (Option.map Write.removePreKey l).toList)).sessions a) = some r' := by
    intro r' l
    cases l <;> simp [World.applyAll, World.apply, upd]
  rcases decryptPkmsg_cases w a m seed seeds with ⟨_, ho⟩ | ⟨_, ⟨e, _, ho⟩ | ⟨_, u, e, _, hd, ho⟩ | ⟨r0, u, pt', r', hp, hd, ho⟩⟩
  · rw [ho] at h; cases h
  · rw [ho] at h; cases h
  · rw [ho] at h; cases h
  · rcases processV3_ok hp with ⟨h, _⟩ | ⟨_, spk, kp, ot, s0, s1, s2, _, _, _, _, h1, h2, h3, hx, _⟩
    · exact absurd ((loaded_known w a m).1 h) hk
    · simp only at hx
      rw [hload] at hx
      have hst := archive_states (r := { r with fresh := false }) hl rfl
      have hprev : r0.previousStates = (Spec.states r).take 40 := by rw [hx]; exact hst
      have hcur : r0.sessionState = setAliceBaseKey s2 (Curve.serializePoint m.baseKey) := by rw [hx]; rfl
      refine ⟨r', r0.sessionState, ?_, by rw [hcur]; rfl, ?_⟩
      · show (w.applyAll (SessionCipher.decryptPkmsg w a m seed seeds).writes).sessions a = some r'
        rw [ho]
        exact hfin r' u
      · rcases dwsr_ok hd with ⟨s, g1, rfl⟩ | ⟨_, k, p, s, hk, g1, _, rfl⟩
        · exact Or.inl ⟨(dwss_same g1).1, hprev⟩
        · right
          rw [hprev] at hk
          refine ⟨k, p, hk, (dwss_same g1).1, ?_⟩
          have hpos := (List.getElem?_eq_some_iff.1 hk).1
          have hlen := List.length_eraseIdx_of_lt hpos
          show (if (r0.sessionState :: r0.previousStates.eraseIdx k).length > 40 then _ else _) = _
          rw [hprev, if_neg]
          rw [List.length_cons, hlen]
          rw [List.length_take] at hpos ⊢
          omega

end

/-! ## Non-vacuity -/

section
attribute [local instance] toy
open Example

/-- C27: Alice's first message makes Bob remove prekey 31. -/
example : .removePreKey 31 ∈ bobGot.writes ∧ (bob0.preKeys 31).isSome ∧ (bob1.preKeys 31).isNone := by
  decide +kernel

/-- C27: the same message is not accepted by a Bob who lost prekey 31 and has no session. -/
example : (SessionCipher.decryptPkmsg { bob0 with preKeys := fun _ => none } aliceAddr firstPk (key 51)
    (fun _ => key 52)).result = .error .invalidKeyId := by decide +kernel

/-- Alice's second message, again a prekey message. -/
def Example.secondPk : PreKeyWhisperMessage :=
  match (SessionCipher.encrypt alice2 bobAddr [104, 111]).result with
  | .ok (.preKey m) => m
  | _ => firstPk

/-- C28: its base key is known to Bob, who accepts it without prekey 31. -/
example : Spec.alreadyKnown bob1 aliceAddr secondPk :=
  (loaded_known bob1 aliceAddr secondPk).1 (by decide +kernel)
example : bob1.isTrusted aliceAddr.1 secondPk.identityKey = true ∧
    (SessionCipher.decryptPkmsg bob1 aliceAddr secondPk (key 53) (fun _ => key 54)).result = .ok [104, 111] := by
  decide +kernel

/-- C36: a bundle processed with a session already there; a prekey message for a second session. -/
example : (SessionBuilder.processPreKeyBundle alice2 bobAddr bobBundle (key 45) (key 46)).result = .ok () ∧
    Spec.states ((alice4.sessions bobAddr).getD {}) =
      ((alice4.sessions bobAddr).getD {}).sessionState :: Spec.states ((alice2.sessions bobAddr).getD {}) := by
  decide +kernel

def Example.bobBundle' : PreKeyBundle := { bobBundle with preKey := none }
def Example.alice5 : World :=
  (SessionBuilder.processPreKeyBundle alice2 bobAddr bobBundle' (key 45) (key 46)).final alice2
def Example.otherPk : PreKeyWhisperMessage :=
  match (SessionCipher.encrypt alice5 bobAddr [104, 111]).result with
  | .ok (.preKey m) => m
  | _ => firstPk
example : (SessionCipher.decryptPkmsg bob1 aliceAddr otherPk (key 53) (fun _ => key 54)).result = .ok [104, 111] ∧
    ((bob1.sessions aliceAddr).getD {}).hasSessionState 3 (5 :: otherPk.baseKey) = false := by decide +kernel

end
end Axolotl
