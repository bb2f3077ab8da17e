import Verif.Proofs.NoReuse
import Verif.Example

/-!
# C15: no header is sent twice
-/

namespace Axolotl
section
variable [C : Crypto]
open SessionState SessionBuilder Spec

theorem sent_nodup (hC : C.Lawful) : ∀ (cs : List Call) (w : World) (used : Address → ECPub → Prop)
    (all : ECPub → Prop) (L : List (Address × ECPub × Nat)), SendInv used L w → (∀ a k, used a k → all k) →
    (∀ c ∈ cs, SeedsOk c) → FreshFrom all w cs → ((L ++ sentMessages w cs).map Prod.snd).Nodup := by
  intro cs
  induction cs with
  | nil => intro w used all L h _ _ _; simpa [sentMessages] using h.nodup
  | cons c cs ih =>
    intro w used all L h hall hseeds hfresh
    obtain ⟨hnew, hfresh⟩ := hfresh
    have hn : ∀ k, NewKey w c k → ∀ a, ¬ used a k := fun k hk a hu => hnew k hk (hall a k hu)
    have quiet : (∀ a pt, c ≠ .encrypt a pt) → sentMessages w (c :: cs) = sentMessages (c.next w) cs →
        ((L ++ sentMessages w (c :: cs)).map Prod.snd).Nodup := by
      intro hq he
      rw [he]
      refine ih (c.next w) _ _ L (h.quiet hC (hseeds c (List.mem_cons_self ..)) hn hq) ?_
        (fun c hc => hseeds c (List.mem_cons_of_mem _ hc)) hfresh
      intro a k hk
      exact hk.imp (hall a k) fun hk => hk.2
    cases c with
    | encrypt a pt =>
      cases hm : (SessionCipher.encrypt w a pt).result with
      | error e =>
        have he : sentMessages w (.encrypt a pt :: cs) = sentMessages ((Call.encrypt a pt).next w) cs := by
          simp [sentMessages, hm]
        have hw : (Call.encrypt a pt).next w = w := (C16_encrypt_failed w a pt e hm).2
        rw [he]
        rw [hw] at hfresh ⊢
        exact ih w used _ L h (fun a k hk => Or.inl (hall a k hk)) (fun c hc => hseeds c (List.mem_cons_of_mem _ hc)) hfresh
      | ok m =>
        have he : sentMessages w (.encrypt a pt :: cs) =
            (a, m.inner.senderRatchetKey, m.inner.counter) :: sentMessages ((Call.encrypt a pt).next w) cs := by
          simp [sentMessages, hm]
        rw [he, show ∀ (x : Address × ECPub × Nat) l, L ++ x :: l = (L ++ [x]) ++ l by simp]
        exact ih _ used _ _ (h.encrypt hm) (fun a k hk => Or.inl (hall a k hk))
          (fun c hc => hseeds c (List.mem_cons_of_mem _ hc)) hfresh
    | decryptMsg => exact quiet (by simp) (by simp [sentMessages])
    | decryptPkmsg => exact quiet (by simp) (by simp [sentMessages])
    | processBundle => exact quiet (by simp) (by simp [sentMessages])
    | processKeyExchange => exact quiet (by simp) (by simp [sentMessages])
    | initKeyExchange => exact quiet (by simp) (by simp [sentMessages])

/-- **C15 (partial).** Starting without sessions, over any history of calls in which no ratchet key is started
to be used twice, no two messages returned by `encrypt` — to any peers — carry the same ratchet key and counter.

Missing from the full statement: that fresh random seeds alone guarantee the hypothesis.  They do not when a key
exchange is pending (`C15_false`); they do otherwise (`C15_random_partial`). -/
theorem C15_no_reuse_partial (hC : C.Lawful) (w : World) (hw : w.NoSessions) (cs : List Call)
    (hseeds : ∀ c ∈ cs, SeedsOk c) (hfresh : FreshFrom (fun _ => False) w cs) :
    ((sentMessages w cs).map Prod.snd).Nodup := by
  have h := sent_nodup hC cs w (fun _ _ => False) (fun _ => False) []
    ⟨fun a r h => (by rw [hw a] at h; cases h), fun _ _ _ h => (by cases h), fun _ _ _ h => h.elim, by simp⟩
    (fun _ _ h => h) hseeds hfresh
  simpa using h

/-- Answering a key exchange uses a ratchet key drawn now, or the one of the pending request. -/
theorem processInitiate_ours {w : World} {a : Address} {m : KeyExchangeMessage} {rnd : InitiateRand} {x : Write}
    (h : x ∈ (processInitiate w a m rnd).writes) :
    ∃ p s, RatchetingSession.initializeSession {} p rnd.sendSeed = .ok s ∧
      (p.ourRatchetKey = Curve.generateKeyPair rnd.ratchetSeed ∨
        hasPendingKeyExchange (w.loadSession a).sessionState = true ∧
        getPendingKeyExchangeRatchetKey (w.loadSession a).sessionState = .ok p.ourRatchetKey) ∧
      (processInitiate w a m rnd).writes =
        [.session a ((archiveUnlessFresh (w.loadSession a)).setState s), .identity a.1 m.identityKey] := by
  unfold processInitiate at h ⊢
  cases hs : processInitiateState w a m rnd with
  | error e => rw [hs] at h; simp at h
  | ok y =>
    clear h
    unfold processInitiateState at hs
    obtain ⟨ok, hok, hs⟩ := bind_eq_ok.1 hs
    split at hs
    · cases hs
    · obtain ⟨r, flags, p⟩ := y
      dsimp only at hs
      cases hp : hasPendingKeyExchange (w.loadSession a).sessionState with
      | false =>
        rw [if_pos (by rw [hp]; rfl)] at hs
        simp only [ok_bind] at hs
        obtain ⟨s, h3, hs⟩ := bind_eq_ok.1 hs
        replace hs := Except.ok.inj hs
        injection hs with h4 h5
        injection h5 with h5 h6
        subst h4; subst h6
        rw [archive_load_state] at h3
        exact ⟨_, s, h3, .inl rfl, rfl⟩
      | true =>
        rw [if_neg (by rw [hp]; simp)] at hs
        obtain ⟨ik, _, hs⟩ := bind_eq_ok.1 hs
        obtain ⟨bk, _, hs⟩ := bind_eq_ok.1 hs
        obtain ⟨rk, hrk, hs⟩ := bind_eq_ok.1 hs
        simp only [ok_bind] at hs
        obtain ⟨s, h3, hs⟩ := bind_eq_ok.1 hs
        replace hs := Except.ok.inj hs
        injection hs with h4 h5
        injection h5 with h5 h6
        subst h4; subst h6
        rw [archive_load_state] at h3
        exact ⟨_, s, h3, .inr ⟨rfl, hrk⟩, rfl⟩

omit C in
theorem pendingKey_of {s : SessionState} {kp : KeyPair} (h : getPendingKeyExchangeRatchetKey s = .ok kp) :
    PendingKey s.pendingKeyExchange kp.pub ∧ kp.pub.take 32 = kp.pub := by
  unfold getPendingKeyExchangeRatchetKey at h
  obtain ⟨pub, h1, h⟩ := bind_eq_ok.1 h
  obtain rfl := Except.ok.inj h
  unfold pendingKED at h1
  cases hp : s.pendingKeyExchange with
  | none => rw [hp] at h1; cases h1
  | some x =>
    rw [hp] at h1
    simp only [Option.getD_some] at h1
    cases hk : x.localRatchetKey with
    | none => rw [hk] at h1; cases h1
    | some b =>
      rw [hk] at h1
      simp only [Option.getD_some] at h1
      cases b with
      | nil => cases h1
      | cons t b =>
        simp only [Curve.decodePoint] at h1
        split at h1
        · rename_i ht
          obtain rfl := Except.ok.inj h1
          refine ⟨⟨x, b, rfl, by rw [hk, ht]; rfl, rfl⟩, ?_⟩
          simp [List.take_take]
        · cases h1

/-- A state set up by a key exchange sends with our ratchet key or with the one drawn for sending. -/
theorem sym_key {p : SymmetricParameters} {seed : Bytes} {s : SessionState} {k : ECPub}
    (h : RatchetingSession.initializeSession {} p seed = .ok s) (hk : SendingKey s k) :
    k = p.ourRatchetKey.pub.take 32 ∨ k = (Curve.generateKeyPair seed).pub.take 32 := by
  obtain ⟨c, b, hc, hb, rfl⟩ := hk
  rcases initSession_ok h with ⟨_, h⟩ | ⟨_, h⟩
  · obtain ⟨_, _, _, _, _, rfl⟩ := initAlice_ok h
    right
    injection hc with hc
    subst hc
    injection hb with hb
    injection hb with _ hb
    rw [hb]
  · obtain ⟨_, _, rfl⟩ := initBob_ok h
    left
    injection hc with hc
    subst hc
    injection hb with hb
    injection hb with _ hb
    rw [hb]

/-- All stored states satisfy `P` as to the key exchange pending in them. -/
def PendingAll (P : Option PendingKeyExchangeS → Prop) (w : World) : Prop :=
  ∀ a r, w.sessions a = some r → r.All fun s => P s.pendingKeyExchange

theorem All.pending {P : Option PendingKeyExchangeS → Prop} {r r' : SessionRecord} {m : WhisperMessage} {seed pt : Bytes} {seeds : Nat → Bytes}
    (h : r.All fun s => P s.pendingKeyExchange)
    (hd : SessionCipher.decryptWithSessionRecord r m seed seeds = .ok (pt, r')) :
    r'.All fun s => P s.pendingKeyExchange := by
  rcases dwsr_ok hd with ⟨s, h1, h2⟩ | ⟨_, k, p, s, h1, h2, _, h4⟩
  · subst h2
    exact ⟨by show P s.pendingKeyExchange; rw [(dwss_same h1).2.1]; exact h.1, h.2⟩
  · subst h4
    refine SessionRecord.All.promote (r := { r with previousStates := r.previousStates.eraseIdx k }) ⟨h.1, ?_⟩
      (by rw [(dwss_same h2).2.1]; exact h.2 p (List.mem_of_getElem? h1))
    intro x hx
    exact h.2 x (List.mem_of_mem_eraseIdx hx)

omit C in
theorem PendingAll.load {P : Option PendingKeyExchangeS → Prop} (hP : P none) {w : World} (h : PendingAll P w) (a : Address) :
    (w.loadSession a).All fun s => P s.pendingKeyExchange := by
  unfold World.loadSession
  cases hs : w.sessions a with
  | none => exact ⟨hP, by intro s hs; cases hs⟩
  | some r => exact h a r hs

omit C in
theorem PendingAll.archive {P : Option PendingKeyExchangeS → Prop} (hP : P none) {w : World} (h : PendingAll P w) (a : Address) {s : SessionState}
    (hs : P s.pendingKeyExchange) :
    ((archiveUnlessFresh (w.loadSession a)).setState s).All fun s => P s.pendingKeyExchange := by
  have hl := PendingAll.load hP h a
  refine ⟨hs, ?_⟩
  show ∀ x ∈ (archiveUnlessFresh (w.loadSession a)).previousStates, _
  unfold archiveUnlessFresh
  split
  · exact (hl.promote (s := {}) hP).2
  · exact hl.2

theorem PendingAll.next {P : Option PendingKeyExchangeS → Prop} (hP : P none) {w : World} (h : PendingAll P w) {c : Call}
    (hc : ∀ a q bs rs ss, c ≠ .initKeyExchange a q bs rs ss) :
    PendingAll P (c.next w) := by
  intro a r hr
  rcases applyAll_sessions (ws := (c.run w).writes) (w := w) (a := a) with h1 | ⟨r', hw, h2⟩
  · exact h a r (by rw [← h1]; exact hr)
  · have h3 : (c.next w).sessions a = some r' := h2
    rw [h3] at hr
    injection hr with hr
    subst hr
    clear h2 h3
    cases c with
    | encrypt b pt =>
      obtain ⟨c, s, h1, h2⟩ := encrypt_writes hw
      injection h2 with h2 h3
      subst h2; subst h3
      have := (ews_same h1).2
      have hl := PendingAll.load hP h a
      refine ⟨?_, hl.2⟩
      have e := this
      show P s.pendingKeyExchange
      rw [show s.pendingKeyExchange = (w.loadSession a).sessionState.pendingKeyExchange by
        first | exact e.1 | exact e.2 | exact e]
      exact hl.1
    | decryptMsg b m seed seeds =>
      obtain ⟨_, c, s, h1, h2⟩ := decryptMsg_writes hw
      injection h2 with h2 h3
      subst h2; subst h3
      exact All.pending (PendingAll.load hP h a) h1
    | decryptPkmsg b m seed seeds =>
      simp only [Call.run, Call.mapOutcome] at hw
      rcases decryptPkmsg_cases w b m seed seeds with ⟨_, he⟩ | ⟨_, ⟨e, _, he⟩ | ⟨r, u, e, _, _, he⟩ | ⟨r, u, pt, r2, hv, hd, he⟩⟩
      · rw [he] at hw; simp at hw
      · rw [he] at hw; simp at hw
      · rw [he] at hw; simp at hw
      · rw [he] at hw
        have : a = b ∧ r' = r2 := by
          cases u <;> simpa using hw
        obtain ⟨rfl, rfl⟩ := this
        rcases processV3_ok hv with ⟨_, hx⟩ | ⟨_, spk, kp, ot, s0, s1, s2, _, _, _, _, h0, h1, h2, hx, _⟩
        · injection hx with hx _
          subst hx
          exact All.pending (PendingAll.load hP h a) hd
        · simp only at hx
          subst hx
          rw [archive_load_state] at h0
          exact All.pending (PendingAll.archive hP h a (by rw [(created_shape (.bob h0 h1 h2)).2.1]; exact hP)) hd
    | processBundle b bu s1 s2 =>
      simp only [Call.run, Call.mapOutcome] at hw
      obtain ⟨_, k, s0, s1, s2, s3, _, _, h0, h1, h2, h3, hws, _⟩ := processPreKeyBundle_writes hw
      rw [hws] at hw
      simp only [List.mem_cons, Write.session.injEq, List.not_mem_nil, or_false, reduceCtorEq] at hw
      obtain ⟨rfl, rfl⟩ := hw
      exact PendingAll.archive hP h a (by rw [(created_shape (.alice h0 h1 h2 h3)).2.1]; exact hP)
    | processKeyExchange b m rnd =>
      simp only [Call.run, Call.mapOutcome, processKeyExchangeMessage] at hw
      split at hw
      · simp at hw
      · split at hw
        · obtain ⟨_, p, s, hs, _, _, _, hws⟩ := processInitiate_writes hw
          rw [hws] at hw
          simp only [List.mem_cons, Write.session.injEq, List.not_mem_nil, or_false, reduceCtorEq] at hw
          obtain ⟨rfl, rfl⟩ := hw
          exact PendingAll.archive hP h a (by rw [(created_shape (.sym hs)).2.1]; exact hP)
        · obtain ⟨_, _, _, p, s, hs, _, _, _, _, _, _, hws⟩ := processResponse_writes hw
          rw [hws] at hw
          simp only [List.mem_cons, Write.session.injEq, List.not_mem_nil, or_false, reduceCtorEq] at hw
          obtain ⟨rfl, rfl⟩ := hw
          exact PendingAll.archive hP h a (by rw [(created_shape (.sym hs)).2.1]; exact hP)
    | initKeyExchange b q s1 s2 s3 => exact absurd rfl (hc b q s1 s2 s3)

/-- Every ratchet key that a call starts to use is one it has just drawn, or the one of a request now answered. -/
theorem newKey_cases (hC : C.Lawful) {w : World} {c : Call} (hs : SeedsOk c) {k : ECPub} (hk : NewKey w c k) :
    Drawn c k ∨ Answered w c k := by
  cases c with
  | encrypt => exact hk.elim
  | decryptMsg => exact .inl hk
  | decryptPkmsg => exact .inl hk
  | processBundle => exact .inl hk
  | initKeyExchange => exact hk.elim
  | processKeyExchange a m rnd =>
    obtain ⟨r, hr, hne, hk⟩ := hk
    have hw : .session a r ∈ (processKeyExchangeMessage w a m rnd).writes := by
      rcases applyAll_sessions (ws := (processKeyExchangeMessage w a m rnd).writes) (w := w) (a := a) with h1 | ⟨r', h1, h2⟩
      · exact absurd h1 hne
      · have h3 : ((Call.processKeyExchange a m rnd).next w).sessions a = some r' := h2
        rw [h3] at hr
        injection hr with hr
        exact hr ▸ h1
    have hlen : ∀ {sd : Bytes}, sd.length = 32 → (Curve.generateKeyPair sd).pub.take 32 = C.genPub (C.genPriv sd) :=
      fun hl => List.take_of_length_le (Nat.le_of_eq (hC.genPub_len _ (hC.genPriv_len _ hl)))
    have hans : ∀ {kp : KeyPair}, hasPendingKeyExchange (w.loadSession a).sessionState = true →
        getPendingKeyExchangeRatchetKey (w.loadSession a).sessionState = .ok kp → k = kp.pub.take 32 →
        Answered w (.processKeyExchange a m rnd) k := by
      intro kp hp hrk he
      obtain ⟨h1, h2⟩ := pendingKey_of hrk
      unfold World.loadSession at hp h1
      cases hs : w.sessions a with
      | none => rw [hs] at hp; cases hp
      | some r0 =>
        rw [hs] at h1
        refine ⟨r0, r, hs, hr, ?_, ?_, hk⟩
        · rintro rfl
          exact hne (hr.trans hs.symm)
        · rw [he, h2]
          exact h1
    unfold processKeyExchangeMessage at hw
    split at hw
    · simp at hw
    · split at hw
      · obtain ⟨p, s, hs', hrk, hws⟩ := processInitiate_ours hw
        rw [hws] at hw
        simp only [List.mem_cons, Write.session.injEq, List.not_mem_nil, or_false, reduceCtorEq, true_and] at hw
        subst hw
        rcases sym_key hs' hk with hk | hk
        · rcases hrk with hrk | ⟨hp, hrk⟩
          · left; left; rw [hk, hrk]; exact hlen hs.2.1
          · exact .inr (hans hp hrk hk)
        · left; right; rw [hk]; exact hlen hs.2.2
      · obtain ⟨_, hp, _, p, s, hs', _, hrk, _, _, _, _, hws⟩ := processResponse_writes hw
        rw [hws] at hw
        simp only [List.mem_cons, Write.session.injEq, List.not_mem_nil, or_false, reduceCtorEq, true_and] at hw
        subst hw
        rcases sym_key hs' hk with hk | hk
        · exact .inr (hans hp hrk hk)
        · left; right; rw [hk]; exact hlen hs.2.2

/-- The ratchet key drawn for a request. -/
def AskedWith : Call → ECPub → Prop
  | .initKeyExchange _ _ _ ratchetSeed _, k => k = C.genPub (C.genPriv ratchetSeed)
  | _, _ => False

theorem PendingAll.asked (hC : C.Lawful) {I : ECPub → Prop} {w : World} (h : PendingAll (fun p => ∀ k, PendingKey p k → I k) w)
    {c : Call} (hs : SeedsOk c) :
    PendingAll (fun p => ∀ k, PendingKey p k → I k ∨ AskedWith c k) (c.next w) := by
  have hnone : ∀ I : ECPub → Prop, ∀ k, PendingKey none k → I k := by
    rintro I k ⟨x, b, h, _⟩
    cases h
  have weak : PendingAll (fun p => ∀ k, PendingKey p k → I k ∨ AskedWith c k) w := fun a r hr =>
    ⟨fun k hk => .inl ((h a r hr).1 k hk), fun s hm k hk => .inl ((h a r hr).2 s hm k hk)⟩
  by_cases hc : ∀ a q bs rs ss, c ≠ .initKeyExchange a q bs rs ss
  · exact PendingAll.next (hnone _) weak hc
  · cases c with
    | encrypt | decryptMsg | decryptPkmsg | processBundle | processKeyExchange => exact absurd (by simp) hc
    | initKeyExchange b q bs rs ss =>
      intro a r hr
      rcases applyAll_sessions (ws := ((Call.initKeyExchange b q bs rs ss).run w).writes) (w := w) (a := a) with h1 | ⟨r', hw, h2⟩
      · exact weak a r (by rw [← h1]; exact hr)
      · have h3 : ((Call.initKeyExchange b q bs rs ss).next w).sessions a = some r' := h2
        rw [h3] at hr
        injection hr with hr
        subst hr
        simp only [Call.run, Call.mapOutcome] at hw
        obtain ⟨s, hset, hws⟩ := initKeyExchange_writes hw
        rw [hws] at hw
        simp only [List.mem_singleton, Write.session.injEq] at hw
        obtain ⟨rfl, rfl⟩ := hw
        obtain ⟨_, rfl⟩ := setPending_ok hset
        refine ⟨?_, (PendingAll.load (hnone _) weak a).2⟩
        rintro k ⟨x, b, hx, hb, rfl⟩
        right
        obtain rfl : pendingOf (q + 1) (Curve.generateKeyPair bs) (Curve.generateKeyPair rs) w.identityKeyPair = x :=
          Option.some.inj hx
        have hb : some (Curve.serializePoint (Curve.generateKeyPair rs).pub) = some (5 :: b) := hb
        have hb : (Curve.generateKeyPair rs).pub = b := by
          have := Option.some.inj hb
          unfold Curve.serializePoint at this
          exact (List.cons.inj this).2
        rw [← hb]
        exact List.take_of_length_le (Nat.le_of_eq (hC.genPub_len _ (hC.genPriv_len _ hs.2)))

/-- Keys drawn once, and requests answered once, give ratchet keys used once. -/
theorem answered_fresh (hC : C.Lawful) : ∀ {cs : List Call} {old D I U : ECPub → Prop} {w : World},
    PendingAll (fun p => ∀ k, PendingKey p k → I k) w → (∀ k, old k → D k) → (∀ k, old k → I k → U k) →
    (∀ k, I k → D k) → (∀ c ∈ cs, SeedsOk c) → DrawnOnce D cs → AnsweredOnce U w cs → FreshFrom old w cs := by
  intro cs
  induction cs with
  | nil => intro _ _ _ _ _ _ _ _ _ _ _ _; trivial
  | cons c cs ih =>
    intro old D I U w hp h1 h2 h3 hs hd ha
    have hs0 := hs c (List.mem_cons_self ..)
    have hI : ∀ k, Answered w c k → I k := by
      intro k hk
      cases c with
      | encrypt | decryptMsg | decryptPkmsg | processBundle | initKeyExchange => exact hk.elim
      | processKeyExchange a m rnd =>
        obtain ⟨r, r', hr, _, _, hpk, _⟩ := hk
        exact (hp a r hr).1 k hpk
    refine ⟨?_, ih (hp.asked hC hs0) ?_ ?_ ?_ (fun d hm => hs d (List.mem_cons_of_mem _ hm)) hd.2 ha.2⟩
    · intro k hk ho
      rcases newKey_cases hC hs0 hk with hk | hk
      · exact hd.1 k hk (h1 k ho)
      · exact ha.1 k hk (h2 k ho (hI k hk))
    · rintro k (ho | hk)
      · exact .inl (h1 k ho)
      · rcases newKey_cases hC hs0 hk with hk | hk
        · exact .inr hk
        · exact .inl (h3 k (hI k hk))
    · have hasked : ∀ k, AskedWith c k → Drawn c k := by
        intro k hk
        cases c with
        | encrypt | decryptMsg | decryptPkmsg | processBundle | processKeyExchange => exact hk.elim
        | initKeyExchange => exact hk
      rintro k (ho | hk) (hi | hi)
      · exact .inl (h2 k ho hi)
      · exact absurd (h1 k ho) (hd.1 k (hasked k hi))
      · rcases newKey_cases hC hs0 hk with hk | hk
        · exact absurd (h3 k hi) (hd.1 k hk)
        · exact .inr hk
      · cases c with
        | encrypt | decryptMsg | decryptPkmsg | processBundle | processKeyExchange => exact hi.elim
        | initKeyExchange => exact hk.elim
    · rintro k (hi | hi)
      · exact .inl (h3 k hi)
      · right
        cases c with
        | encrypt | decryptMsg | decryptPkmsg | processBundle | processKeyExchange => exact hi.elim
        | initKeyExchange => exact hi

/-- **C15 (partial).** Distinct random ratchet keys suffice if no key-exchange request of ours is answered twice.
The full statement has no such condition; `C15_false` shows that it is needed. -/
theorem C15_answered_partial (hC : C.Lawful) (w : World) (hw : w.NoSessions) (cs : List Call)
    (hseeds : ∀ c ∈ cs, SeedsOk c) (hdrawn : DrawnOnce (fun _ => False) cs)
    (hans : AnsweredOnce (fun _ => False) w cs) : ((sentMessages w cs).map Prod.snd).Nodup :=
  C15_no_reuse_partial hC w hw cs hseeds
    (answered_fresh hC (I := fun _ => False) (fun a r h => by rw [hw a] at h; cases h) (fun _ h => h) (fun _ h _ => h)
      (fun _ h => h) hseeds hdrawn hans)

theorem noAsk_answered : ∀ {cs : List Call} {U : ECPub → Prop} {w : World}, PendingAll (· = none) w →
    (∀ c ∈ cs, ∀ a q bs rs ss, c ≠ .initKeyExchange a q bs rs ss) → AnsweredOnce U w cs := by
  intro cs
  induction cs with
  | nil => intro _ _ _ _; trivial
  | cons c cs ih =>
    intro U w hp hc
    refine ⟨?_, ih (PendingAll.next (P := (· = none)) rfl hp (hc c (List.mem_cons_self ..))) fun d hd => hc d (List.mem_cons_of_mem _ hd)⟩
    intro k hk
    cases c with
    | encrypt | decryptMsg | decryptPkmsg | processBundle | initKeyExchange => exact hk.elim
    | processKeyExchange a m rnd =>
      obtain ⟨r, r', hr, _, _, ⟨x, _, hx, _⟩, _⟩ := hk
      rw [(hp a r hr).1] at hx
      cases hx

/-- **C15 (partial).** In a history without own key-exchange requests, distinct random ratchet keys suffice. -/
theorem C15_random_partial (hC : C.Lawful) (w : World) (hw : w.NoSessions) (cs : List Call)
    (hseeds : ∀ c ∈ cs, SeedsOk c) (hno : ∀ c ∈ cs, ∀ a q bs rs ss, c ≠ .initKeyExchange a q bs rs ss)
    (hdrawn : DrawnOnce (fun _ => False) cs) : ((sentMessages w cs).map Prod.snd).Nodup :=
  C15_answered_partial hC w hw cs hseeds hdrawn
    (noAsk_answered (fun a r h => by rw [hw a] at h; cases h) hno)

end

/-! ## The full statement fails -/

namespace Example
attribute [local instance] toy
open Spec

/-- Alice sets up a session, writes, and asks for a key exchange. -/
def reuseA : List Call :=
  [.processBundle bobAddr bobBundle (key 41) (key 42), .encrypt bobAddr [104, 105],
   .initKeyExchange bobAddr 77 (key 99) (key 62) (key 63)]
def reuseAsk : Outcome KeyExchangeMessage :=
  SessionBuilder.processInitKeyExchangeMessage alice2 bobAddr 77 (key 99) (key 62) (key 63)
def reuseAskMsg : KeyExchangeMessage := match reuseAsk.result with | .ok m => m | .error _ => noKe
/-- Bob, who has read the first message, replies and then answers the key exchange. -/
def reuseAnswer : Outcome (Option KeyExchangeMessage) :=
  SessionBuilder.processKeyExchangeMessage bob2 aliceAddr reuseAskMsg keRand
def reuseAnswerMsg : KeyExchangeMessage := match reuseAnswer.result with | .ok (some m) => m | _ => noKe

/-- The answer arrives, Alice writes, the older reply arrives, the answer arrives again, Alice writes. -/
def reuseCalls : List Call :=
  reuseA ++
  [.processKeyExchange bobAddr reuseAnswerMsg ⟨key 81, key 82, key 83, key 84⟩, .encrypt bobAddr [1, 2, 3],
   .decryptMsg bobAddr replyMsg (key 85) (fun _ => key 86),
   .processKeyExchange bobAddr reuseAnswerMsg ⟨key 91, key 92, key 93, key 94⟩, .encrypt bobAddr [4, 5, 6, 7]]

theorem toy_draw (n : UInt8) : Crypto.genPub (Crypto.genPriv (key n)) = key n := rfl

theorem key_inj {a b : UInt8} (h : key a = key b) : a = b := by
  simpa [key] using h

theorem reuse_drawn : DrawnOnce (fun _ => False) reuseCalls := by
  simp only [reuseCalls, reuseA, List.cons_append, List.nil_append, DrawnOnce, Drawn, toy_draw]
  refine ⟨by simp, by simp, ?_, ?_, by simp, ?_, ?_, by simp, trivial⟩
  all_goals
    intro k hk hold
    rcases hk with rfl | hk <;> simp_all [key]

/-- **C15 is false in general**: all seeds are right and no ratchet key is drawn twice, yet two messages carry the
same header.  A replayed key-exchange answer brings the same session back. -/
theorem C15_false : ∃ (w : World) (cs : List Call), w.NoSessions ∧ (∀ c ∈ cs, SeedsOk c) ∧
    DrawnOnce (fun _ => False) cs ∧ ¬ ((sentMessages w cs).map Prod.snd).Nodup := by
  refine ⟨alice0, reuseCalls, fun _ => rfl, ?_, reuse_drawn, by decide +kernel⟩
  intro c hc
  simp only [reuseCalls, reuseA, List.cons_append, List.nil_append, List.mem_cons, List.not_mem_nil, or_false] at hc
  rcases hc with rfl | rfl | rfl | rfl | rfl | rfl | rfl | rfl <;> simp [SeedsOk, key]

/-- The two colliding messages are also encrypted with the same chain key. -/
theorem C15_false_same_key :
    sendKey ((Call.after alice0 (reuseCalls.take 4)).loadSession bobAddr).sessionState =
      sendKey ((Call.after alice0 (reuseCalls.take 7)).loadSession bobAddr).sessionState ∧
    (Call.replies alice0 reuseCalls).map (fun x => x.toOption.isSome) = List.replicate 8 true := by
  decide +kernel

/-- The hypotheses of the partial theorem are met by a history with five messages to two peers. -/
def sendCalls : List Call :=
  [.processBundle bobAddr bobBundle (key 41) (key 42), .encrypt bobAddr [104, 105], .encrypt bobAddr [1],
   .decryptMsg bobAddr replyMsg (key 43) (fun _ => key 44), .encrypt bobAddr [2], .encrypt bobAddr [3],
   .processBundle ("carol", 1) bobBundle (key 45) (key 46), .encrypt ("carol", 1) [4]]

example : ((sentMessages alice0 sendCalls).map Prod.snd).Nodup ∧ (sentMessages alice0 sendCalls).length = 5 := by
  refine ⟨C15_random_partial toy_lawful alice0 (fun _ => rfl) sendCalls ?_ ?_ ?_, by decide +kernel⟩
  · intro c hc
    simp only [sendCalls, List.mem_cons, List.not_mem_nil, or_false] at hc
    rcases hc with rfl | rfl | rfl | rfl | rfl | rfl | rfl | rfl <;> simp [SeedsOk, key]
  · intro c hc
    simp only [sendCalls, List.mem_cons, List.not_mem_nil, or_false] at hc
    rcases hc with rfl | rfl | rfl | rfl | rfl | rfl | rfl | rfl <;> simp
  · simp only [sendCalls, DrawnOnce, Drawn, toy_draw]
    refine ⟨by simp, by simp, by simp, ?_, by simp, by simp, ?_, by simp, trivial⟩
    all_goals
      intro k hk hold
      first
      | (rcases hk with rfl | hk <;> simp_all [key])
      | (subst hk; simp_all [key])

/-- `C15_answered_partial` applies to the counterexample's history up to the replay: a request, its answer, and two
messages with different keys. -/
example : ((sentMessages alice0 (reuseCalls.take 6)).map Prod.snd).Nodup ∧
    (sentMessages alice0 (reuseCalls.take 6)).length = 2 ∧
    (Call.replies alice0 (reuseCalls.take 6)).all (fun x => x.toOption.isSome) = true := by
  refine ⟨C15_answered_partial toy_lawful alice0 (fun _ => rfl) _ ?_ ?_ ?_, by decide +kernel, by decide +kernel⟩
  · intro c hc
    simp only [reuseCalls, reuseA, List.cons_append, List.nil_append, List.take_succ_cons, List.take_zero, List.mem_cons,
      List.not_mem_nil, or_false] at hc
    rcases hc with rfl | rfl | rfl | rfl | rfl | rfl <;> simp [SeedsOk, key]
  · have h := reuse_drawn
    simp only [reuseCalls, reuseA, List.cons_append, List.nil_append, List.take_succ_cons, List.take_zero, DrawnOnce] at h ⊢
    exact ⟨h.1, h.2.1, h.2.2.1, h.2.2.2.1, h.2.2.2.2.1, h.2.2.2.2.2.1, trivial⟩
  · simp [reuseCalls, reuseA, AnsweredOnce, Answered]

end Example
end Axolotl
