import Verif.Spec.Sending
import Verif.Proofs.Shape
import Verif.Props.Session
import Verif.Props.Builder

/-! The invariant behind C15. -/

namespace Axolotl
section
variable [C : Crypto]
open SessionState SessionBuilder Spec

/-- The sending ratchet key as the library reads it. -/
def keyOf (s : SessionState) : Res ECPub :=
  Curve.decodePoint ((s.senderChain.getD {}).senderRatchetKey.getD [])

/-- Set up from a prekey message and never ratcheted: its sending key is the signed prekey. -/
def Dormant (s : SessionState) : Prop := s.receiverChains = [] ∧ s.aliceBaseKey ≠ none

/-- The sending key of the state is known, and what was sent with it lies below the counter. -/
def Live (used : ECPub → Prop) (sent : ECPub × Nat → Prop) (s : SessionState) : Prop :=
  ∀ k, keyOf s = .ok k → used k ∧ ∀ n, sent (k, n) → n < sendCounter s

def Apart (s t : SessionState) : Prop := Dormant s ∨ Dormant t ∨ ∀ k, keyOf s = .ok k → keyOf t ≠ .ok k

/-- The invariant of a list of states. -/
structure ListInv (used : ECPub → Prop) (sent : ECPub × Nat → Prop) (l : List SessionState) : Prop where
  live : ∀ s ∈ l, Dormant s ∨ Live used sent s
  apart : l.Pairwise Apart

/-- The invariant of a record. -/
structure RecInv (used : ECPub → Prop) (sent : ECPub × Nat → Prop) (r : SessionRecord) : Prop where
  list : ListInv used sent (states r)
  awake : ¬ Dormant r.sessionState

omit C in
theorem Apart.symm {s t : SessionState} (h : Apart s t) : Apart t s := by
  rcases h with h | h | h
  · exact Or.inr (Or.inl h)
  · exact Or.inl h
  · exact Or.inr (Or.inr fun k h1 h2 => h k h2 h1)

omit C in
theorem keyOf_empty (k : ECPub) : keyOf {} ≠ .ok k := by
  intro h
  cases h

omit C in
theorem Apart.empty (s : SessionState) : Apart {} s :=
  Or.inr (Or.inr fun k h => absurd h (keyOf_empty k))

omit C in
theorem ListInv.sublist {used : ECPub → Prop} {sent : ECPub × Nat → Prop} {l l' : List SessionState}
    (h : ListInv used sent l) (hs : l'.Sublist l) : ListInv used sent l' :=
  ⟨fun s hm => h.live s (hs.subset hm), h.apart.sublist hs⟩

omit C in
theorem ListInv.mono {used used' : ECPub → Prop} {sent : ECPub × Nat → Prop} {l : List SessionState}
    (h : ListInv used sent l) (hu : ∀ k, used k → used' k) : ListInv used' sent l := by
  refine ⟨fun s hm => ?_, h.apart⟩
  rcases h.live s hm with hd | hl
  · exact Or.inl hd
  · exact Or.inr fun k hk => ⟨hu k (hl k hk).1, (hl k hk).2⟩

omit C in
theorem ListInv.cons {used : ECPub → Prop} {sent : ECPub × Nat → Prop} {l : List SessionState} {s : SessionState}
    (h : ListInv used sent l) (hs : Dormant s ∨ Live used sent s) (ha : ∀ t ∈ l, Apart s t) :
    ListInv used sent (s :: l) := by
  refine ⟨fun t ht => ?_, List.pairwise_cons.2 ⟨ha, h.apart⟩⟩
  rcases List.mem_cons.1 ht with rfl | ht
  · exact hs
  · exact h.live t ht

omit C in
/-- A state with a sending key that was never used before may be added. -/
theorem ListInv.cons_new {used used' : ECPub → Prop} {sent : ECPub × Nat → Prop} {l : List SessionState}
    {s : SessionState} (h : ListInv used sent l) (hs : ∀ k n, sent (k, n) → used k)
    (hu : ∀ k, used k → used' k) (hn : ∀ k, keyOf s = .ok k → ¬ used k ∧ used' k) : ListInv used' sent (s :: l) := by
  refine (h.mono hu).cons (Or.inr fun k hk => ⟨(hn k hk).2, fun n hkn => absurd (hs k n hkn) (hn k hk).1⟩) ?_
  intro t ht
  rcases h.live t ht with hd | hl
  · exact Or.inr (Or.inl hd)
  · exact Or.inr (Or.inr fun k hk hk' => (hn k hk).1 (hl k hk').1)

omit C in
theorem ListInv.cons_dormant {used : ECPub → Prop} {sent : ECPub × Nat → Prop} {l : List SessionState}
    {s : SessionState} (h : ListInv used sent l) (hd : Dormant s) : ListInv used sent (s :: l) :=
  h.cons (Or.inl hd) fun _ _ => Or.inl hd

theorem pairwise_erase {α : Type} {R : α → α → Prop} (hR : ∀ a b, R a b → R b a) :
    ∀ {l : List α} {i : Nat} {p t : α}, l.Pairwise R → l[i]? = some p → t ∈ l.eraseIdx i → R p t := by
  intro l
  induction l with
  | nil => intro i p t _ h; simp at h
  | cons x l ih =>
    intro i p t hp hi ht
    obtain ⟨hx, hp⟩ := List.pairwise_cons.1 hp
    cases i with
    | zero =>
      simp only [List.getElem?_cons_zero, Option.some.injEq] at hi
      subst hi
      simp only [List.eraseIdx_zero, List.tail_cons] at ht
      exact hx t ht
    | succ i =>
      simp only [List.getElem?_cons_succ] at hi
      simp only [List.eraseIdx_cons_succ, List.mem_cons] at ht
      rcases ht with rfl | ht
      · exact hR _ _ (hx p (List.mem_of_getElem? hi))
      · exact ih hp hi ht

/-- What decryption does to the sending side. -/
theorem dwss_sending {s : SessionState} {m : WhisperMessage} {seed : Bytes} {pt : Bytes} {s' : SessionState}
    (h : SessionCipher.decryptWithSessionState s m seed = .ok (pt, s')) :
    s'.receiverChains ≠ [] ∧
    ((s.receiverChains ≠ [] ∧ s'.senderChain = s.senderChain) ∨
     keyOf s' = Curve.decodePoint (Curve.serializePoint (Curve.generateKeyPair seed).pub)) := by
  obtain ⟨_, _, ck, s1, mk, s2, _, _, h1, h2, _, _, _, _, h5⟩ := SessionCipher.dwss_ok h
  obtain ⟨c, j, hc, h2⟩ := SessionCipher.gocmk_ok h2
  have hs2 : ∃ c', s2 = setChainAt s1 j c' := by
    rcases h2 with ⟨_, _, _, _, _, h⟩ | ⟨_, _, _, _, _, _, h⟩
    · exact ⟨_, h⟩
    · exact ⟨_, h⟩
  obtain ⟨c', rfl⟩ := hs2
  subst h5
  have hne : s1.receiverChains ≠ [] := by
    intro hn
    unfold getReceiverChain at hc
    rw [hn] at hc
    simp [findChain] at hc
  refine ⟨?_, ?_⟩
  · show List.set _ _ _ ≠ []
    simpa using hne
  · rcases SessionCipher.gocck_ok h1 with ⟨_, _, _, _, _, _, h⟩ | ⟨_, _, _, _, _, _, _, _, _, _, h⟩
    · subst h
      exact Or.inl ⟨hne, rfl⟩
    · subst h
      exact Or.inr rfl

omit C in
theorem sendCounter_congr {s s' : SessionState} (h : s'.senderChain = s.senderChain) : sendCounter s' = sendCounter s := by
  unfold sendCounter
  rw [h]

omit C in
theorem keyOf_congr {s s' : SessionState} (h : s'.senderChain = s.senderChain) : keyOf s' = keyOf s := by
  unfold keyOf
  rw [h]

/-- Decryption with one of the states. -/
theorem ListInv.decrypt {used used' : ECPub → Prop} {sent : ECPub × Nat → Prop} {l : List SessionState}
    (h : ListInv used sent l) (hs : ∀ k n, sent (k, n) → used k) (hu : ∀ k, used k → used' k)
    {i : Nat} {s : SessionState} (hi : l[i]? = some s) {m : WhisperMessage} {seed pt : Bytes} {s' : SessionState}
    (hd : SessionCipher.decryptWithSessionState s m seed = .ok (pt, s'))
    (hn : ∀ k, Curve.decodePoint (Curve.serializePoint (Curve.generateKeyPair seed).pub) = .ok k → ¬ used k ∧ used' k) :
    ListInv used' sent (s' :: l.eraseIdx i) := by
  obtain ⟨_, ⟨hr, hsc⟩ | hk⟩ := dwss_sending hd
  · refine ((h.sublist (List.eraseIdx_sublist l i)).mono hu).cons (Or.inr ?_) ?_
    · rcases h.live s (List.mem_of_getElem? hi) with hd | hl
      · exact absurd hd.1 hr
      · intro k hk
        rw [keyOf_congr hsc] at hk
        rw [sendCounter_congr hsc]
        exact ⟨hu k (hl k hk).1, (hl k hk).2⟩
    · intro t ht
      rcases pairwise_erase (fun _ _ => Apart.symm) h.apart hi ht with hd | hd | hd
      · exact absurd hd.1 hr
      · exact Or.inr (Or.inl hd)
      · refine Or.inr (Or.inr fun k hk => hd k ?_)
        rw [← keyOf_congr hsc]; exact hk
  · refine (h.sublist (List.eraseIdx_sublist l i)).cons_new hs hu ?_
    intro k hk'
    rw [hk] at hk'
    exact hn k hk'

omit C in
theorem states_promote (r : SessionRecord) (s : SessionState) :
    (states (r.promoteState s)).Sublist (s :: states r) := by
  unfold SessionRecord.promoteState states
  simp only
  refine List.Sublist.cons_cons s ?_
  split
  · exact List.dropLast_sublist _
  · exact List.Sublist.refl _

theorem RecInv.decrypt {used used' : ECPub → Prop} {sent : ECPub × Nat → Prop} {r : SessionRecord}
    (h : ListInv used sent (states r)) (hs : ∀ k n, sent (k, n) → used k) (hu : ∀ k, used k → used' k)
    {m : WhisperMessage} {seed pt : Bytes} {seeds : Nat → Bytes} {r' : SessionRecord}
    (hd : SessionCipher.decryptWithSessionRecord r m seed seeds = .ok (pt, r'))
    (hn : ∀ k, Curve.decodePoint (Curve.serializePoint (Curve.generateKeyPair seed).pub) = .ok k → ¬ used k ∧ used' k)
    (hns : ∀ i k, Curve.decodePoint (Curve.serializePoint (Curve.generateKeyPair (seeds i)).pub) = .ok k →
      ¬ used k ∧ used' k) : RecInv used' sent r' := by
  rcases dwsr_ok hd with ⟨s, h1, h2⟩ | ⟨_, k, p, s, h1, h2, _, h4⟩
  · subst h2
    exact ⟨h.decrypt hs hu (i := 0) rfl h1 hn, fun hd => (dwss_sending h1).1 hd.1⟩
  · subst h4
    refine ⟨?_, fun hd => (dwss_sending h2).1 hd.1⟩
    refine ListInv.sublist ?_ (states_promote _ s)
    exact h.decrypt hs hu (i := k + 1) h1 h2 (hns k)

omit C in
theorem ListInv.archive {used : ECPub → Prop} {sent : ECPub × Nat → Prop} {r : SessionRecord}
    (h : ListInv used sent (states r)) : ListInv used sent (archiveUnlessFresh r).previousStates := by
  unfold archiveUnlessFresh
  split
  · have := h.sublist (l' := (states (r.promoteState {})).tail) (by
      have := (states_promote r {}).tail
      simpa using this)
    exact this
  · exact h.sublist (List.sublist_cons_self _ _)

omit C in
theorem withoutSendKey_same {s s' : SessionState} (h : withoutSendKey s' = withoutSendKey s) :
    keyOf s' = keyOf s ∧ s'.receiverChains = s.receiverChains ∧ s'.aliceBaseKey = s.aliceBaseKey := by
  have h1 := congrArg SessionS.receiverChains h
  have h2 := congrArg SessionS.aliceBaseKey h
  have h3 := congrArg SessionS.senderChain h
  refine ⟨?_, h1, h2⟩
  unfold keyOf
  simp only [withoutSendKey] at h3
  cases hs : s.senderChain with
  | none =>
    rw [hs] at h3
    cases hs' : s'.senderChain with
    | none => rfl
    | some c' => rw [hs'] at h3; cases h3
  | some c =>
    rw [hs] at h3
    cases hs' : s'.senderChain with
    | none => rw [hs'] at h3; cases h3
    | some c' =>
      rw [hs'] at h3
      simp only [Option.map_some, Option.some.injEq] at h3
      have := congrArg ChainS.senderRatchetKey h3
      simp only at this
      simp only [Option.getD_some, this]

/-- The invariant of a party's stores. `L` lists what was sent so far. -/
structure SendInv (used : Address → ECPub → Prop) (L : List (Address × ECPub × Nat)) (w : World) : Prop where
  recs : ∀ a r, w.sessions a = some r → RecInv (used a) (fun x => (a, x) ∈ L) r
  sent : ∀ a k n, (a, k, n) ∈ L → used a k
  disj : ∀ a b k, used a k → used b k → a = b
  nodup : (L.map Prod.snd).Nodup

omit C in
theorem RecInv.fresh {used : ECPub → Prop} {sent : ECPub × Nat → Prop} {r : SessionRecord} (h : RecInv used sent r)
    (b : Bool) : RecInv used sent { r with fresh := b } := ⟨h.list, h.awake⟩

omit C in
theorem RecInv.empty {used : ECPub → Prop} {sent : ECPub × Nat → Prop} : RecInv used sent {} := by
  refine ⟨⟨?_, ?_⟩, ?_⟩
  · intro s hs
    simp only [states, List.mem_singleton] at hs
    subst hs
    exact Or.inr fun k hk => absurd hk (keyOf_empty k)
  · simp [states]
  · intro h; exact h.2 rfl

omit C in
theorem SendInv.load {used : Address → ECPub → Prop} {L : List (Address × ECPub × Nat)} {w : World}
    (h : SendInv used L w) (a : Address) : RecInv (used a) (fun x => (a, x) ∈ L) (w.loadSession a) := by
  unfold World.loadSession
  cases hs : w.sessions a with
  | none => exact RecInv.empty
  | some r => exact (h.recs a r hs).fresh false

/-- A call that writes at most one record and sends nothing. -/
theorem SendInv.step {used : Address → ECPub → Prop} {L : List (Address × ECPub × Nat)} {w : World}
    (h : SendInv used L w) {c : Call} (hn : ∀ k, NewKey w c k → ∀ a, ¬ used a k)
    (hr : ∀ r, (c.next w).sessions c.addr = some r → (c.next w).sessions c.addr ≠ w.sessions c.addr →
      RecInv (fun k => used c.addr k ∨ NewKey w c k) (fun x => (c.addr, x) ∈ L) r) :
    SendInv (fun a k => used a k ∨ (a = c.addr ∧ NewKey w c k)) L (c.next w) := by
  refine ⟨?_, ?_, ?_, h.nodup⟩
  · intro a r hs
    have keep : (c.next w).sessions a = w.sessions a →
        RecInv (fun k => used a k ∨ (a = c.addr ∧ NewKey w c k)) (fun x => (a, x) ∈ L) r := by
      intro he
      rw [he] at hs
      have := h.recs a r hs
      exact ⟨this.list.mono fun k => Or.inl, this.awake⟩
    by_cases he : (c.next w).sessions a = w.sessions a
    · exact keep he
    · rcases next_session w c a with h1 | ⟨r', h1, ha, _⟩
      · exact keep h1
      · subst ha
        have := hr r hs he
        exact ⟨this.list.mono fun k hk => hk.imp id fun hk => ⟨rfl, hk⟩, this.awake⟩
  · intro a k n hm
    exact Or.inl (h.sent a k n hm)
  · intro a b k ha hb
    rcases ha with ha | ⟨rfl, ha⟩
    · rcases hb with hb | ⟨rfl, hb⟩
      · exact h.disj a b k ha hb
      · exact absurd ha (hn k hb a)
    · rcases hb with hb | ⟨rfl, hb⟩
      · exact absurd hb (hn k ha b)
      · rfl

theorem keyOf_bundle {p : AliceParameters} {seed : Bytes} {s0 s1 s2 s3 : SessionState} {l r : Int} {k : Bytes}
    {pk : Option Int} {spk : Int} {bk : ECPub}
    (h0 : RatchetingSession.initializeSessionAsAlice {} p seed = .ok s0)
    (h1 : setUnacknowledgedPreKeyMessage s0 pk spk bk = .ok s1)
    (h2 : setLocalRegistrationId s1 l = .ok s2) (h3 : setRemoteRegistrationId s2 r = .ok s3) :
    keyOf (setAliceBaseKey s3 k) = Curve.decodePoint (Curve.serializePoint (Curve.generateKeyPair seed).pub) ∧
    ¬ Dormant (setAliceBaseKey s3 k) := by
  obtain ⟨_, _, _, _, _, rfl⟩ := initAlice_ok h0
  obtain ⟨_, _, _, _, _, _, _, rfl⟩ := setUnack_ok h1
  obtain ⟨_, _, _, rfl⟩ := setLocalRegistrationId_ok h2
  obtain ⟨_, _, _, rfl⟩ := setRemoteRegistrationId_ok h3
  exact ⟨rfl, fun hd => (nomatch hd.1)⟩

theorem dormant_bob {p : BobParameters} {s0 s1 s2 : SessionState} {l r : Int} {k : Bytes}
    (h0 : RatchetingSession.initializeSessionAsBob {} p = .ok s0)
    (h1 : setLocalRegistrationId s0 l = .ok s1) (h2 : setRemoteRegistrationId s1 r = .ok s2) :
    Dormant (setAliceBaseKey s2 k) := by
  obtain ⟨_, _, rfl⟩ := initBob_ok h0
  obtain ⟨_, _, _, rfl⟩ := setLocalRegistrationId_ok h1
  obtain ⟨_, _, _, rfl⟩ := setRemoteRegistrationId_ok h2
  exact ⟨rfl, fun h => nomatch h⟩

/-- A state set up by a key exchange. -/
theorem awake_sym {p : SymmetricParameters} {seed : Bytes} {s : SessionState}
    (h : RatchetingSession.initializeSession {} p seed = .ok s) :
    ¬ Dormant s ∧ ∀ k, keyOf s = .ok k → SendingKey s k := by
  rcases initSession_ok h with ⟨_, h⟩ | ⟨_, h⟩
  · obtain ⟨_, _, _, _, _, rfl⟩ := initAlice_ok h
    refine ⟨fun hd => (nomatch hd.1), fun k hk => ⟨_, _, rfl, rfl, ?_⟩⟩
    exact (Except.ok.inj hk).symm
  · obtain ⟨_, _, rfl⟩ := initBob_ok h
    refine ⟨fun hd => hd.2 rfl, fun k hk => ⟨_, _, rfl, rfl, ?_⟩⟩
    exact (Except.ok.inj hk).symm

/-- Reading back a freshly drawn key. -/
theorem drawn_key (hC : C.Lawful) {seed : Bytes} (hs : seed.length = 32) {k : ECPub}
    (h : Curve.decodePoint (Curve.serializePoint (Curve.generateKeyPair seed).pub) = .ok k) :
    k = C.genPub (C.genPriv seed) := by
  have hl : (C.genPub (C.genPriv seed)).length = 32 := hC.genPub_len _ (hC.genPriv_len _ hs)
  rw [decodePoint_serializePoint (k := (Curve.generateKeyPair seed).pub) (by
    show (C.genPub (C.genPriv seed)).length ≤ 32
    exact Nat.le_of_eq hl)] at h
  exact (Except.ok.inj h).symm

/-- Every call but `encrypt`. -/
theorem SendInv.quiet (hC : C.Lawful) {used : Address → ECPub → Prop} {L : List (Address × ECPub × Nat)} {w : World}
    (h : SendInv used L w) {c : Call} (hseeds : SeedsOk c) (hn : ∀ k, NewKey w c k → ∀ a, ¬ used a k)
    (hc : ∀ a pt, c ≠ .encrypt a pt) :
    SendInv (fun a k => used a k ∨ (a = c.addr ∧ NewKey w c k)) L (c.next w) := by
  refine h.step hn ?_
  intro r hr hne
  have hload := h.load c.addr
  have hsent : ∀ k n, (c.addr, k, n) ∈ L → used c.addr k := fun k n => h.sent c.addr k n
  have hw : .session c.addr r ∈ (c.run w).writes := by
    rcases applyAll_sessions (ws := (c.run w).writes) (w := w) (a := c.addr) with h1 | ⟨r', h1, h2⟩
    · exact absurd h1 hne
    · have h3 : (c.next w).sessions c.addr = some r' := h2
      rw [h3] at hr
      injection hr with hr
      exact hr ▸ h1
  have hdec : ∀ {r0 m seed seeds pt}, seed.length = 32 → (∀ i, (seeds i).length = 32) →
      (∀ k, (k = C.genPub (C.genPriv seed) ∨ ∃ i, k = C.genPub (C.genPriv (seeds i))) → NewKey w c k) →
      ListInv (used c.addr) (fun x => (c.addr, x) ∈ L) (states r0) →
      SessionCipher.decryptWithSessionRecord r0 m seed seeds = .ok (pt, r) →
      RecInv (fun k => used c.addr k ∨ NewKey w c k) (fun x => (c.addr, x) ∈ L) r := by
    intro r0 m seed seeds pt h1 h2 h3 h4 h5
    refine RecInv.decrypt h4 hsent (fun _ => Or.inl) h5 ?_ ?_
    · intro k hk
      have := h3 k (Or.inl (drawn_key hC h1 hk))
      exact ⟨hn k this _, Or.inr this⟩
    · intro i k hk
      have := h3 k (Or.inr ⟨i, drawn_key hC (h2 i) hk⟩)
      exact ⟨hn k this _, Or.inr this⟩
  cases c with
  | encrypt a pt => exact absurd rfl (hc a pt)
  | decryptMsg a m seed seeds =>
    obtain ⟨_, pt, r', h1, h2⟩ := decryptMsg_writes hw
    injection h2 with _ h2
    subst h2
    exact hdec hseeds.1 hseeds.2 (fun k hk => hk) hload.list h1
  | decryptPkmsg a m seed seeds =>
    simp only [Call.run, Call.mapOutcome, Call.addr] at hw
    rcases decryptPkmsg_cases w a m seed seeds with ⟨_, he⟩ | ⟨_, ⟨e, _, he⟩ | ⟨r1, u, e, _, _, he⟩ | ⟨r1, u, pt, r2, hv, hd, he⟩⟩
    · rw [he] at hw; simp at hw
    · rw [he] at hw; simp at hw
    · rw [he] at hw; simp at hw
    · rw [he] at hw
      have : r = r2 := by
        cases u <;> simpa using hw
      subst this
      rcases processV3_ok hv with ⟨_, hx⟩ | ⟨_, spk, kp, ot, s0, s1, s2, _, _, _, _, h0, h1, h2, hx, _⟩
      · injection hx with hx _
        subst hx
        exact hdec hseeds.1 hseeds.2 (fun k hk => hk) hload.list hd
      · simp only at hx
        subst hx
        rw [archive_load_state] at h0
        refine hdec hseeds.1 hseeds.2 (fun k hk => hk) ?_ hd
        exact (hload.list.archive).cons_dormant (dormant_bob h0 h1 h2)
  | processBundle a b bs rs =>
    simp only [Call.run, Call.mapOutcome, Call.addr] at hw
    obtain ⟨_, k, s0, s1, s2, s3, _, _, h0, h1, h2, h3, hws, _⟩ := processPreKeyBundle_writes hw
    rw [hws] at hw
    simp only [List.mem_cons, Write.session.injEq, List.not_mem_nil, or_false, reduceCtorEq, true_and] at hw
    subst hw
    obtain ⟨hk, ha⟩ := keyOf_bundle (k := Curve.serializePoint (Curve.generateKeyPair bs).pub) h0 h1 h2 h3
    refine ⟨?_, ha⟩
    refine (hload.list.archive).cons_new hsent (fun _ => Or.inl) ?_
    intro k hk'
    replace hk' := hk.symm.trans hk'
    have : NewKey w (.processBundle a b bs rs) k := drawn_key hC hseeds.2 hk'
    exact ⟨hn k this _, Or.inr this⟩
  | processKeyExchange a m rnd =>
    have key : ∀ p seed s, RatchetingSession.initializeSession {} p seed = .ok s →
        r = (archiveUnlessFresh (w.loadSession a)).setState s →
        RecInv (fun k => used a k ∨ NewKey w (.processKeyExchange a m rnd) k) (fun x => (a, x) ∈ L) r := by
      intro p seed s hs he
      obtain ⟨ha, hk⟩ := awake_sym hs
      have hk' : ∀ k, keyOf s = .ok k → NewKey w (.processKeyExchange a m rnd) k := by
        intro k hks
        refine ⟨r, hr, hne, ?_⟩
        rw [he]
        exact hk k hks
      subst he
      refine ⟨?_, ha⟩
      refine (hload.list.archive).cons_new hsent (fun _ => Or.inl) ?_
      intro k hks
      exact ⟨hn k (hk' k hks) _, Or.inr (hk' k hks)⟩
    simp only [Call.run, Call.mapOutcome, Call.addr, processKeyExchangeMessage] at hw
    split at hw
    · simp at hw
    · split at hw
      · obtain ⟨_, p, s, hs, _, _, _, hws⟩ := processInitiate_writes hw
        rw [hws] at hw
        simp only [List.mem_cons, Write.session.injEq, List.not_mem_nil, or_false, reduceCtorEq, true_and] at hw
        exact key p _ s hs hw
      · obtain ⟨_, _, _, p, s, hs, _, _, _, _, _, _, hws⟩ := processResponse_writes hw
        rw [hws] at hw
        simp only [List.mem_cons, Write.session.injEq, List.not_mem_nil, or_false, reduceCtorEq, true_and] at hw
        exact key p _ s hs hw
  | initKeyExchange a q bs rs ss =>
    simp only [Call.run, Call.mapOutcome, Call.addr] at hw
    obtain ⟨s, hs, hws⟩ := initKeyExchange_writes hw
    rw [hws] at hw
    simp only [List.mem_singleton, Write.session.injEq, true_and] at hw
    subst hw
    obtain ⟨_, rfl⟩ := setPending_ok hs
    refine ⟨?_, hload.awake⟩
    have := hload.list.mono (used' := fun k => used a k ∨ NewKey w (.initKeyExchange a q bs rs ss) k) fun _ => Or.inl
    refine ⟨?_, ?_⟩
    · intro t ht
      rcases List.mem_cons.1 ht with rfl | ht
      · exact this.live (w.loadSession a).sessionState (List.mem_cons_self ..)
      · exact this.live t (List.mem_cons_of_mem _ ht)
    · obtain ⟨ha, hp⟩ := List.pairwise_cons.1 this.apart
      exact List.pairwise_cons.2 ⟨ha, hp⟩

/-- A successful `encrypt`. -/
theorem SendInv.encrypt {used : Address → ECPub → Prop} {L : List (Address × ECPub × Nat)} {w : World}
    (h : SendInv used L w) {a : Address} {pt : Bytes} {m : Ciphertext}
    (hm : (SessionCipher.encrypt w a pt).result = .ok m) :
    SendInv used (L ++ [(a, m.inner.senderRatchetKey, m.inner.counter)]) ((Call.encrypt a pt).next w) := by
  obtain ⟨r', hw, hcnt, hkey, hcnt', _, hsame, hprev⟩ := C16_encrypt w a pt m hm
  have hload := h.load a
  have hlive : Live (used a) (fun x => (a, x) ∈ L) (w.loadSession a).sessionState :=
    (hload.list.live _ (List.mem_cons_self ..)).resolve_left hload.awake
  obtain ⟨hk', hrc, habk⟩ := withoutSendKey_same hsame
  have hkey : keyOf (w.loadSession a).sessionState = .ok m.inner.senderRatchetKey := hkey
  have hnew : (m.inner.senderRatchetKey, m.inner.counter) ∉ L.map Prod.snd := by
    intro hmem
    obtain ⟨⟨b, k, n⟩, hmem, he⟩ := List.mem_map.1 hmem
    simp only [Prod.mk.injEq] at he
    obtain ⟨rfl, rfl⟩ := he
    have : b = a := h.disj b a _ (h.sent b _ _ hmem) (hlive _ hkey).1
    subst this
    have := (hlive _ hkey).2 _ hmem
    omega
  have hnext : ((Call.encrypt a pt).next w).sessions = upd w.sessions a (some r') := by
    show (w.applyAll (SessionCipher.encrypt w a pt).writes).sessions = _
    rw [hw]
    rfl
  refine ⟨?_, ?_, h.disj, ?_⟩
  · intro b r hr
    rw [hnext] at hr
    by_cases hb : b = a
    · subst hb
      simp only [upd, if_true, Option.some.injEq] at hr
      subst hr
      refine ⟨⟨?_, ?_⟩, ?_⟩
      · intro t ht
        simp only [states, hprev, List.mem_cons] at ht
        rcases ht with rfl | ht
        · right
          intro k hk
          rw [hk'] at hk
          refine ⟨(hlive k hk).1, fun n hn => ?_⟩
          rw [hcnt']
          simp only [List.mem_append, List.mem_singleton, Prod.mk.injEq, true_and] at hn
          rcases hn with hn | ⟨_, hn⟩
          · exact Nat.lt_succ_of_lt ((hlive k hk).2 n hn)
          · omega
        · rcases hload.list.live t (List.mem_cons_of_mem _ ht) with hd | hl
          · exact Or.inl hd
          · rcases (List.pairwise_cons.1 hload.list.apart).1 t ht with hd | hd | hd
            · exact absurd hd hload.awake
            · exact Or.inl hd
            · right
              intro k hk
              refine ⟨(hl k hk).1, fun n hn => ?_⟩
              simp only [List.mem_append, List.mem_singleton, Prod.mk.injEq, true_and] at hn
              rcases hn with hn | ⟨rfl, _⟩
              · exact (hl k hk).2 n hn
              · exact absurd hk (hd _ hkey)
      · simp only [states, hprev]
        refine List.pairwise_cons.2 ⟨?_, (List.pairwise_cons.1 hload.list.apart).2⟩
        intro t ht
        rcases (List.pairwise_cons.1 hload.list.apart).1 t ht with hd | hd | hd
        · exact absurd hd hload.awake
        · exact Or.inr (Or.inl hd)
        · refine Or.inr (Or.inr fun k hk => hd k ?_)
          rw [← hk']; exact hk
      · intro hd
        unfold Dormant at hd
        rw [hrc, habk] at hd
        exact hload.awake hd
    · simp only [upd, if_neg hb] at hr
      have := h.recs b r hr
      refine ⟨⟨fun t ht => ?_, this.list.apart⟩, this.awake⟩
      refine (this.list.live t ht).imp id fun hl k hk => ⟨(hl k hk).1, fun n hn => (hl k hk).2 n ?_⟩
      simp only [List.mem_append, List.mem_singleton, Prod.mk.injEq] at hn
      rcases hn with hn | ⟨hn, _⟩
      · exact hn
      · exact absurd hn hb
  · intro b k n hmem
    simp only [List.mem_append, List.mem_singleton, Prod.mk.injEq] at hmem
    rcases hmem with hmem | ⟨rfl, rfl, rfl⟩
    · exact h.sent b k n hmem
    · exact (hlive _ hkey).1
  · rw [List.map_append]
    refine List.nodup_append.2 ⟨h.nodup, by simp, ?_⟩
    intro x hx y hy hxy
    simp only [List.map_cons, List.map_nil, List.mem_singleton] at hy
    subst hy
    exact hnew (hxy ▸ hx)

end
end Axolotl
