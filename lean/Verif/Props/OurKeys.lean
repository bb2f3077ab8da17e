import Verif.Props.Agreements
import Verif.Proofs.Craft

/-! # C114, whole histories: whose private keys are used -/

namespace Axolotl
section
variable [C : Crypto]
open Spec Logged Traced SessionState SessionBuilder

/-- The private keys in a state are among these. -/
structure HoldsOnly (K : ECPriv → Prop) (s : SessionState) : Prop where
  ratchet : ∀ c, s.senderChain = some c → K (c.senderRatchetKeyPrivate.getD [])
  pending : ∀ p, s.pendingKeyExchange = some p →
    K (p.localIdentityKeyPrivate.getD []) ∧ K (p.localBaseKeyPrivate.getD []) ∧ K (p.localRatchetKeyPrivate.getD [])

omit C in
theorem HoldsOnly.empty {K : ECPriv → Prop} : HoldsOnly K {} := ⟨fun _ h => (by cases h), fun _ h => (by cases h)⟩

omit C in
theorem HoldsOnly.mono {K K' : ECPriv → Prop} {s : SessionState} (h : HoldsOnly K s) (hk : ∀ k, K k → K' k) : HoldsOnly K' s :=
  ⟨fun c hc => hk _ (h.ratchet c hc), fun p hp => ⟨hk _ (h.pending p hp).1, hk _ (h.pending p hp).2.1, hk _ (h.pending p hp).2.2⟩⟩

theorem HoldsOnly.encrypt {K : ECPriv → Prop} {s s' : SessionState} {pt : Bytes} {c : Ciphertext} (h : HoldsOnly K s)
    (he : SessionCipher.encryptWithState s pt = .ok (c, s')) : HoldsOnly K s' := by
  obtain ⟨_, eph, _, _, _, _, _, hr, _, _, _, _, _, _, _, _, sc, rfl, rfl⟩ := SessionCipher.ews_ok he
  refine ⟨fun c hc => ?_, h.pending⟩
  obtain rfl := Option.some.inj hc
  cases hs : s.senderChain with
  | none =>
    unfold getSenderRatchetKey senderChainD at hr
    rw [hs] at hr
    cases hr
  | some c0 =>
    have := h.ratchet c0 hs
    unfold senderChainD
    rw [hs]
    exact this

theorem HoldsOnly.decrypt {K : ECPriv → Prop} {s s' : SessionState} {m : WhisperMessage} {seed pt : Bytes} (h : HoldsOnly K s)
    (hk : K (C.genPriv seed)) (hd : SessionCipher.decryptWithSessionState s m seed = .ok (pt, s')) : HoldsOnly K s' := by
  refine ⟨?_, by rw [(dwss_same hd).2.1]; exact h.pending⟩
  obtain ⟨_, _, ck, s1, mk, s2, _, _, h1, h2, _, _, _, _, h5⟩ := SessionCipher.dwss_ok hd
  obtain ⟨c, j, _, h2⟩ := SessionCipher.gocmk_ok h2
  have hs2 : ∃ c', s2 = setChainAt s1 j c' := by
    rcases h2 with ⟨_, _, _, _, _, h⟩ | ⟨_, _, _, _, _, _, h⟩
    · exact ⟨_, h⟩
    · exact ⟨_, h⟩
  obtain ⟨c', rfl⟩ := hs2
  subst h5
  rcases SessionCipher.gocck_ok h1 with ⟨_, _, _, _, _, _, e⟩ | ⟨_, _, _, _, _, _, _, _, _, _, e⟩
  · subst e; exact h.ratchet
  · subst e
    intro c hc
    obtain rfl := Option.some.inj hc
    exact hk

theorem holds_record {K : ECPriv → Prop} {r r' : SessionRecord} {m : WhisperMessage} {seed pt : Bytes} {seeds : Nat → Bytes}
    (h : r.All (HoldsOnly K)) (hk : ∀ x ∈ seed :: (List.range r.previousStates.length).map seeds, K (C.genPriv x))
    (hd : SessionCipher.decryptWithSessionRecord r m seed seeds = .ok (pt, r')) : r'.All (HoldsOnly K) := by
  rcases dwsr_ok hd with ⟨s, h1, h2⟩ | ⟨_, k, p, s, h1, h2, _, h4⟩
  · subst h2
    exact ⟨h.1.decrypt (hk _ (List.mem_cons_self ..)) h1, h.2⟩
  · subst h4
    have hlt : k < r.previousStates.length := (List.getElem?_eq_some_iff.1 h1).1
    refine SessionRecord.All.promote (r := { r with previousStates := r.previousStates.eraseIdx k }) ⟨h.1, fun x hx => h.2 x (List.mem_of_mem_eraseIdx hx)⟩
      ((h.2 p (List.mem_of_getElem? h1)).decrypt (hk _ (List.mem_cons_of_mem _ (List.mem_map_of_mem (List.mem_range.2 hlt)))) h2)

theorem holds_created {K : ECPriv → Prop} {s : SessionState} (h : Created s)
    (hk : ∀ c, s.senderChain = some c → K (c.senderRatchetKeyPrivate.getD [])) : HoldsOnly K s :=
  ⟨hk, fun p hp => by rw [(created_shape h).2.1] at hp; cases hp⟩

theorem sym_private {p : SymmetricParameters} {seed : Bytes} {s : SessionState} (h : RatchetingSession.initializeSession {} p seed = .ok s)
    {c : ChainS} (hc : s.senderChain = some c) :
    c.senderRatchetKeyPrivate = some (C.genPriv seed) ∨ c.senderRatchetKeyPrivate = some p.ourRatchetKey.priv := by
  unfold RatchetingSession.initializeSession at h
  obtain ⟨b, _, h⟩ := bind_eq_ok.1 h
  split at h
  · obtain ⟨_, _, _, _, _, rfl⟩ := initAlice_ok h
    obtain rfl := Option.some.inj hc
    exact Or.inl rfl
  · obtain ⟨_, _, rfl⟩ := initBob_ok h
    obtain rfl := Option.some.inj hc
    exact Or.inr rfl

/-- What the answer to a request is built from. -/
theorem initiate_state {w : World} {a : Address} {m : KeyExchangeMessage} {rnd : InitiateRand} {r : SessionRecord} {flags : Nat}
    {p : SymmetricParameters} (hs : processInitiateState w a m rnd = .ok (r, flags, p)) :
    ∃ s, RatchetingSession.initializeSession {} p rnd.sendSeed = .ok s ∧ r = (archiveUnlessFresh (w.loadSession a)).setState s := by
  unfold processInitiateState at hs
  obtain ⟨ok, hok, hs⟩ := bind_eq_ok.1 hs
  split at hs
  · cases hs
  · dsimp only at hs
    split at hs
    · simp only [ok_bind] at hs
      obtain ⟨s, h3, hs⟩ := bind_eq_ok.1 hs
      replace hs := Except.ok.inj hs
      injection hs with h4 h5
      injection h5 with h5 h6
      subst h4; subst h6
      rw [archive_load_state] at h3
      exact ⟨s, h3, rfl⟩
    · obtain ⟨ik, _, hs⟩ := bind_eq_ok.1 hs
      obtain ⟨bk, _, hs⟩ := bind_eq_ok.1 hs
      obtain ⟨rk, _, hs⟩ := bind_eq_ok.1 hs
      simp only [ok_bind] at hs
      obtain ⟨s, h3, hs⟩ := bind_eq_ok.1 hs
      replace hs := Except.ok.inj hs
      injection hs with h4 h5
      injection h5 with h5 h6
      subst h4; subst h6
      rw [archive_load_state] at h3
      exact ⟨s, h3, rfl⟩

/-- All stored states hold only these private keys. -/
def StoresOnly (K : ECPriv → Prop) (w : World) : Prop := ∀ a r, w.sessions a = some r → r.All (HoldsOnly K)

omit C in
theorem StoresOnly.load {K : ECPriv → Prop} {w : World} (h : StoresOnly K w) (a : Address) : (w.loadSession a).All (HoldsOnly K) := by
  unfold World.loadSession
  cases hs : w.sessions a with
  | none => exact ⟨.empty, by intro s hs; cases hs⟩
  | some r => exact h a r hs

omit C in
theorem StoresOnly.archive {K : ECPriv → Prop} {w : World} (h : StoresOnly K w) (a : Address) {s : SessionState} (hs : HoldsOnly K s) :
    ((archiveUnlessFresh (w.loadSession a)).setState s).All (HoldsOnly K) := by
  have hl := h.load a
  refine ⟨hs, ?_⟩
  show ∀ x ∈ (archiveUnlessFresh (w.loadSession a)).previousStates, _
  unfold archiveUnlessFresh
  split
  · exact (hl.promote (s := {}) .empty).2
  · exact hl.2

omit C in
theorem StoresOnly.exchange {K : ECPriv → Prop} {w : World} (h : StoresOnly K w) {a : Address} {p : PendingKeyExchangeS}
    {identity base ratchet : KeyPair} (hp : Spec.pendingOf (w.sessions a) = some p) (hk : PendingKeys p identity base ratchet) :
    K identity.priv ∧ K base.priv ∧ K ratchet.priv := by
  have hl := (h.load a).1.pending p ((pending_loaded w a).trans hp)
  rw [hk.identity.2, hk.base.2, hk.ratchet.2] at hl
  exact hl

theorem StoresOnly.answer {K : ECPriv → Prop} {w : World} (h : StoresOnly K w) {a : Address} {rnd : InitiateRand}
    {identity base ratchet : KeyPair} {flags : Nat} (hid : K w.identityKeyPair.priv) (hb : K (C.genPriv rnd.baseSeed))
    (hr : K (C.genPriv rnd.ratchetSeed)) (hk : AnswerKeys w a rnd identity base ratchet flags) :
    K identity.priv ∧ K base.priv ∧ K ratchet.priv := by
  cases hk with
  | new _ => exact ⟨hid, hb, hr⟩
  | pending hp hk => exact h.exchange hp hk

/-- A call stores no private keys but these, if its randomness makes none but these. -/
theorem StoresOnly.next {K : ECPriv → Prop} {w : World} (h : StoresOnly K w) (hid : K w.identityKeyPair.priv)
    (hspk : ∀ i p, w.signedPreKeys i = some p → K (p.privateKey.getD [])) (c : Call) (hr : ∀ x ∈ randomness w c, K (C.genPriv x)) :
    StoresOnly K (c.next w) := by
  intro a r hrec
  rcases applyAll_sessions (ws := (c.run w).writes) (w := w) (a := a) with h1 | ⟨r', hw, h2⟩
  · exact h a r (by rw [← h1]; exact hrec)
  · have h3 : (c.next w).sessions a = some r' := h2
    rw [h3] at hrec
    injection hrec with hrec
    subst hrec
    clear h2 h3
    cases c with
    | encrypt b pt =>
      obtain ⟨c, s, h1, h2⟩ := encrypt_writes hw
      injection h2 with h2 h3
      subst h2; subst h3
      exact ⟨(h.load a).1.encrypt h1, (h.load a).2⟩
    | decryptMsg b m seed seeds =>
      obtain ⟨_, c, s, h1, h2⟩ := decryptMsg_writes hw
      injection h2 with h2 h3
      subst h2; subst h3
      exact holds_record (h.load a) hr h1
    | decryptPkmsg b m seed seeds =>
      simp only [Call.run, Call.mapOutcome] at hw
      rcases decryptPkmsg_cases w b m seed seeds with ⟨_, he⟩ | ⟨_, ⟨e, _, he⟩ | ⟨r, u, e, _, _, he⟩ | ⟨r, u, pt, r2, hv, hd, he⟩⟩
      · rw [he] at hw; simp at hw
      · rw [he] at hw; simp at hw
      · rw [he] at hw; simp at hw
      · rw [he] at hw
        have : a = b ∧ r' = r2 := by
          cases u <;> simpa using hw
        obtain ⟨rfl, rfl⟩ := this
        rcases processV3_ok hv with ⟨_, hx⟩ | ⟨_, spk, kp, ot, s0, s1, s2, g1, g2, _, _, h0, h1, h2, hx, _⟩
        · injection hx with hx _
          subst hx
          refine holds_record (h.load a) (fun x hx => hr x ?_) hd
          exact ((range_sublist (by simp [states]) seeds).cons_cons seed).subset hx
        · simp only at hx
          subst hx
          have hh : HoldsOnly K (s2.setAliceBaseKey (Curve.serializePoint m.baseKey)) := by
            rw [archive_load_state] at h0
            refine holds_created (.bob h0 h1 h2) fun c hc => ?_
            have hkp : kp.priv = spk.privateKey.getD [] := by
              unfold SignedPreKeyRecord.getKeyPair at g2
              obtain ⟨pub, _, g2⟩ := bind_eq_ok.1 g2
              obtain rfl := Except.ok.inj g2
              rfl
            have e2 : s2.senderChain = s1.senderChain := by
              unfold setRemoteRegistrationId at h2
              obtain ⟨_, _, h2⟩ := bind_eq_ok.1 h2
              obtain rfl := Except.ok.inj h2
              rfl
            have e1 : s1.senderChain = s0.senderChain := by
              unfold setLocalRegistrationId at h1
              obtain ⟨_, _, h1⟩ := bind_eq_ok.1 h1
              obtain rfl := Except.ok.inj h1
              rfl
            replace hc : s0.senderChain = some c := by rw [← e1, ← e2]; exact hc
            obtain ⟨_, _, rfl⟩ := initBob_ok h0
            obtain rfl := Option.some.inj hc
            show K kp.priv
            rw [hkp]
            unfold World.loadSignedPreKey at g1
            split at g1
            · rename_i p hp
              rw [← Except.ok.inj g1]
              exact hspk _ _ hp
            · cases g1
          refine holds_record (h.archive a hh) (fun x hx => hr x ?_) hd
          exact ((range_sublist (archive_more (w.loadSession a)) seeds).cons_cons seed).subset hx
    | processBundle b bu s1 s2 =>
      simp only [Call.run, Call.mapOutcome] at hw
      obtain ⟨_, k, s0, t1, t2, t3, _, _, h0, h1, h2, h3, hws, _⟩ := processPreKeyBundle_writes hw
      rw [hws] at hw
      simp only [List.mem_cons, Write.session.injEq, List.not_mem_nil, or_false, reduceCtorEq] at hw
      obtain ⟨rfl, rfl⟩ := hw
      refine h.archive a (holds_created (.alice h0 h1 h2 h3) fun c hc => ?_)
      have e3 : t3.senderChain = t2.senderChain := by
        unfold setRemoteRegistrationId at h3
        obtain ⟨_, _, h3⟩ := bind_eq_ok.1 h3
        obtain rfl := Except.ok.inj h3
        rfl
      have e2 : t2.senderChain = t1.senderChain := by
        unfold setLocalRegistrationId at h2
        obtain ⟨_, _, h2⟩ := bind_eq_ok.1 h2
        obtain rfl := Except.ok.inj h2
        rfl
      have e1 : t1.senderChain = s0.senderChain := by
        obtain ⟨_, _, _, _, _, _, _, rfl⟩ := setUnack_ok h1
        rfl
      replace hc : s0.senderChain = some c := by rw [← e1, ← e2, ← e3]; exact hc
      obtain ⟨_, _, _, _, _, rfl⟩ := initAlice_ok h0
      obtain rfl := Option.some.inj hc
      exact hr s2 (by simp [randomness])
    | processKeyExchange b m rnd =>
      simp only [Call.run, Call.mapOutcome, processKeyExchangeMessage] at hw
      split at hw
      · simp at hw
      · split at hw
        · unfold processInitiate at hw
          cases hs : processInitiateState w b m rnd with
          | error e => rw [hs] at hw; simp at hw
          | ok y =>
            obtain ⟨r, flags, p⟩ := y
            rw [hs] at hw
            simp only [List.mem_cons, Write.session.injEq, List.not_mem_nil, or_false, reduceCtorEq] at hw
            obtain ⟨rfl, rfl⟩ := hw
            obtain ⟨s, h1, rfl⟩ := initiate_state hs
            obtain ⟨_, hk⟩ := initiate_keys hs
            refine h.archive a (holds_created (.sym h1) fun c hc => ?_)
            rcases sym_private h1 hc with e | e
            · rw [e]; exact hr _ (by simp [randomness])
            · rw [e]; exact (h.answer hid (hr _ (by simp [randomness])) (hr _ (by simp [randomness])) hk).2.2
        · obtain ⟨_, hp, _, p, s, hs, k1, k2, k3, _, _, _, hws⟩ := processResponse_writes hw
          rw [hws] at hw
          simp only [List.mem_cons, Write.session.injEq, List.not_mem_nil, or_false, reduceCtorEq] at hw
          obtain ⟨rfl, rfl⟩ := hw
          refine h.archive a (holds_created (.sym hs) fun c hc => ?_)
          rcases sym_private hs hc with e | e
          · rw [e]; exact hr _ (by simp [randomness])
          · rw [e]
            unfold hasPendingKeyExchange at hp
            cases hq : (w.loadSession a).sessionState.pendingKeyExchange with
            | none => rw [hq] at hp; cases hp
            | some x => exact (h.exchange ((pending_loaded w a).symm.trans hq) (pendingKeys_of hq k3 k1 k2)).2.2
    | initKeyExchange b q s1 s2 s3 =>
      simp only [Call.run, Call.mapOutcome] at hw
      obtain ⟨s, hs, hws⟩ := initKeyExchange_writes hw
      rw [hws] at hw
      simp only [List.mem_singleton, Write.session.injEq] at hw
      obtain ⟨rfl, rfl⟩ := hw
      refine ⟨?_, (h.load a).2⟩
      obtain ⟨_, rfl⟩ := setPending_ok hs
      refine ⟨(h.load a).1.ratchet, fun p hp => ?_⟩
      injection hp with hp
      subst hp
      exact ⟨hid, hr s1 (by simp [randomness]), hr s2 (by simp [randomness])⟩

theorem _root_.Axolotl.Spec.OurKey.more {w : World} {l l' : List Bytes} {k : ECPriv} (h : OurKey w l k) (hl : ∀ x ∈ l, x ∈ l') : OurKey w l' k := by
  cases h with
  | identity => exact .identity
  | signed h => exact .signed h
  | oneTime h => exact .oneTime h
  | made h => exact .made (hl _ h)

theorem historyRandomness_append (w : World) (cs ds : List Call) :
    historyRandomness w (cs ++ ds) = historyRandomness w cs ++ historyRandomness (Call.after w cs) ds := by
  induction cs generalizing w with
  | nil => rfl
  | cons c cs ih =>
    show randomness w c ++ historyRandomness (c.next w) (cs ++ ds) = (randomness w c ++ historyRandomness (c.next w) cs) ++ _
    rw [ih, List.append_assoc]
    rfl

theorem kept_after (w : World) (cs : List Call) : Kept w (Call.after w cs) := by
  induction cs generalizing w with
  | nil => exact Kept.refl w
  | cons c cs ih => exact (kept_applyAll w _).trans (ih (c.next w))

theorem storesOnly_after {w w0 : World} {l : List Bytes} (hk : Kept w0 w) (h : StoresOnly (OurKey w0 l) w) (cs : List Call) :
    StoresOnly (OurKey w0 (l ++ historyRandomness w cs)) (Call.after w cs) := by
  induction cs generalizing w l with
  | nil => exact fun a r hr => ⟨((h a r hr).1.mono fun _ hk => hk.more fun _ hx => List.mem_append_left _ hx),
      fun s hs => ((h a r hr).2 s hs).mono fun _ hk => hk.more fun _ hx => List.mem_append_left _ hx⟩
  | cons c cs ih =>
    have h' : StoresOnly (OurKey w0 (l ++ randomness w c)) w := fun a r hr => ⟨((h a r hr).1.mono fun _ hk => hk.more fun _ hx =>
      List.mem_append_left _ hx), fun s hs => ((h a r hr).2 s hs).mono fun _ hk => hk.more fun _ hx => List.mem_append_left _ hx⟩
    have := ih (w := c.next w) (hk.trans (kept_applyAll w _)) (h'.next (by rw [hk.pair]; exact .identity)
      (fun i p hp => .signed (by rw [← hk.signed]; exact hp)) c fun x hx => .made (List.mem_append_right _ hx))
    rw [List.append_assoc] at this
    exact this

/-- **C114**, whole histories: in any history that begins without sessions, whatever messages, bundles and requests come in, agreements are
made only with our own private keys: the identity key, the prekeys that were in the stores, and keys made in this history from our own random
bytes. -/
theorem C114_history (w : World) (hw : w.NoSessions) (cs : List Call) (c : Call) (k : ECPriv) (p : ECPub)
    (h : .dh k p ∈ callTrace (Call.after w cs) c) : OurKey w (historyRandomness w (cs ++ [c])) k := by
  have hk := kept_after w cs
  have hs := storesOnly_after (l := []) (Kept.refl w) (fun a r h => by rw [hw a] at h; cases h) cs
  have hin : ∀ x ∈ randomness (Call.after w cs) c, x ∈ historyRandomness w (cs ++ [c]) := fun x hx => by
    rw [historyRandomness_append]
    exact List.mem_append_right _ (List.mem_append_left _ hx)
  replace hs : StoresOnly (OurKey w (historyRandomness w (cs ++ [c]))) (Call.after w cs) := fun a r hr => by
    have hm : ∀ k, OurKey w ([] ++ historyRandomness w cs) k → OurKey w (historyRandomness w (cs ++ [c])) k := fun k h => h.more fun x hx => by
      rw [historyRandomness_append]
      exact List.mem_append_left _ hx
    exact ⟨(hs a r hr).1.mono hm, fun s h => ((hs a r hr).2 s h).mono hm⟩
  have hid : OurKey w (historyRandomness w (cs ++ [c])) (Call.after w cs).identityKeyPair.priv := by rw [hk.pair]; exact .identity
  have hx : ∀ {a : Address} {m : KeyExchangeMessage} {rnd : InitiateRand} {identity base : KeyPair}, c = .processKeyExchange a m rnd →
      ExchangeWith (Call.after w cs) a m rnd identity base →
      OurKey w (historyRandomness w (cs ++ [c])) identity.priv ∧ OurKey w (historyRandomness w (cs ++ [c])) base.priv := by
    rintro a m rnd identity base rfl hx
    cases hx with
    | request _ _ _ ha =>
      obtain ⟨h1, h2, _⟩ := hs.answer hid (.made (hin _ (by simp [randomness]))) (.made (hin _ (by simp [randomness]))) ha
      exact ⟨h1, h2⟩
    | reply _ _ hp _ ha =>
      obtain ⟨h1, h2, _⟩ := hs.exchange hp ha
      exact ⟨h1, h2⟩
  cases C114_call _ _ _ _ h with
  | @ratchet _ a m st sc _ hst _ hc =>
    have hl := hs.load a
    rcases List.mem_cons.1 hst with rfl | hst
    · exact hl.1.ratchet _ hc
    · exact (hl.2 st hst).ratchet _ hc
  | new _ _ _ hr => exact .made (hin _ hr)
  | firstNew _ hr => exact .made (hin _ hr)
  | firstIdentity _ => exact hid
  | firstSigned _ hp _ => exact .signed (by rw [← hk.signed]; exact hp)
  | @firstOneTime _ _ _ _ i _ _ _ hp =>
    rcases hk.preKeys i with e | e
    · rw [e] at hp; cases hp
    · exact .oneTime (by rw [← e]; exact hp)
  | bundleIdentity _ => exact hid
  | bundleBase _ _ => exact .made (hin _ (by simp [randomness]))
  | bundleRatchet _ => exact .made (hin _ (by simp [randomness]))
  | exchangeIdentity he => exact (hx rfl he).1
  | exchangeBase he _ => exact (hx rfl he).2
  | exchangeRatchet _ => exact .made (hin _ (by simp [randomness]))

end

section
open Example Spec
attribute [local instance] toy

/-- The hypothesis of `C114_history`: after Alice has begun a session and written, the ratchet key of the session meets that of the reply. -/
example : alice0.sessions bobAddr = none ∧
    .dh ((toy).genPriv (key 42)) replyMsg.senderRatchetKey ∈ callTrace (Call.after alice0 [.processBundle bobAddr bobBundle (key 41) (key 42),
      .encrypt bobAddr [104, 105]]) (.decryptMsg bobAddr replyMsg (key 43) (fun _ => key 44)) := by
  decide +kernel

end
end Axolotl
