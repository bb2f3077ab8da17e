import Verif.Spec.FirstUse
import Verif.Props.Forge

/-! # First conversations: what is in the records -/

namespace Axolotl
section
variable [C : Crypto]
open SessionState SessionBuilder RatchetingSession
open Spec (Net Conv Step Start header AStep ASteps Attack Recorded SetUp Chainless FirstUse First Leftover)

theorem chainless_dwss {s : SessionState} (h : Chainless s) {m : WhisperMessage} {seed pt : Bytes} {s' : SessionState}
    (hd : SessionCipher.decryptWithSessionState s m seed = .ok (pt, s')) : False := by
  have : s.senderChain.isSome = true := (SessionCipher.dwss_ok hd).1
  rw [h.1] at this
  cases this

omit C in
theorem chainless_load {w : World} {a : Address} (h : ∀ r, w.sessions a = some r → ∀ s ∈ Spec.states r, Chainless s) :
    ∀ s ∈ Spec.states (w.loadSession a), Chainless s := by
  unfold World.loadSession
  cases hr : w.sessions a with
  | none =>
    intro s hs
    rcases List.mem_cons.1 hs with rfl | hs
    · exact ⟨rfl, rfl⟩
    · cases hs
  | some r => exact h r hr

theorem chainless_dwsr {r : SessionRecord} (h : ∀ s ∈ Spec.states r, Chainless s) {m : WhisperMessage} {seed pt : Bytes}
    {seeds : Nat → Bytes} {r' : SessionRecord} (hd : SessionCipher.decryptWithSessionRecord r m seed seeds = .ok (pt, r')) : False := by
  rcases dwsr_ok hd with ⟨s, e, _⟩ | ⟨_, k, p, s, e1, e2, _⟩
  · exact chainless_dwss (h _ (List.mem_cons_self ..)) e
  · exact chainless_dwss (h _ (List.mem_cons_of_mem _ (List.mem_of_getElem? e1))) e2

omit C in
theorem archived_chainless {w : World} {a : Address} (h : ∀ r, w.sessions a = some r → ∀ s ∈ Spec.states r, Chainless s) {s : SessionState}
    (hs : s ∈ (archiveUnlessFresh (w.loadSession a)).previousStates) : Chainless s := by
  obtain ⟨k, hk⟩ := List.getElem?_of_mem hs
  obtain ⟨r, hr, hg⟩ := archived_get hk
  exact h r hr s (List.mem_of_getElem? hg)

omit C in
theorem pkmsg_final {w : World} {a : Address} {k : ECPub} {r : SessionRecord} {u : Option Nat} :
    (w.applyAll ([.identity a.1 k, .session a r] ++ (u.map Write.removePreKey).toList)).sessions a = some r ∧
    (w.applyAll ([.identity a.1 k, .session a r] ++ (u.map Write.removePreKey).toList)).identities a.1 = some k := by
  cases u <;> simp [World.applyAll, World.apply, upd]

/-- Without a session, a message is accepted only by the session that it sets up. -/
theorem chainless_receive (hC : C.Lawful) {w : World} {a : Address} {peer : ECPub} {type : Nat} {bytes seed : Bytes} {seeds : Nat → Bytes}
    (hch : ∀ r, w.sessions a = some r → ∀ s ∈ Spec.states r, Chainless s)
    (htr : type = 3 → ∀ m, PreKeyWhisperMessage.parse bytes = .ok m → w.isTrusted a.1 m.identityKey = true → m.identityKey = peer)
    {pt : Bytes} (hok : (Spec.receive w a type bytes seed seeds).result = .ok pt) :
    ∃ r, ((Spec.receive w a type bytes seed seeds).final w).sessions a = some r ∧ (∀ s ∈ r.previousStates, Chainless s) ∧
      ((Spec.receive w a type bytes seed seeds).final w).identities a.1 = some peer := by
  unfold Spec.receive at hok ⊢
  split at hok
  · rename_i ht
    rw [if_pos ht]
    cases hp : PreKeyWhisperMessage.parse bytes with
    | error e => rw [hp] at hok; cases hok
    | ok m =>
      rw [hp] at hok
      simp only at hok ⊢
      rcases decryptPkmsg_cases w a m seed seeds with ⟨_, h'⟩ | ⟨hti, ⟨e, _, h'⟩ | ⟨r, u, e, _, _, h'⟩ | ⟨r1, u, pt', r2, hv, hdec, h'⟩⟩
      · rw [h'] at hok; cases hok
      · rw [h'] at hok; cases hok
      · rw [h'] at hok; cases hok
      · rw [h']
        show ∃ r, (w.applyAll _).sessions a = some r ∧ _ ∧ (w.applyAll _).identities a.1 = some peer
        refine ⟨r2, pkmsg_final.1, ?_, by rw [pkmsg_final.2, htr ht m hp hti]⟩
        cases hkn : (w.loadSession a).hasSessionState m.version (Curve.serializePoint m.baseKey) with
        | true =>
          rcases processV3_ok hv with ⟨_, hx⟩ | ⟨hx, _⟩
          · obtain ⟨rfl, rfl⟩ := Prod.mk.inj hx
            exact (chainless_dwsr (chainless_load hch) hdec).elim
          · rw [hkn] at hx; cases hx
        | false =>
          obtain ⟨s, _, hr1⟩ := setUp_of_process hC hkn hv
          simp only at hr1
          subst hr1
          rcases dwsr_ok hdec with ⟨s2, _, rfl⟩ | ⟨_, k, p, s2, e1, e2, _, rfl⟩
          · exact fun s hs => archived_chainless hch hs
          · exact (chainless_dwss (archived_chainless hch (List.mem_of_getElem? e1)) e2).elim
  · rename_i ht
    rw [if_neg ht]
    cases hp : WhisperMessage.parse bytes with
    | error e => rw [hp] at hok; cases hok
    | ok m =>
      rw [hp] at hok
      simp only at hok
      exfalso
      unfold SessionCipher.decryptMsg at hok
      split at hok
      · cases hok
      · cases hd : SessionCipher.decryptWithSessionRecord (w.loadSession a) m seed seeds with
        | error e => rw [hd] at hok; cases hok
        | ok x => exact chainless_dwsr (chainless_load hch) (pt := x.1) (r' := x.2) hd

/-- Trust on first use: the saved key stays, whatever arrives. -/
theorem receive_saved {w : World} {a : Address} {peer : ECPub} (hf : FirstUse w) (hs : w.identities a.1 = some peer) (type : Nat)
    (bytes seed : Bytes) (seeds : Nat → Bytes) :
    ((Spec.receive w a type bytes seed seeds).final w).identities a.1 = some peer := by
  unfold Spec.receive
  split
  · cases hp : PreKeyWhisperMessage.parse bytes with
    | error e => exact hs
    | ok m =>
      simp only
      have hk : w.isTrusted a.1 m.identityKey = true → m.identityKey = peer := by
        intro ht
        rcases hf _ _ _ ht with h | h
        · rw [hs] at h; cases h
        · rw [hs] at h; exact (Option.some.inj h).symm
      rcases decryptPkmsg_cases w a m seed seeds with ⟨_, h'⟩ | ⟨hti, ⟨e, _, h'⟩ | ⟨r, u, e, _, _, h'⟩ | ⟨r1, u, pt', r2, _, _, h'⟩⟩
      · rw [h']; exact hs
      · rw [h']; exact hs
      · rw [h', ← hk hti]
        simp [Outcome.final, World.applyAll, World.apply, upd]
      · rw [h', ← hk hti]
        exact pkmsg_final.2
  · cases hp : WhisperMessage.parse bytes with
    | error e => exact hs
    | ok m =>
      show (w.applyAll _).identities a.1 = some peer
      rw [applyAll_identities, hs]
      intro k hk
      obtain ⟨_, _, _, _, h⟩ := decryptMsg_writes hk
      cases h

/-! ## What is in the records -/

structure Clean (cv : Conv) (n : Net) : Prop where
  policy : ∀ b, FirstUse (n.world b)
  saved : ∀ b, n.joined cv b → (n.world b).identities (cv.addr b).1 = some (n.world (!b)).identityKeyPair.pub
  before : ∀ b r, ¬ n.joined cv b → (n.world b).sessions (cv.addr b) = some r → ∀ s ∈ Spec.states r, Chainless s
  previous : ∀ b r, (n.world b).sessions (cv.addr b) = some r → ∀ s ∈ r.previousStates, Chainless s ∨ Leftover cv n b s

theorem First.clean {cv : Conv} {n : Net} (h : First cv n) : Clean cv n := by
  refine ⟨h.policy, h.saved, fun b r hj hr s hs => ?_, fun b r hr s hs => Or.inl (h.previous b r hr s hs)⟩
  rcases List.mem_cons.1 hs with rfl | hs
  · exact h.before b r hj hr
  · exact h.previous b r hr s hs

/-- What no call changes. -/
structure Fixed (w w' : World) : Prop where
  pair : w'.identityKeyPair = w.identityKeyPair
  signed : w'.signedPreKeys = w.signedPreKeys
  reg : w'.registrationId = w.registrationId
  policy : w'.policy = w.policy

omit C in
theorem fixed_applyAll (w : World) (ws : List Write) : Fixed w (w.applyAll ws) := by
  obtain ⟨h1, h2, h3, h4⟩ := applyAll_other (ws := ws) (w := w)
  exact ⟨h2, h1, h3, h4⟩

theorem setUp_fixed {w w' : World} (h : Fixed w w') {preKeys : Nat → Option PreKeyRecord} {m : PreKeyWhisperMessage} {s : SessionState}
    (hs : SetUp { w with preKeys := preKeys } m s) : SetUp { w' with preKeys := preKeys } m s := by
  unfold SetUp at hs ⊢
  simp only [h.pair, h.signed, h.reg] at hs ⊢
  exact hs

/-- Side `b` changes. -/
theorem Clean.upd {cv : Conv} {n : Net} (h : Clean cv n) {b : Bool} {w : World} {sent : Bool → List (Ciphertext × Bytes)}
    {acc : Bool → List Nat} {keys : List ECPub} (hw : Fixed (n.world b) w) (hacc : ∀ a, a ≠ b → acc a = n.accepted a)
    (hsaved : (cv.waits = true → b = false → acc false ≠ []) → w.identities (cv.addr b).1 = some (n.world (!b)).identityKeyPair.pub)
    (hbefore : ∀ r, ¬ (cv.waits = true → b = false → acc false ≠ []) → w.sessions (cv.addr b) = some r →
      ∀ s ∈ Spec.states r, Chainless s)
    (hprevious : ∀ r, w.sessions (cv.addr b) = some r → ∀ s ∈ r.previousStates, Chainless s ∨
      ∃ (preKeys : Nat → Option PreKeyRecord) (m : PreKeyWhisperMessage), m.identityKey = (n.world (!b)).identityKeyPair.pub ∧
        SetUp { n.world b with preKeys := preKeys } m s ∧ r.sessionState.aliceBaseKey ≠ some (5 :: m.baseKey)) :
    Clean cv { world := Axolotl.upd n.world b w, sent := sent, accepted := acc, keys := keys } := by
  have hpair : ∀ a, (Axolotl.upd n.world b w a).identityKeyPair = (n.world a).identityKeyPair := by
    intro a
    by_cases hab : a = b
    · subst hab; rw [upd_same]; exact hw.pair
    · rw [upd_other _ _ hab]
  have hj : ∀ a, a ≠ b → (Net.joined cv { world := Axolotl.upd n.world b w, sent := sent, accepted := acc, keys := keys } a ↔ n.joined cv a) := by
    intro a hab
    unfold Net.joined
    constructor
    · rintro g h1 rfl; rw [← hacc _ hab]; exact g h1 rfl
    · rintro g h1 rfl; show acc _ ≠ _; rw [hacc _ hab]; exact g h1 rfl
  refine ⟨fun a => ?_, fun a ja => ?_, fun a r ja hr => ?_, fun a r hr s hs => ?_⟩
  · by_cases hab : a = b
    · subst hab
      show FirstUse (Axolotl.upd n.world a w a)
      rw [upd_same]
      unfold FirstUse
      rw [hw.policy]
      exact h.policy a
    · show FirstUse (Axolotl.upd n.world b w a)
      rw [upd_other _ _ hab]
      exact h.policy a
  · show (Axolotl.upd n.world b w a).identities _ = some (Axolotl.upd n.world b w (!a)).identityKeyPair.pub
    rw [hpair]
    by_cases hab : a = b
    · subst hab; rw [upd_same]; exact hsaved ja
    · rw [upd_other _ _ hab]; exact h.saved a ((hj a hab).1 ja)
  · replace hr : (Axolotl.upd n.world b w a).sessions (cv.addr a) = some r := hr
    by_cases hab : a = b
    · subst hab; rw [upd_same] at hr; exact hbefore r ja hr
    · rw [upd_other _ _ hab] at hr; exact h.before a r (fun g => ja ((hj a hab).2 g)) hr
  · replace hr : (Axolotl.upd n.world b w a).sessions (cv.addr a) = some r := hr
    unfold Leftover
    show Chainless s ∨ ∃ preKeys m, m.identityKey = (Axolotl.upd n.world b w (!a)).identityKeyPair.pub ∧
      SetUp { Axolotl.upd n.world b w a with preKeys := preKeys } m s ∧
      ∀ r, (Axolotl.upd n.world b w a).sessions (cv.addr a) = some r → _
    rw [hpair]
    by_cases hab : a = b
    · subst hab
      rw [upd_same] at hr ⊢
      refine (hprevious r hr s hs).imp id ?_
      rintro ⟨pks, m, h1, h2, h3⟩
      refine ⟨pks, m, h1, setUp_fixed hw h2, fun r' hr' => ?_⟩
      rw [hr] at hr'
      obtain rfl := Option.some.inj hr'
      exact h3
    · rw [upd_other _ _ hab] at hr ⊢
      exact h.previous a r hr s hs

theorem Clean.old {cv : Conv} {n : Net} (h : Clean cv n) {b : Bool} {r r' : SessionRecord}
    (hr : (n.world b).sessions (cv.addr b) = some r) (hb : r'.sessionState.aliceBaseKey = r.sessionState.aliceBaseKey) {s : SessionState}
    (hs : s ∈ r.previousStates) : Chainless s ∨
      ∃ (preKeys : Nat → Option PreKeyRecord) (m : PreKeyWhisperMessage), m.identityKey = (n.world (!b)).identityKeyPair.pub ∧
        SetUp { n.world b with preKeys := preKeys } m s ∧ r'.sessionState.aliceBaseKey ≠ some (5 :: m.baseKey) := by
  refine (h.previous b r hr s hs).imp id ?_
  rintro ⟨pks, m, h1, h2, h3⟩
  exact ⟨pks, m, h1, h2, by rw [hb]; exact h3 r hr⟩

theorem encrypt_final {w : World} {a : Address} {r : SessionRecord} (hr : w.sessions a = some r) {pt : Bytes} {c : Ciphertext}
    (h : (SessionCipher.encrypt w a pt).result = .ok c) :
    ∃ r', ((SessionCipher.encrypt w a pt).final w).sessions a = some r' ∧ r'.previousStates = r.previousStates ∧
      r'.sessionState.aliceBaseKey = r.sessionState.aliceBaseKey ∧
      ((SessionCipher.encrypt w a pt).final w).identities = w.identities := by
  have hload : w.loadSession a = { r with fresh := false } := by unfold World.loadSession; rw [hr]
  unfold SessionCipher.encrypt at h ⊢
  cases he : SessionCipher.encryptWithState (w.loadSession a).sessionState pt with
  | error e => simp only [he] at h; cases h
  | ok x =>
    simp only [he]
    refine ⟨(w.loadSession a).setState x.2, ?_, ?_, ?_, rfl⟩
    · simp [Outcome.ofRes, Outcome.final, World.applyAll, World.apply, upd]
    · rw [hload]; rfl
    · show x.2.aliceBaseKey = _
      rw [(ews_same (c := x.1) (s' := x.2) he).1.2.2.2.1, hload]

/-- A genuine message on an open side. -/
theorem open_deliver (hC : C.Lawful) {v : Kdf} {ids : Bool → ECPub} {cv : Conv} {n : Net} {hd : PkHeader} {g : Ghost v}
    (hg : GInv cv ids n g) (hw : WInv cv ids hd n g) {b : Bool} (hopen : Open cv ids hd g b (n.world b)) {i : Nat} {c : Ciphertext}
    {pt seed : Bytes} (seeds : Nat → Bytes) (hi : (n.sent (!b))[i]? = some (c, pt))
    (hl : i ∉ n.accepted b → n.inLimits cv b (header c)) (hr : i ∈ n.accepted b → n.remembered cv b (header c))
    (hseed : seed.length = 32) (hfresh : C.genPub (C.genPriv seed) ∉ n.keys) :
    ∃ r r', (n.world b).sessions (cv.addr b) = some r ∧
      ((Spec.receive (n.world b) (cv.addr b) c.getType c.serialize seed seeds).final (n.world b)).sessions (cv.addr b) = some r' ∧
      r'.previousStates = r.previousStates ∧ r'.sessionState.aliceBaseKey = r.sessionState.aliceBaseKey := by
  obtain ⟨r, q1, q2, q3, q4⟩ := hopen
  obtain ⟨ws, hws, hrec⟩ := Open.receive_eq (b := b) (hd := hd) (ids := ids) q1 (fun x y => ⟨by obtain rfl := hw.v3 y; exact q2.version, q4 x y⟩)
    (by rintro rfl y; exact hw.trusted y) (hw.wire _ _ _ _ hi) seed seeds
  by_cases ha : i ∈ n.accepted b
  · have hdup := hg.again hC q2 hi ha (hr ha) seed
    rw [dwsr_duplicate (r := { r with fresh := false }) seeds hdup] at hrec
    refine ⟨r, r, q1, ?_, rfl, rfl⟩
    rw [hrec]
    rw [← q1]
    rcases hws with rfl | ⟨_, _, rfl⟩ <;> rfl
  · obtain ⟨s', g', d1, _⟩ := hg.receive hC q2 hi ha (hl ha) hseed hfresh
    rw [dwsr_forward (r := { r with fresh := false }) seeds d1] at hrec
    refine ⟨r, { r with fresh := false }.setState s', q1, ?_, rfl, (dwss_same d1).1.2.2.2.1⟩
    rw [hrec]
    rcases hws with rfl | ⟨_, _, rfl⟩ <;> simp [Outcome.final, World.applyAll, World.apply, upd]

/-- What the attacker delivers on an open side: if it is accepted, at most a leftover is put into the record. -/
theorem open_attack (hC : C.Lawful) {ids : Bool → ECPub} {cv : Conv} {n : Net} {hd : PkHeader} {g : Ghost .v3}
    (hw : WInv cv ids hd n g) {b : Bool}
    (hopen : Open cv ids hd g b (n.world b)) {type : Nat} {bytes : Bytes} (ha : Attack cv n b type bytes) {seed : Bytes}
    {seeds : Nat → Bytes} {pt : Bytes} (hok : (Spec.receive (n.world b) (cv.addr b) type bytes seed seeds).result = .ok pt) :
    ∃ r r', (n.world b).sessions (cv.addr b) = some r ∧
      ((Spec.receive (n.world b) (cv.addr b) type bytes seed seeds).final (n.world b)).sessions (cv.addr b) = some r' ∧
      r'.sessionState.aliceBaseKey = r.sessionState.aliceBaseKey ∧
      ∀ s ∈ r'.previousStates, s ∈ r.previousStates ∨ ∃ m : PreKeyWhisperMessage, m.identityKey = (n.world (!b)).identityKeyPair.pub ∧
        SetUp (n.world b) m s ∧ r.sessionState.aliceBaseKey ≠ some (5 :: m.baseKey) := by
  obtain ⟨r, q1, q2, q3, q4⟩ := hopen
  have hload : (n.world b).loadSession (cv.addr b) = { r with fresh := false } := by unfold World.loadSession; rw [q1]
  have direct : ∀ (m : WhisperMessage) (pt : Bytes) (r' : SessionRecord), Spec.Unforged cv n b m →
      SessionCipher.decryptWithSessionRecord ((n.world b).loadSession (cv.addr b)) m seed seeds = .ok (pt, r') →
      r'.sessionState.aliceBaseKey = r.sessionState.aliceBaseKey ∧ r'.previousStates = r.previousStates := by
    intro m pt r' hu hdec
    rw [hload] at hdec
    rcases dwsr_ok hdec with ⟨s2, e1, rfl⟩ | ⟨_, k, p, s2, e1, e2, _, rfl⟩
    · exact ⟨(dwss_same e1).1.2.2.2.1, rfl⟩
    · exact (rejected hC (hu.previous r q1 p (List.mem_of_getElem? e1)) e2).elim
  unfold Attack at ha
  unfold Spec.receive at hok ⊢
  split at hok
  · rename_i ht
    rw [if_pos ht] at ha ⊢
    cases hp : PreKeyWhisperMessage.parse bytes with
    | error e => rw [hp] at hok; cases hok
    | ok m =>
      rw [hp] at hok
      simp only at hok ⊢
      have hu := ha m hp
      obtain ⟨sh1, _, sh3⟩ := parsed_shape hp
      rcases decryptPkmsg_cases (n.world b) (cv.addr b) m seed seeds with ⟨_, h'⟩ | ⟨hti, ⟨e, _, h'⟩ | ⟨r, u, e, _, _, h'⟩ | ⟨r1, u, pt', r2, hv, hdec, h'⟩⟩
      · rw [h'] at hok; cases hok
      · rw [h'] at hok; cases hok
      · rw [h'] at hok; cases hok
      · rw [h']
        show ∃ r r', _ ∧ ((n.world b).applyAll _).sessions (cv.addr b) = some r' ∧ _
        refine ⟨r, r2, q1, pkmsg_final.1, ?_⟩
        cases hkn : ((n.world b).loadSession (cv.addr b)).hasSessionState m.version (Curve.serializePoint m.baseKey) with
        | true =>
          rcases processV3_ok hv with ⟨_, hx⟩ | ⟨hx, _⟩
          · obtain ⟨rfl, rfl⟩ := Prod.mk.inj hx
            obtain ⟨g1, g2⟩ := direct _ _ _ hu.inner hdec
            exact ⟨g1, fun s hs => Or.inl (by rw [← g2]; exact hs)⟩
          · rw [hkn] at hx; cases hx
        | false =>
          obtain ⟨s, hsu, hr1⟩ := setUp_of_process hC hkn hv
          simp only at hr1
          subst hr1
          have hnk : ¬ Spec.alreadyKnown (n.world b) (cv.addr b) m := by
            intro hx
            rw [(loaded_known _ _ m).2 hx] at hkn
            cases hkn
          have hbase : r.sessionState.aliceBaseKey ≠ some (5 :: m.baseKey) := by
            intro hx
            refine hnk ⟨r, q1, r.sessionState, List.mem_cons_self .., ?_, ?_⟩
            · rw [q2.version, sh1]; rfl
            · rw [hx]; rfl
          rcases dwsr_ok hdec with ⟨s2, e1, rfl⟩ | ⟨_, k, p, s2, e1, e2, _, rfl⟩
          · exfalso
            obtain ⟨i, p, pt2, x1, x2, _⟩ := hu.setup hti hnk s hsu (verifies_of_dwss hC (fun _ => setUp_version hsu) e1)
            rcases hw.wire _ _ _ _ x1 with ⟨m0, hm0, _⟩ | ⟨hb, hwt, m0, p0, p', hp0, hann⟩
            · cases hm0
            obtain rfl : p = p0 := Ciphertext.preKey.inj hp0
            obtain rfl : b = false := by cases b with | false => rfl | true => cases hb
            obtain ⟨_, _, y3, _⟩ := hann.sent
            apply hbase
            rw [q4 rfl hwt, ← x2, y3]
            rfl
          · obtain ⟨r0, hr0, hget⟩ := archived_get e1
            rw [q1] at hr0
            obtain rfl := Option.some.inj hr0
            cases k with
            | succ k => exact (rejected hC (hu.inner.previous r q1 p (List.mem_of_getElem? hget)) e2).elim
            | zero =>
              obtain rfl : r.sessionState = p := Option.some.inj hget
              refine ⟨(dwss_same e2).1.2.2.2.1, fun x hx => ?_⟩
              have hx' : x = s ∨ x ∈ (archiveUnlessFresh ((n.world b).loadSession (cv.addr b))).previousStates.eraseIdx 0 := by
                have : x ∈ s :: (archiveUnlessFresh ((n.world b).loadSession (cv.addr b))).previousStates.eraseIdx 0 := by
                  unfold SessionRecord.promoteState at hx
                  simp only at hx
                  split at hx
                  · exact List.mem_of_mem_dropLast hx
                  · exact hx
                exact List.mem_cons.1 this
              rcases hx' with rfl | hx'
              · exact Or.inr ⟨m, by rw [hu.pinned hti], hsu, hbase⟩
              · left
                rw [hload] at hx'
                obtain ⟨j, hj⟩ := List.getElem?_of_mem hx'
                rw [List.eraseIdx_zero, List.getElem?_tail, ← hload] at hj
                obtain ⟨r0, hr0, hget⟩ := archived_get hj
                rw [q1] at hr0
                obtain rfl := Option.some.inj hr0
                exact List.mem_of_getElem? (show r.previousStates[j]? = _ from hget)
  · rename_i ht
    rw [if_neg ht] at ha ⊢
    cases hp : WhisperMessage.parse bytes with
    | error e => rw [hp] at hok; cases hok
    | ok m =>
      rw [hp] at hok
      simp only at hok ⊢
      unfold SessionCipher.decryptMsg at hok ⊢
      split at hok
      · cases hok
      · rename_i hcs
        rw [if_neg hcs]
        cases hdec : SessionCipher.decryptWithSessionRecord ((n.world b).loadSession (cv.addr b)) m seed seeds with
        | error e => rw [hdec] at hok; cases hok
        | ok x =>
          obtain ⟨g1, g2⟩ := direct m x.1 x.2 (ha m hp) hdec
          refine ⟨r, x.2, q1, ?_, g1, fun s hs => Or.inl (by rw [← g2]; exact hs)⟩
          simp [ok_bind, Outcome.ofRes, Outcome.final, World.applyAll, World.apply, upd]

theorem joined_open {v : Kdf} {ids : Bool → ECPub} {cv : Conv} {n : Net} {hd : PkHeader} {g : Ghost v} (hw : WInv cv ids hd n g) {b : Bool}
    (hj : n.joined cv b) : Open cv ids hd g b (n.world b) := by
  rcases hw.sides b with h | ⟨rfl, h⟩
  · exact h
  · exact absurd h.accepted (hj h.waits rfl)

omit C in
theorem not_joined {cv : Conv} {n : Net} {b : Bool} (hj : ¬ n.joined cv b) : b = false ∧ cv.waits = true ∧ n.accepted false = [] := by
  cases b with
  | true => exact absurd (fun _ h => by cases h) hj
  | false =>
    cases hw : cv.waits with
    | false => exact absurd (fun h => by rw [hw] at h; cases h) hj
    | true => exact ⟨rfl, rfl, Classical.byContradiction fun h => hj fun _ _ => h⟩

theorem step_clean (hC : C.Lawful) {ids : Bool → ECPub} {cv : Conv} {n n' : Net} (hid : ∀ b, (n.world b).identityKeyPair.pub = ids b)
    (hc : ConvAt .v3 ids cv n) (hn : Clean cv n) (h : Spec.Step cv n n') : Clean cv n' := by
  have hcv := hc
  obtain ⟨hd, g, hg, hw⟩ := hc
  cases h with
  | @send b pt c h1 h2 h3 =>
    obtain ⟨r, q1, _⟩ := joined_open hw (b := b) h1
    obtain ⟨r', e1, e2, e3, e4⟩ := encrypt_final q1 h3
    refine hn.upd (fixed_applyAll _ _) (fun _ _ => rfl) (fun _ => ?_) (fun _ hj => absurd h1 hj) (fun r1 hr1 s hs => ?_)
    · rw [e4]; exact hn.saved b h1
    · rw [e1] at hr1
      obtain rfl := Option.some.inj hr1
      rw [e2] at hs
      exact hn.old q1 e3 hs
  | @deliver b i c pt seed seeds h1 h2 h3 h4 h5 =>
    have hacc : ∀ a, a ≠ b → upd n.accepted b (if i ∈ n.accepted b then n.accepted b else n.accepted b ++ [i]) a = n.accepted a :=
      fun a ha => upd_other _ _ ha
    by_cases hj : n.joined cv b
    · obtain ⟨r, r', q1, q2, q3, q4⟩ := open_deliver hC hg hw (joined_open hw hj) seeds h1 h2 h3 h4 h5
      refine hn.upd (fixed_applyAll _ _) hacc (fun _ => receive_saved (hn.policy b) (hn.saved b hj) _ _ _ _) (fun _ hj' => ?_)
        (fun r1 hr1 s hs => ?_)
      · refine absurd (fun x y => ?_) hj'
        subst y
        rw [upd_same]
        split
        · exact hj x rfl
        · simp
      · rw [q2] at hr1
        obtain rfl := Option.some.inj hr1
        rw [q3] at hs
        exact hn.old q1 q4 hs
    · obtain ⟨rfl, hwt, hempty⟩ := not_joined hj
      have hni : i ∉ n.accepted false := by rw [hempty]; simp
      have hok := (conv_deliver_at hC hcv seeds h1 h2 h3 h4 h5).2.1 hni
      obtain ⟨r', e1, e2, e3⟩ := chainless_receive hC (peer := (n.world (!false)).identityKeyPair.pub) (hn.before false · hj) (fun ht m hp _ => by
        rcases hw.wire _ _ _ _ h1 with ⟨m0, rfl, _⟩ | ⟨_, _, m0, p0, p', rfl, hann⟩
        · cases ht
        · have hp' : PreKeyWhisperMessage.parse p0.serialized = .ok m := hp
          rw [hann.parse] at hp'
          obtain rfl := Except.ok.inj hp'
          rw [hann.ik, hid]; rfl) hok
      refine hn.upd (fixed_applyAll _ _) hacc (fun _ => e3) (fun _ hj' => ?_) (fun r1 hr1 s hs => ?_)
      · refine absurd (fun x y => ?_) hj'
        rw [upd_same, if_neg hni]
        simp
      · rw [e1] at hr1
        obtain rfl := Option.some.inj hr1
        exact Or.inl (e2 s hs)
  | @other b call h1 h2 h3 =>
    obtain ⟨_, _, c1, c2, c3, c4⟩ := C30_isolation (n.world b) call
    refine hn.upd ⟨c2, c1, c3, c4⟩ (fun _ _ => rfl) (fun hj => ?_) (fun r hj hr => ?_) (fun r hr s hs => ?_)
    · rcases h2 with h2 | h2
      · rw [h2]; exact hn.saved b hj
      · exact h2
    · rw [h1] at hr; exact hn.before b r hj hr
    · rw [h1] at hr
      exact hn.old hr rfl hs

theorem attack_clean (hC : C.Lawful) {ids : Bool → ECPub} {cv : Conv} {n : Net} (hid : ∀ b, (n.world b).identityKeyPair.pub = ids b)
    (hc : ConvAt .v3 ids cv n) (hn : Clean cv n) {b : Bool} {type : Nat} {bytes seed : Bytes} {seeds : Nat → Bytes} {acc : List Nat}
    (ha : Attack cv n b type bytes) (hs1 : seed.length = 32) (hs2 : (seeds 0).length = 32)
    (hf1 : C.genPub (C.genPriv seed) ∉ n.keys) (hf2 : C.genPub (C.genPriv (seeds 0)) ∉ n.keys)
    (hr : Spec.Recorded n b type bytes (Spec.receive (n.world b) (cv.addr b) type bytes seed seeds).result acc) (keys : List ECPub) :
    Clean cv { n with
      world := upd n.world b ((Spec.receive (n.world b) (cv.addr b) type bytes seed seeds).final (n.world b)),
      accepted := upd n.accepted b acc, keys := keys } := by
  have hat := conv_attack hC hc hid ha hs1 hs2 hf1 hf2
  obtain ⟨hd, g, hg, hw⟩ := hc
  have hacc : ∀ a, a ≠ b → upd n.accepted b acc a = n.accepted a := fun a ha => upd_other _ _ ha
  cases ho : (Spec.receive (n.world b) (cv.addr b) type bytes seed seeds).result with
  | error e =>
    rw [ho] at hr
    cases hr
    have hj : ∀ {P : Prop}, ((cv.waits = true → b = false → upd n.accepted b (n.accepted b) false ≠ []) → P) → n.joined cv b → P := by
      intro P h j
      refine h fun x y => ?_
      subst y
      rw [upd_same]
      exact j x rfl
    obtain ⟨_, g1, _, g3⟩ := hat.refused e ho
    refine hn.upd (fixed_applyAll _ _) hacc (fun j => ?_) (fun r j hr => ?_) (fun r hr s hs => ?_)
    · refine receive_saved (hn.policy b) (hn.saved b fun x y => ?_) _ _ _ _
      have := j x y
      subst y
      rwa [upd_same] at this
    · rw [g1] at hr
      exact hn.before b r (hj j) hr
    · rw [g1] at hr
      exact hn.old hr rfl hs
  | ok pt' =>
    rw [ho] at hr
    cases hr with
    | @taken i c pt _ h1 h2 =>
      by_cases hj : n.joined cv b
      · obtain ⟨r, r', q1, q2, q3, q4⟩ := open_attack hC hw (joined_open hw hj) ha ho
        refine hn.upd (fixed_applyAll _ _) hacc (fun _ => receive_saved (hn.policy b) (hn.saved b hj) _ _ _ _) (fun _ hj' => ?_)
          (fun r1 hr1 s hs => ?_)
        · refine absurd (fun x y => ?_) hj'
          subst y
          rw [upd_same]
          simp
        · rw [q2] at hr1
          obtain rfl := Option.some.inj hr1
          rcases q4 s hs with hs | ⟨m, k1, k2, k3⟩
          · exact hn.old q1 q3 hs
          · exact Or.inr ⟨(n.world b).preKeys, m, k1, k2, by rw [q3]; exact k3⟩
      · obtain ⟨rfl, hwt, hempty⟩ := not_joined hj
        obtain ⟨r', e1, e2, e3⟩ := chainless_receive hC (peer := (n.world (!false)).identityKeyPair.pub) (hn.before false · hj)
          (fun ht m hp hti => by
            unfold Attack at ha
            rw [if_pos ht] at ha
            exact (ha m hp).pinned hti) ho
        refine hn.upd (fixed_applyAll _ _) hacc (fun _ => e3) (fun _ hj' => ?_) (fun r1 hr1 s hs => ?_)
        · refine absurd (fun x y => ?_) hj'
          rw [upd_same]
          simp
        · rw [e1] at hr1
          obtain rfl := Option.some.inj hr1
          exact Or.inl (e2 s hs)

end
end Axolotl
